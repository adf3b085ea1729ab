import Verif.Lemmas.Drawing
/-!
# C101 — drawings
-/
namespace Verif.Props
open Verif Verif.Drawing Verif.Spec.Drawing
open Verif.Spec.SrtDoc (White)

/-- Whole numbers, for the examples. -/
def drawNum (t : Str) : Option Rat := (parseUnsigned 10 1000000 t).map (fun n => (n : Rat))

/-- **C101.** The tokens of a drawing: letters by themselves in lower case, words of other characters as far as they go, blanks
only separate, and nothing after the first backslash counts.  Every text falls into such tokens. -/
theorem C101_tokens (text : Str) : (∀ ts, Tokens text ts → tokenize [] text = ts) ∧ ∃ ts, Tokens text ts :=
  ⟨fun _ => tokenize_eq, tokens_exist text⟩

example : tokenize [] "M0 0l 10,5\\p0 m".toList = [['m'], ['0'], ['0'], ['l'], "10,5".toList] := by decide +kernel

/-- A square and a spline. -/
def someShapes : List Shape :=
  [.move (⟨['0'], 0⟩, ⟨['0'], 0⟩) [(⟨"100".toList, 100⟩, ⟨['0'], 0⟩)], .line (⟨['9'], 9⟩, ⟨['8'], 8⟩) [],
    .spline (⟨['1'], 1⟩, ⟨['1'], 1⟩) (⟨['2'], 2⟩, ⟨['1'], 1⟩) (⟨['2'], 2⟩, ⟨['3'], 3⟩) [], .close]

/-- **C101.** A text made of well formed parts is read as exactly their commands, in order: a move with further points as lines,
moves that do not draw, lines, Bézier curves of three points each, closed splines of three points or more, open ones, and
closings.  Letters may be in either case and the coordinates separated by any blanks.
Missing: texts with malformed parts (`C101_broken`, `C101_leftover`, `C101_incomplete_violated`) and numbers with exponents
(`C101_exponent_violated`). -/
theorem C101_commands_partial (num : Str → Option Rat) (shapes : List Shape) (text : Str) (hr : ∀ s ∈ shapes, Readable num s)
    (ht : Tokens text (shapes.flatMap tokens)) : parseCommands num text = some (shapes.flatMap commands) := parse_shapes hr ht

theorem some_text : Tokens "m 0 0 100 0 L 9 8 s 1 1 2 1 2 3c".toList (someShapes.flatMap tokens) := by
  obtain ⟨ts, h⟩ := tokens_exist "m 0 0 100 0 L 9 8 s 1 1 2 1 2 3c".toList
  have e : tokenize [] "m 0 0 100 0 L 9 8 s 1 1 2 1 2 3c".toList = someShapes.flatMap tokens := by decide +kernel
  rw [← e, tokenize_eq h]
  exact h

theorem some_readable : ∀ s ∈ someShapes, Readable drawNum s := by
  have hw : ∀ w : Str, w ≠ [] → w.all (fun c => !isWs c && !c.isAlpha && c != '\\') = true → Word w := by
    intro w hne h
    refine ⟨hne, fun c hc => ?_⟩
    have := List.all_eq_true.1 h c hc
    simp only [Bool.and_eq_true, Bool.not_eq_true', bne_iff_ne, ne_eq] at this
    refine ⟨fun e => ?_, this.1.2, this.2⟩
    rw [(SrtDoc.white_iff c).2 e] at this
    cases this.1.1
  have : ∀ s ∈ someShapes, ∀ p ∈ points s, ∀ c ∈ [p.1, p.2],
      (c.text ≠ [] ∧ c.text.all (fun c => !isWs c && !c.isAlpha && c != '\\') = true) ∧ drawNum c.text = some c.value := by
    have : ∀ c ∈ (someShapes.flatMap points).flatMap (fun p => [p.1, p.2]),
        (c.text ≠ [] ∧ c.text.all (fun c => !isWs c && !c.isAlpha && c != '\\') = true) ∧ drawNum c.text = some c.value := by
      decide +kernel
    intro s hs p hp c hc
    exact this c (List.mem_flatMap.2 ⟨p, List.mem_flatMap.2 ⟨s, hs, hp⟩, hc⟩)
  intro s hs p hp c hc
  obtain ⟨⟨h1, h2⟩, h3⟩ := this s hs p hp c hc
  exact ⟨hw _ h1 h2, h3⟩

example : parseCommands drawNum "m 0 0 100 0 L 9 8 s 1 1 2 1 2 3c".toList =
    some [.moveTo (0, 0), .lineTo (100, 0), .lineTo (9, 8), .spline [(1, 1), (2, 1), (2, 3), (1, 1)], .closePath] := by
  rw [C101_commands_partial drawNum someShapes _ some_readable some_text]
  decide +kernel

/-- **C101.** Such a text, if not empty, is drawn: moves, lines and curves to their points, and each spline as one curve from each
of its points to the next, going through all of them and without corners where the curves meet.
Missing: malformed parts, and B-splines as the format means them, which do not go through their points (`C101_bspline_violated`). -/
theorem C101_path_partial (num : Str → Option Rat) (shapes : List Shape) (text : Str) (hr : ∀ s ∈ shapes, Readable num s)
    (ht : Tokens text (shapes.flatMap tokens)) (hne : shapes ≠ []) :
    ∃ path, process num text = some path ∧ DrawsAll (shapes.flatMap commands) path := by
  refine ⟨(shapes.flatMap commands).flatMap calls, ?_, ?_⟩
  · unfold process
    rw [parse_shapes hr ht]
    cases shapes with
    | nil => exact absurd rfl hne
    | cons s l =>
      have h := commands_ne s
      rw [List.flatMap_cons]
      cases hc : commands s with
      | nil => exact absurd hc h
      | cons c cs => rfl
  · refine draws_all ?_
    intro c hc
    obtain ⟨s, _, hs⟩ := List.mem_flatMap.1 hc
    exact commands_long c hs

example : process drawNum "m 0 0 100 0 L 9 8 s 1 1 2 1 2 3c".toList ≠ none := by
  obtain ⟨path, h, _⟩ := C101_path_partial drawNum someShapes _ some_readable some_text (by simp [someShapes])
  rw [h]; simp

/-- **C101.** A text is not drawn at all if a well formed part is followed by a spline of one or two points before the next command
or the end.
Missing: other malformed parts (`C101_broken`, `C101_lone_partial`, `C101_incomplete_violated`). -/
theorem C101_rejects_partial (num : Str → Option Rat) (shapes : List Shape) (text : Str) (hr : ∀ s ∈ shapes, Readable num s)
    (c : Char) (few : List Point) (rest : List Str) (hf : ∀ p ∈ few, ∀ c ∈ [p.1, p.2], Word c.text ∧ num c.text = some c.value)
    (hn : ∀ t, rest.head? = some t → t ∈ [['m'], ['n'], ['l'], ['b'], ['s'], ['p'], ['c']])
    (hc : (c = 's' ∨ c = 'p') ∧ (few.length = 1 ∨ few.length = 2))
    (ht : Tokens text (shapes.flatMap tokens ++ [c] :: ((few.flatMap fun p => [p.1.text, p.2.text]) ++ rest))) :
    process num text = none := by
  have hp : pairs num ((few.flatMap fun p => [p.1.text, p.2.text]) ++ rest) = some (few.map val, rest) :=
    pairs_points hf (fun t h => decide_eq_true (hn t h))
  have hs : ∀ mk acc, splineCmd num mk acc ((few.flatMap fun p => [p.1.text, p.2.text]) ++ rest) = none := by
    intro mk acc
    unfold splineCmd
    rw [hp]
    dsimp only
    rw [if_neg (by rw [List.length_map]; omega), if_neg (by intro e; have := congrArg List.length e; rw [List.length_map, List.length_nil] at this; omega)]
  unfold process
  rw [parse_fails hr (t := [c]) (by rcases hc.1 with rfl | rfl <;> decide) (fun acc => ?_) ht]
  rcases hc.1 with rfl | rfl
  · rw [step, if_neg (by decide), if_neg (by decide), if_neg (by decide), if_neg (by decide), if_pos rfl, hs]
  · rw [step, if_neg (by decide), if_neg (by decide), if_neg (by decide), if_neg (by decide), if_neg (by decide), if_pos rfl, hs]

example : process drawNum "m 0 0 s 1 1 2 2 c".toList = none ∧ process drawNum "m 0 0 p 1 1".toList = none := by decide +kernel

/-- **C101.** Nor if it begins with `n`, `l` or `b` without coordinates before the next command or the end.
Missing: such commands later in the text, for which it depends on the command before (`C101_incomplete_violated`). -/
theorem C101_lone_partial (num : Str → Option Rat) (text : Str) (c : Char) (hc : c = 'n' ∨ c = 'l' ∨ c = 'b') (rest : List Str)
    (hn : ∀ t, rest.head? = some t → t ∈ [['m'], ['n'], ['l'], ['b'], ['s'], ['p'], ['c']]) (ht : Tokens text ([c] :: rest)) :
    process num text = none := by
  have hp : pairs num rest = some ([], rest) := by
    have := pairs_points (num := num) (l := []) (fun _ h => by cases h) (r := rest) (fun t h => decide_eq_true (hn t h))
    exact this
  have h6 : sixes num rest = some ([], rest) := sixes_next (fun t h => decide_eq_true (hn t h))
  have hs : step num [] [c] rest = none := by
    rcases hc with rfl | rfl | rfl
    · rw [step, if_neg (by decide), if_pos rfl, hp]; rfl
    · rw [step, if_neg (by decide), if_neg (by decide), if_pos rfl, hp]; rfl
    · rw [step, if_neg (by decide), if_neg (by decide), if_neg (by decide), if_pos rfl, h6]; rfl
  unfold process parseCommands
  rw [tokenize_eq ht, List.length_cons, loop, hs]

example : process drawNum "l m 0 0".toList = none ∧ process drawNum "b".toList = none := by decide +kernel

/-- **C101.** Nor if, after well formed parts and well formed points of the next, there is a point (three, for Bézier curves) begun of
which something is not a number: a word that cannot be read, or the letter of another command where a coordinate should be. -/
theorem C101_broken (num : Str → Option Rat) (shapes : List Shape) (text : Str) (hr : ∀ s ∈ shapes, Readable num s)
    (c : Char) (good : List Point) (group rest : List Str) (hg : ∀ p ∈ good, ∀ c ∈ [p.1, p.2], Word c.text ∧ num c.text = some c.value)
    (hc : c ∈ ['m', 'n', 'l', 's', 'p'] ∧ group.length = 2 ∨ c = 'b' ∧ group.length = 6 ∧ good.length % 3 = 0)
    (hw : ∀ t, group.head? = some t → Word t) (hb : ∃ t ∈ group, num t = none)
    (ht : Tokens text (shapes.flatMap tokens ++ [c] :: ((good.flatMap fun p => [p.1.text, p.2.text]) ++ group ++ rest))) :
    process num text = none := by
  unfold process
  rw [List.append_assoc (good.flatMap fun p => [p.1.text, p.2.text])] at ht
  rw [parse_fails hr (t := [c]) ?_ (fun acc => ?_) ht]
  · rcases hc with ⟨hc, _⟩ | ⟨rfl, _⟩
    · simp only [List.mem_cons, List.not_mem_nil, or_false] at hc
      rcases hc with rfl | rfl | rfl | rfl | rfl <;> decide
    · decide
  rcases hc with ⟨hc, hl⟩ | ⟨rfl, hl, hm⟩
  · match group, hl, hw, hb with
    | [a, b], _, hw, hb =>
      have ha : Word a := hw a rfl
      have hn : num a = none ∨ num b = none := by
        obtain ⟨t, ht, hn⟩ := hb
        simp only [List.mem_cons, List.not_mem_nil, or_false] at ht
        rcases ht with rfl | rfl
        · exact Or.inl hn
        · exact Or.inr hn
      have hp : pairs num ((good.flatMap fun p => [p.1.text, p.2.text]) ++ ([a, b] ++ rest)) = none := pairs_broken hg ha hn rest
      have hmv : ∀ acc, moveCmd num acc ((good.flatMap fun p => [p.1.text, p.2.text]) ++ ([a, b] ++ rest)) = none := by
        intro acc
        cases good with
        | nil =>
          show moveCmd num acc (a :: b :: rest) = none
          rw [moveCmd]
          rcases hn with h | h
          · rw [h]
          · rw [h]; cases num a <;> rfl
        | cons p good =>
          obtain ⟨_, n1⟩ := hg p (by simp) p.1 (by simp)
          obtain ⟨_, n2⟩ := hg p (by simp) p.2 (by simp)
          show moveCmd num acc (p.1.text :: p.2.text :: ((good.flatMap fun p => [p.1.text, p.2.text]) ++ a :: b :: rest)) = none
          rw [moveCmd, n1, n2]
          dsimp only
          rw [show pairs num ((good.flatMap fun p => [p.1.text, p.2.text]) ++ a :: b :: rest) = none from
            pairs_broken (fun q hq => hg q (by simp [hq])) ha hn rest]
          rfl
      simp only [List.mem_cons, List.not_mem_nil, or_false] at hc
      rcases hc with rfl | rfl | rfl | rfl | rfl
      · rw [step, if_pos rfl, hmv]
      · rw [step, if_neg (by decide), if_pos rfl, hp]; rfl
      · rw [step, if_neg (by decide), if_neg (by decide), if_pos rfl, hp]; rfl
      · rw [step, if_neg (by decide), if_neg (by decide), if_neg (by decide), if_neg (by decide), if_pos rfl, splineCmd, hp]
      · rw [step, if_neg (by decide), if_neg (by decide), if_neg (by decide), if_neg (by decide), if_neg (by decide), if_pos rfl,
          splineCmd, hp]
  · match group, hl, hw, hb with
    | [a, b, c, d, e, f], _, hw, hb =>
      have h6 : sixes num ((good.flatMap fun p => [p.1.text, p.2.text]) ++ ([a, b, c, d, e, f] ++ rest)) = none :=
        sixes_broken (hw a rfl) hb rest hg hm
      rw [step, if_neg (by decide), if_neg (by decide), if_neg (by decide), if_pos rfl, h6]; rfl

example : process drawNum "m 0 0 l 1 #2".toList = none ∧ process drawNum "m 0 0 l 1 1 2 c".toList = none ∧
    process drawNum "m 0 0 b 1 1 2 2 3 #".toList = none ∧ process drawNum "m 0 0 s 1 1 2 2 3 n 1 1".toList = none := by decide +kernel

/-- It meets the conditions: the third line has one coordinate only. -/
example : process drawNum "m 0 0 l 1 1 2 c".toList = none := by
  let zero : Coord := ⟨['0'], 0⟩
  let one : Coord := ⟨['1'], 1⟩
  have h0 : Word ['0'] := word_char.2 ⟨by unfold Spec.SrtDoc.White; decide, by decide, by decide⟩
  have h1 : Word ['1'] := word_char.2 ⟨by unfold Spec.SrtDoc.White; decide, by decide, by decide⟩
  have h2 : Word ['2'] := word_char.2 ⟨by unfold Spec.SrtDoc.White; decide, by decide, by decide⟩
  refine C101_broken drawNum [.move (zero, zero) []] _ ?_ 'l' [(one, one)] [['2'], ['c']] [] ?_ (Or.inl ⟨by decide, rfl⟩) ?_ ?_ ?_
  · intro s hs
    rw [List.mem_singleton] at hs
    subst hs
    intro p hp c hc
    simp only [points, List.mem_singleton] at hp
    subst hp
    simp only [List.mem_cons, List.not_mem_nil, or_false, or_self] at hc
    subst hc
    exact ⟨h0, by decide +kernel⟩
  · intro p hp c hc
    rw [List.mem_singleton] at hp
    subst hp
    simp only [List.mem_cons, List.not_mem_nil, or_false, or_self] at hc
    subst hc
    exact ⟨h1, by decide +kernel⟩
  · intro t ht; cases ht; exact h2
  · exact ⟨['c'], by simp, by decide +kernel⟩
  · obtain ⟨ts, hts⟩ := tokens_exist "m 0 0 l 1 1 2 c".toList
    have := tokenize_eq hts
    have e : tokenize [] "m 0 0 l 1 1 2 c".toList = [['m'], ['0'], ['0'], ['l'], ['1'], ['1'], ['2'], ['c']] := by decide +kernel
    rw [e] at this
    subst this
    exact hts

/-- **C101.** What belongs to no command is passed over: words and other letters before the first command, and at the end of the text
the coordinates left over, too few for a point (for three, after a Bézier curve), or any after a closing. -/
theorem C101_leftover (num : Str → Option Rat) (lead left : List Str) (shapes : List Shape) (last : Shape) (text : Str)
    (hr : ∀ s ∈ shapes ++ [last], Readable num s)
    (hl : ∀ t ∈ lead ++ left, t ∉ [['m'], ['n'], ['l'], ['b'], ['s'], ['p'], ['c']])
    (hs : match last with | .bezier .. => left.length < 6 | .close => True | _ => left.length < 2)
    (ht : Tokens text (lead ++ (shapes ++ [last]).flatMap tokens ++ left)) :
    parseCommands num text = some ((shapes ++ [last]).flatMap commands) := by
  have hc : ∀ t ∈ lead ++ left, isCommand t = false := fun t h => decide_eq_false (hl t h)
  unfold parseCommands
  rw [tokenize_eq ht]
  rw [List.flatMap_append, List.flatMap_singleton, List.append_assoc lead, List.append_assoc (shapes.flatMap tokens)]
  obtain ⟨k1, g1, e1⟩ := loop_skip (num := num) (fun t h => hc t (by simp [h])) [] (shapes.flatMap tokens ++ (tokens last ++ left))
    (ws := lead) (Nat.le_refl _)
  rw [e1]
  obtain ⟨k2, g2, e2⟩ := loop_rest (num := num) (l := shapes) (fun s h => hr s (by simp [h])) (r := tokens last ++ left)
    (by
      intro t h
      cases h
      cases last <;> rfl) [] g1
  rw [e2]
  cases k2 with
  | zero => simp [tokens] at g2
  | succ k2 =>
    show loop num (k2 + 1) _ ([letter last] :: ((points last).flatMap (fun p => [p.1.text, p.2.text]) ++ left)) = _
    have hE : Ends num last left := by
      cases last with
      | bezier p l => exact Or.inl ⟨Or.inr ⟨p, l, rfl⟩, Or.inl (sixes_short hs)⟩
      | close => exact Or.inr rfl
      | move => exact Or.inl ⟨Or.inl (pairs_short hs), Or.inr (by intros; simp)⟩
      | noDraw => exact Or.inl ⟨Or.inl (pairs_short hs), Or.inr (by intros; simp)⟩
      | line => exact Or.inl ⟨Or.inl (pairs_short hs), Or.inr (by intros; simp)⟩
      | spline => exact Or.inl ⟨Or.inl (pairs_short hs), Or.inr (by intros; simp)⟩
      | extend => exact Or.inl ⟨Or.inl (pairs_short hs), Or.inr (by intros; simp)⟩
    rw [loop, step_until (hr last (by simp)) _ hE]
    dsimp only
    have g3 : (left ++ ([] : List Str)).length ≤ k2 := by
      rw [List.append_nil]
      have : (tokens last ++ left).length = (tokens last).length + left.length := List.length_append
      have h1 : 1 ≤ (tokens last).length := by simp [tokens]
      omega
    obtain ⟨k3, _, e3⟩ := loop_skip (num := num) (fun t h => hc t (by simp [h])) ([] ++ shapes.flatMap commands ++ commands last) []
      (ws := left) g3
    rw [List.append_nil] at e3
    rw [e3]
    have hnil : ∀ k (acc : List Cmd), loop num k acc [] = some acc := by intro k acc; cases k <;> rfl
    rw [hnil, List.flatMap_append]
    simp

example : parseCommands drawNum "1 x 2 m 0 0 l 1 1 2".toList = some [.moveTo (0, 0), .lineTo (1, 1)] ∧
    parseCommands drawNum "m 0 0 b 1 1 2 2 3 3 4 4 5 5".toList = some [.moveTo (0, 0), .bezierTo (1, 1) (2, 2) (3, 3)] := by decide +kernel

/-- **C101.** Nothing is drawn for a text without commands, and a text is never read past a backslash. -/
theorem C101_tag_ends (num : Str → Option Rat) (a b : Str) (h : '\\' ∉ a) : process num (a ++ '\\' :: b) = process num a := by
  have key : ∀ (a cur : Str), '\\' ∉ a → tokenize cur (a ++ '\\' :: b) = tokenize cur a := by
    intro a
    induction a with
    | nil => intro cur _; simp [tokenize]
    | cons c a ih =>
      intro cur h
      have hc : c ≠ '\\' := fun e => h (e ▸ List.mem_cons_self)
      have ha : '\\' ∉ a := fun e => h (List.mem_cons_of_mem _ e)
      rw [List.cons_append, tokenize, tokenize, if_neg hc, if_neg hc, ih [] ha, ih _ ha]
  unfold process parseCommands
  rw [key a [] h]

/-- **C101 is violated**: the spline of `s` is not the B-spline it is meant to be: a B-spline stays within the box of its points,
and the curve drawn does not. -/
theorem C101_bspline_violated :
    ¬ ∀ (l : List Pt) (lo hi : Rat) (i : Nat) (p : Pt) (c : Curve) (t : Rat), 3 ≤ l.length → (∀ q ∈ l, lo ≤ q.1 ∧ q.1 ≤ hi) →
        l[i]? = some p → (splineToBezier l false)[i]? = some c → 0 ≤ t → t ≤ 1 → lo ≤ bezierX p c t ∧ bezierX p c t ≤ hi := by
  intro h
  have := h [(100, 0), (0, 0), (10, 0), (0, 0)] 0 100 1 (0, 0) ((-15, 0), (10, 0), (10, 0)) (1 / 4) (by decide)
    (by decide +kernel) rfl (by decide +kernel) (by decide +kernel) (by decide +kernel)
  revert this
  decide +kernel

/-- **C101.** The commands `s` and `p` draw the same curves through the same points; they differ only in that `s` closes them. -/
theorem C101_splines_same (l : List Pt) : splineToBezier l true = splineToBezier l false := spline_same l

/-- **C101 is violated**: numbers with an exponent are readable but not in a drawing. -/
theorem C101_exponent_violated :
    ¬ ∀ (num : Str → Option Rat) (x y : Str), (num x).isSome = true → (num y).isSome = true →
        (process num ("m ".toList ++ x ++ ' ' :: y)).isSome = true := by
  intro h
  have := h (fun t => if t = "1e1".toList then some 10 else if t = ['0'] then some 0 else none) "1e1".toList ['0']
    (by decide +kernel) (by decide +kernel)
  revert this
  decide +kernel

/-- **C101 is violated**: one bad command discards the drawing, the parts before it as well. -/
theorem C101_discarded_violated :
    ¬ ∀ (a b : Str), (process drawNum a).isSome = true → (process drawNum (a ++ ' ' :: b)).isSome = true := by
  intro h
  have := h "m 0 0 l 9 0 9 9".toList "m 5".toList (by decide +kernel)
  revert this
  decide +kernel

/-- **C101 is violated**: whether a command without its coordinates is an error depends on the command before it: a lone `l` is
accepted after a line. -/
theorem C101_incomplete_violated :
    ¬ ∀ a : Str, parseCommands drawNum (a ++ " l".toList) = none := by
  intro h
  have := h "m 0 0 l 9 0".toList
  revert this
  decide +kernel

example : parseCommands drawNum "m 0 0 l".toList = none := by decide +kernel

/-! ## Placing -/

/-- **C101.** A drawing with a position is placed so that the point of its box its alignment speaks of lies at the position, both
scaled to the frame; its size is the shape's, scaled. -/
theorem C101_aligned (level : Nat) (sx sy : Rat) (w h start stop time : Nat) (pos : Pt) (mv : Option Segment.Move) (a : Nat)
    (ha : 1 ≤ a ∧ a ≤ 9) (b : Box) :
    ∃ at_, anchor w h sx sy (some pos) mv start stop time = .ok at_ ∧
      alignPoint a (placed level sx sy at_ a b) = (pos.1 * sx, pos.2 * sy) ∧
      (placed level sx sy at_ a b).r - (placed level sx sy at_ a b).l = (b.r - b.l) * sx ∧
      (placed level sx sy at_ a b).b - (placed level sx sy at_ a b).t = (b.b - b.t) * sy := by
  refine ⟨_, rfl, ?_, ?_, ?_⟩
  · have : a = 1 ∨ a = 2 ∨ a = 3 ∨ a = 4 ∨ a = 5 ∨ a = 6 ∨ a = 7 ∨ a = 8 ∨ a = 9 := by omega
    rcases this with rfl | rfl | rfl | rfl | rfl | rfl | rfl | rfl | rfl
    all_goals
      simp [alignPoint, placed, offset]
      try constructor
      all_goals grind
  · simp only [placed]; grind
  · simp only [placed]; grind

example : alignPoint 7 (placed 1 2 2 (10, 20) 7 ⟨5, 5, 15, 25⟩) = (10, 20) ∧
    alignPoint 3 (placed 1 2 2 (10, 20) 3 ⟨5, 5, 15, 25⟩) = (10, 20) := by decide +kernel

/-- **C101.** A moving drawing is at the first point until the movement starts, at the second from its end on, and in between as far
along the way as the time has come; movement times are counted from the start of the event, and without times the movement takes
the whole event. -/
theorem C101_moving (w h : Nat) (sx sy : Rat) (m : Segment.Move) (start stop time : Nat)
    (hs : start + m.t1 < 2 ^ 32) (ht : start + m.t2 < 2 ^ 32) :
    ∃ a b at_, ((m.t1 = 0 ∧ m.t2 = 0 → a = start ∧ b = stop) ∧ (¬ (m.t1 = 0 ∧ m.t2 = 0) → a = start + m.t1 ∧ b = start + m.t2)) ∧
      anchor w h sx sy none (some m) start stop time = .ok at_ ∧
      (time ≤ a → at_ = (m.x1 * sx, m.y1 * sy)) ∧
      (a < time → b ≤ time → at_ = (m.x2 * sx, m.y2 * sy)) ∧
      (a < time → time < b → ∃ k, k * ((b : Rat) - (a : Rat)) = (time : Rat) - (a : Rat) ∧
        at_ = ((m.x1 + (m.x2 - m.x1) * k) * sx, (m.y1 + (m.y2 - m.y1) * k) * sy)) := by
  have key : ∀ a b : Nat, 
      let p : Pt := ((m.x1 + (m.x2 - m.x1) * progress time a b) * sx, (m.y1 + (m.y2 - m.y1) * progress time a b) * sy)
      (time ≤ a → p = (m.x1 * sx, m.y1 * sy)) ∧ (a < time → b ≤ time → p = (m.x2 * sx, m.y2 * sy)) ∧
      (a < time → time < b → ∃ k, k * ((b : Rat) - (a : Rat)) = (time : Rat) - (a : Rat) ∧
        p = ((m.x1 + (m.x2 - m.x1) * k) * sx, (m.y1 + (m.y2 - m.y1) * k) * sy)) := by
    intro a b
    refine ⟨fun hl => ?_, fun hl hr => ?_, fun hl hr => ?_⟩
    · have e : progress time a b = 0 := by rw [progress, if_pos hl]
      rw [e]
      ext <;> simp only <;> grind
    · have e : progress time a b = 1 := by rw [progress, if_neg (by omega), if_pos hr]
      rw [e]
      ext <;> simp only <;> grind
    · refine ⟨progress time a b, ?_, rfl⟩
      rw [progress, if_neg (by omega), if_neg (by omega)]
      have cast : ∀ x y : Nat, y ≤ x → ((x - y : Nat) : Rat) = (x : Rat) - (y : Rat) := by
        intro x y hxy
        have e : ((x - y : Nat) : Rat) + (y : Rat) = (x : Rat) := by
          rw [← Rat.natCast_add, Nat.sub_add_cancel hxy]
        grind
      have c1 := cast time a (by omega)
      have c2 := cast b a (by omega)
      have hne : (b : Rat) - (a : Rat) ≠ 0 := by
        rw [← c2]
        intro e
        have : b - a = 0 := Rat.natCast_inj.1 (by simpa using e)
        omega
      rw [c1, c2, Rat.div_def, Rat.mul_assoc, Rat.inv_mul_cancel _ hne, Rat.mul_one]
  by_cases h0 : m.t1 = 0 ∧ m.t2 = 0
  · refine ⟨start, stop, _, ⟨fun _ => ⟨rfl, rfl⟩, fun h => absurd h0 h⟩, ?_, key start stop⟩
    simp only [anchor, moveTimes, if_pos h0]
  · refine ⟨start + m.t1, start + m.t2, _, ⟨fun h => absurd h h0, fun _ => ⟨rfl, rfl⟩⟩, ?_, key (start + m.t1) (start + m.t2)⟩
    have hb : start + m.t1 < u32Bound ∧ start + m.t2 < u32Bound := ⟨hs, ht⟩
    simp only [anchor, moveTimes, if_neg h0, if_pos hb]

example : anchor 640 480 1 1 none (some ⟨0, 0, 100, 50, 100, 200⟩) 1000 2000 1150 = .ok (50, 25) := by decide +kernel

/-- **C101 is violated**: times far out make the renderer panic. -/
theorem C101_late_violated :
    ¬ ∀ (m : Segment.Move) (start stop time : Nat), start < 2 ^ 32 → m.t1 < 2 ^ 32 / 10 → m.t2 < 2 ^ 32 / 10 →
        anchor 640 480 1 1 none (some m) start stop time ≠ .panic := by
  intro h
  exact h ⟨0, 0, 0, 0, 400000000, 400000000⟩ 4000000000 4000000000 0 (by decide) (by decide) (by decide) (by decide +kernel)

/-- **C101 is violated**: the level of the drawing mode is not looked at: a drawing after `\p2` is not half as large as after
`\p1`. -/
theorem C101_level_violated :
    ¬ ∀ (n : Nat) (at_ : Pt) (a : Int) (b : Box), 1 ≤ n →
        ((placed n 1 1 at_ a b).r - (placed n 1 1 at_ a b).l) * ((2 ^ (n - 1) : Nat) : Rat) = b.r - b.l := by
  intro h
  have := h 2 (0, 0) 7 ⟨0, 0, 10, 10⟩ (by decide)
  revert this
  decide +kernel

/-- **C101 is violated**: without a position the drawing hangs from the middle of the frame, wherever its alignment would put it: a
shape that fits does not stay on the frame. -/
theorem C101_unplaced_violated :
    ¬ ∀ (w h : Nat) (a : Nat) (at_ : Pt) (b : Box), 1 ≤ a ∧ a ≤ 9 → b.r - b.l ≤ w → b.b - b.t ≤ h →
        anchor w h 1 1 none none 0 0 0 = .ok at_ → (placed 1 1 1 at_ a b).r ≤ w := by
  intro h
  have := h 640 480 7 (320, 240) ⟨0, 0, 640, 480⟩ (by decide) (by decide +kernel) (by decide +kernel) (by decide +kernel)
  revert this
  decide +kernel

end Verif.Props
