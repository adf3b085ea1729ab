import Verif.Spec.Drawing
import Verif.Lemmas.SrtDoc
import Verif.Lemmas.Parser
namespace Verif.Drawing
open Verif Verif.Spec.Drawing
open Verif.Spec.SrtDoc (White)

/-! ## Tokens -/

theorem word_char {c : Char} : Word [c] ↔ ¬ White c ∧ c.isAlpha = false ∧ c ≠ '\\' := by
  unfold Word
  simp

theorem tokenize_word {c : Char} (h : Word [c]) (cur s : Str) : tokenize cur (c :: s) = tokenize (cur ++ [c]) s := by
  obtain ⟨h1, h2, h3⟩ := word_char.1 h
  have hw : isWs c = false := Bool.eq_false_iff.2 fun e => h1 ((SrtDoc.white_iff c).1 e)
  rw [tokenize, if_neg h3, if_neg (by simp [hw]), if_neg (by simp [h2])]

theorem tokenize_words {w : Str} (h : ∀ c ∈ w, Word [c]) (cur s : Str) : tokenize cur (w ++ s) = tokenize (cur ++ w) s := by
  induction w generalizing cur with
  | nil => simp
  | cons c w ih =>
    rw [List.cons_append, tokenize_word (h c List.mem_cons_self), ih (fun x hx => h x (List.mem_cons_of_mem _ hx))]
    simp

theorem tokenize_stop {s : Str} (h : ∀ c, s.head? = some c → ¬ Word [c]) (cur : Str) :
    tokenize cur s = flush cur ++ tokenize [] s := by
  cases s with
  | nil => simp [tokenize, flush]
  | cons c s =>
    have hn : ¬ Word [c] := h c rfl
    by_cases h1 : c = '\\'
    · rw [tokenize, if_pos h1, tokenize, if_pos h1]; simp [flush]
    · by_cases h2 : isWs c = true
      · rw [tokenize, if_neg h1, if_pos h2, tokenize, if_neg h1, if_pos h2]; simp [flush]
      · by_cases h3 : c.isAlpha = true
        · rw [tokenize, if_neg h1, if_neg h2, if_pos h3, tokenize, if_neg h1, if_neg h2, if_pos h3]; simp [flush]
        · exact absurd (word_char.2 ⟨fun e => h2 ((SrtDoc.white_iff c).2 e), by simpa using h3, h1⟩) hn

theorem tokenize_eq {s : Str} {ts : List Str} (h : Tokens s ts) : tokenize [] s = ts := by
  induction h with
  | done => rfl
  | tag s => rw [tokenize, if_pos rfl]; rfl
  | @blank c s ts hw _ ih =>
    have h1 : c ≠ '\\' := by
      rintro rfl
      have := (SrtDoc.white_iff '\\').2 hw
      revert this; decide
    rw [tokenize, if_neg h1, if_pos ((SrtDoc.white_iff c).2 hw), ih]; rfl
  | @letter c s ts ha _ ih =>
    have h1 : c ≠ '\\' := by rintro rfl; revert ha; decide
    have h2 : ¬ isWs c = true := by
      intro hw
      have e : c.isAlpha = true ↔ (65 ≤ c.toNat ∧ c.toNat ≤ 90) ∨ (97 ≤ c.toNat ∧ c.toNat ≤ 122) := by
        unfold Char.isAlpha Char.isUpper Char.isLower
        simp only [Bool.or_eq_true, Bool.and_eq_true, decide_eq_true_eq]
        exact Iff.rfl
      have ha' := e.1 ha
      unfold isWs at hw
      simp only [Bool.or_eq_true, Bool.and_eq_true, decide_eq_true_eq, beq_iff_eq] at hw
      omega
    rw [tokenize, if_neg h1, if_neg h2, if_pos ha, ih]; rfl
  | @word w s ts hw hs _ ih =>
    have hc : ∀ c ∈ w, Word [c] := fun c hc => word_char.2 (hw.2 c hc)
    rw [tokenize_words hc, tokenize_stop hs, ih, List.nil_append, flush, if_neg hw.1]; rfl

/-- Every text falls into tokens. -/
theorem tokens_exist (s : Str) : ∃ ts, Tokens s ts := by
  suffices h : ∀ n (s : Str), s.length = n → ∃ ts, Tokens s ts from h _ s rfl
  intro n
  induction n using Nat.strongRecOn with
  | _ n ih =>
    intro s hl
    cases s with
    | nil => exact ⟨[], .done⟩
    | cons c s =>
      have hlt : s.length < n := by rw [← hl]; exact Nat.lt_succ_self _
      by_cases hw : Word [c]
      · -- take the longest word
        let p : Char → Bool := fun c => !(isWs c) && !c.isAlpha && c != '\\'
        have hp : ∀ x, p x = true ↔ Word [x] := by
          intro x
          rw [word_char]
          simp only [p, Bool.and_eq_true, Bool.not_eq_true', bne_iff_ne, ne_eq, and_assoc, ← SrtDoc.white_iff x, Bool.not_eq_true]
        have hsplit := List.takeWhile_append_dropWhile (p := p) (l := s)
        obtain ⟨ts, hts⟩ := ih (s.dropWhile p).length (Nat.lt_of_le_of_lt (List.dropWhile_sublist p).length_le hlt) _ rfl
        refine ⟨(c :: s.takeWhile p) :: ts, ?_⟩
        have : c :: s = (c :: s.takeWhile p) ++ s.dropWhile p := by rw [List.cons_append, hsplit]
        rw [this]
        refine .word ⟨by simp, ?_⟩ ?_ hts
        · intro x hx
          rcases List.mem_cons.1 hx with rfl | hx
          · exact word_char.1 hw
          · have : p x = true := List.all_eq_true.1 List.all_takeWhile x hx
            exact word_char.1 ((hp x).1 this)
        · intro x hx hwx
          have h1 := (hp x).2 hwx
          have : p x = false := by
            have := List.head?_dropWhile_not p s
            rw [hx] at this
            simpa using this
          rw [h1] at this; cases this
      · obtain ⟨ts, hts⟩ := ih s.length hlt s rfl
        by_cases h1 : White c
        · exact ⟨ts, .blank h1 hts⟩
        · by_cases h2 : c.isAlpha = true
          · exact ⟨_, .letter h2 hts⟩
          · have : c = '\\' := Classical.byContradiction fun h3 => hw (word_char.2 ⟨h1, by simpa using h2, h3⟩)
            exact ⟨[], this ▸ .tag s⟩

/-! ## Parsing -/

/-- Tokens of points. -/
def ptToks (l : List Point) : List Str := l.flatMap fun p => [p.1.text, p.2.text]

/-- What follows the coordinates of a part: nothing or another part. -/
def Next (r : List Str) : Prop := ∀ t, r.head? = some t → isCommand t = true

theorem word_not_command {w : Str} (h : Word w) : isCommand w = false := by
  rw [Bool.eq_false_iff]
  intro hc
  unfold isCommand at hc
  have hm : w ∈ [['m'], ['n'], ['l'], ['b'], ['s'], ['p'], ['c']] := of_decide_eq_true hc
  have : ∀ v ∈ [['m'], ['n'], ['l'], ['b'], ['s'], ['p'], ['c']], ∃ c ∈ v, Char.isAlpha c = true := by decide
  obtain ⟨c, h1, h2⟩ := this w hm
  rw [(h.2 c h1).2.1] at h2; cases h2

/-- Both coordinates are words with their values. -/
def PtOk (num : Str → Option Rat) (p : Point) : Prop := ∀ c ∈ [p.1, p.2], Word c.text ∧ num c.text = some c.value

theorem pairs_next {num : Str → Option Rat} {r : List Str} (h : Next r) : pairs num r = some ([], r) := by
  match r, h with
  | [], _ => rfl
  | [_], _ => rfl
  | a :: b :: r, h => rw [pairs, if_pos (h a rfl)]

theorem pairs_until {num : Str → Option Rat} {l : List Point} (hl : ∀ p ∈ l, PtOk num p) {r : List Str}
    (h : pairs num r = some ([], r)) : pairs num (ptToks l ++ r) = some (l.map val, r) := by
  induction l with
  | nil => exact h
  | cons p l ih =>
    have hp := hl p List.mem_cons_self
    obtain ⟨w1, n1⟩ := hp p.1 (by simp)
    obtain ⟨_, n2⟩ := hp p.2 (by simp)
    show pairs num (p.1.text :: p.2.text :: (ptToks l ++ r)) = _
    rw [pairs, if_neg (by rw [word_not_command w1]; simp), n1, n2]
    dsimp only
    rw [ih fun q hq => hl q (List.mem_cons_of_mem _ hq)]
    rfl

theorem pairs_points {num : Str → Option Rat} {l : List Point} (hl : ∀ p ∈ l, PtOk num p) {r : List Str} (h : Next r) :
    pairs num (ptToks l ++ r) = some (l.map val, r) := pairs_until hl (pairs_next h)

theorem sixes_next {num : Str → Option Rat} {r : List Str} (h : Next r) : sixes num r = some ([], r) := by
  match r, h with
  | [], _ => rfl
  | [_], _ => rfl
  | [_, _], _ => rfl
  | [_, _, _], _ => rfl
  | [_, _, _, _], _ => rfl
  | [_, _, _, _, _], _ => rfl
  | a :: b :: c :: d :: e :: f :: r, h => rw [sixes, if_pos (h a rfl)]

theorem sixes_until {num : Str → Option Rat} {l : List (Point × Point × Point)}
    (hl : ∀ q ∈ l, PtOk num q.1 ∧ PtOk num q.2.1 ∧ PtOk num q.2.2) {r : List Str} (h : sixes num r = some ([], r)) :
    sixes num (ptToks (l.flatMap fun c => [c.1, c.2.1, c.2.2]) ++ r) = some (l.map fun q => (val q.1, val q.2.1, val q.2.2), r) := by
  induction l with
  | nil => exact h
  | cons q l ih =>
    obtain ⟨h1, h2, h3⟩ := hl q List.mem_cons_self
    obtain ⟨w1, n1⟩ := h1 q.1.1 (by simp)
    obtain ⟨_, n2⟩ := h1 q.1.2 (by simp)
    obtain ⟨_, n3⟩ := h2 q.2.1.1 (by simp)
    obtain ⟨_, n4⟩ := h2 q.2.1.2 (by simp)
    obtain ⟨_, n5⟩ := h3 q.2.2.1 (by simp)
    obtain ⟨_, n6⟩ := h3 q.2.2.2 (by simp)
    show sixes num (q.1.1.text :: q.1.2.text :: q.2.1.1.text :: q.2.1.2.text :: q.2.2.1.text :: q.2.2.2.text ::
      (ptToks (l.flatMap fun c => [c.1, c.2.1, c.2.2]) ++ r)) = _
    rw [sixes, if_neg (by rw [word_not_command w1]; simp), n1, n2, n3, n4, n5, n6]
    dsimp only
    rw [ih fun q hq => hl q (List.mem_cons_of_mem _ hq)]
    rfl

theorem sixes_points {num : Str → Option Rat} {l : List (Point × Point × Point)}
    (hl : ∀ q ∈ l, PtOk num q.1 ∧ PtOk num q.2.1 ∧ PtOk num q.2.2) {r : List Str} (h : Next r) :
    sixes num (ptToks (l.flatMap fun c => [c.1, c.2.1, c.2.2]) ++ r) = some (l.map fun q => (val q.1, val q.2.1, val q.2.2), r) :=
  sixes_until hl (sixes_next h)

theorem near_iff (p q : Pt) : Spec.Drawing.Near p q ↔ ¬ (absR (p.1 - q.1) > 1 / 100 ∨ absR (p.2 - q.2) > 1 / 100) := by
  unfold Spec.Drawing.Near absR
  split <;> split <;> grind

theorem endsIn_map {kind : Cmd → Bool} {mk : α → Cmd} (h : ∀ x, kind (mk x) = true) (acc : List Cmd) (p : α) (l : List α) :
    endsIn kind (acc ++ (p :: l).map mk) = true := by
  unfold endsIn
  have : ∃ x, (acc ++ (p :: l).map mk).getLast? = some (mk x) := by
    rw [List.getLast?_append, List.getLast?_map]
    cases hl : (p :: l).getLast? with
    | none => simp at hl
    | some x => exact ⟨x, rfl⟩
  obtain ⟨x, e⟩ := this
  rw [e]
  exact h x

/-- The coordinates of the part end where `r` begins. -/
def Ends (num : Str → Option Rat) (s : Shape) (r : List Str) : Prop :=
  (pairs num r = some ([], r) ∨ ∃ p l, s = .bezier p l) ∧ (sixes num r = some ([], r) ∨ ∀ p l, s ≠ .bezier p l) ∨ s = .close

theorem ends_next {num : Str → Option Rat} {r : List Str} (h : Next r) (s : Shape) : Ends num s r :=
  Or.inl ⟨Or.inl (pairs_next h), Or.inl (sixes_next h)⟩

theorem Ends.pairs {num : Str → Option Rat} {s : Shape} {r : List Str} (h : Ends num s r) (h1 : ∀ p l, s ≠ .bezier p l) (h2 : s ≠ .close) :
    Drawing.pairs num r = some ([], r) := by
  rcases h with ⟨h | ⟨p, l, e⟩, _⟩ | e
  · exact h
  · exact absurd e (h1 p l)
  · exact absurd e h2

theorem Ends.sixes {num : Str → Option Rat} {p : Point × Point × Point} {l : List (Point × Point × Point)} {r : List Str}
    (h : Ends num (.bezier p l) r) : Drawing.sixes num r = some ([], r) := by
  rcases h with ⟨_, h | h⟩ | e
  · exact h
  · exact absurd rfl (h p l)
  · cases e

theorem step_until {num : Str → Option Rat} {s : Shape} (hs : Readable num s) (acc : List Cmd) {r : List Str} (h : Ends num s r) :
    step num acc [letter s] ((points s).flatMap (fun p => [p.1.text, p.2.text]) ++ r) = some (acc ++ commands s, r) := by
  have hp : ∀ p ∈ points s, PtOk num p := hs
  show step num acc [letter s] (ptToks (points s) ++ r) = _
  cases s with
  | move p l =>
    have h1 := hp p List.mem_cons_self
    obtain ⟨_, n1⟩ := h1 p.1 (by simp)
    obtain ⟨_, n2⟩ := h1 p.2 (by simp)
    rw [letter, step, if_pos rfl]
    show moveCmd num acc (p.1.text :: p.2.text :: (ptToks l ++ r)) = _
    rw [moveCmd, n1, n2]
    dsimp only
    rw [pairs_until (fun q hq => hp q (List.mem_cons_of_mem _ hq)) (h.pairs (by intros; simp) (by simp))]
    simp [commands, val]
  | noDraw p l =>
    rw [letter, step, if_neg (by decide), if_pos rfl, pairs_until hp (h.pairs (by intros; simp) (by simp))]
    show checked isNoDraw (acc ++ (((p :: l).map val).map Cmd.moveToNoDraw)) r = _
    rw [List.map_map, checked, if_pos (endsIn_map (fun _ => rfl) _ _ _)]
    rfl
  | line p l =>
    rw [letter, step, if_neg (by decide), if_neg (by decide), if_pos rfl, pairs_until hp (h.pairs (by intros; simp) (by simp))]
    show checked isLine (acc ++ (((p :: l).map val).map Cmd.lineTo)) r = _
    rw [List.map_map, checked, if_pos (endsIn_map (fun _ => rfl) _ _ _)]
    rfl
  | bezier p l =>
    have hq : ∀ q ∈ p :: l, PtOk num q.1 ∧ PtOk num q.2.1 ∧ PtOk num q.2.2 := by
      intro q hq
      have : ∀ x ∈ [q.1, q.2.1, q.2.2], PtOk num x := fun x hx => hp x (List.mem_flatMap.2 ⟨q, hq, hx⟩)
      exact ⟨this _ (by simp), this _ (by simp), this _ (by simp)⟩
    rw [letter, step, if_neg (by decide), if_neg (by decide), if_neg (by decide), if_pos rfl, points, sixes_until hq h.sixes]
    show checked isBezier (acc ++ (((p :: l).map fun q => (val q.1, val q.2.1, val q.2.2)).map fun c => .bezierTo c.1 c.2.1 c.2.2)) r = _
    rw [List.map_map, checked, if_pos (endsIn_map (fun _ => rfl) _ _ _)]
    rfl
  | spline a b c l =>
    rw [letter, step, if_neg (by decide), if_neg (by decide), if_neg (by decide), if_neg (by decide), if_pos rfl, splineCmd,
      pairs_until hp (h.pairs (by intros; simp) (by simp))]
    dsimp only
    rw [if_pos (by simp [points])]
    have e : closed ((a :: b :: c :: l).map val) =
        if Spec.Drawing.Near (val a) (val ((c :: l).getLast (by simp))) then (a :: b :: c :: l).map val
        else (a :: b :: c :: l).map val ++ [val a] := by
      unfold closed
      have hl : ((a :: b :: c :: l).map val).getLast? = some (val ((c :: l).getLast (by simp))) := by
        rw [List.getLast?_map, List.getLast?_cons_cons, List.getLast?_cons_cons, List.getLast?_eq_some_getLast (by simp)]
        rfl
      rw [hl]
      simp only [List.map_cons, List.head?_cons]
      by_cases hn : Spec.Drawing.Near (val a) (val ((c :: l).getLast (by simp)))
      · rw [if_pos hn, if_neg ((near_iff _ _).1 hn)]
      · rw [if_neg hn, if_pos (Classical.byContradiction fun hc => hn ((near_iff _ _).2 hc))]
    show some (acc ++ [Cmd.spline (closed ((a :: b :: c :: l).map val))], r) = _
    rw [e]
    rfl
  | extend a b c l =>
    rw [letter, step, if_neg (by decide), if_neg (by decide), if_neg (by decide), if_neg (by decide), if_neg (by decide), if_pos rfl,
      splineCmd, pairs_until hp (h.pairs (by intros; simp) (by simp))]
    dsimp only
    rw [if_pos (by simp [points])]
    rfl
  | close =>
    rw [letter, step, if_neg (by decide), if_neg (by decide), if_neg (by decide), if_neg (by decide), if_neg (by decide),
      if_neg (by decide), if_pos rfl]
    rfl

theorem step_shape {num : Str → Option Rat} {s : Shape} (hs : Readable num s) (acc : List Cmd) {r : List Str} (h : Next r) :
    step num acc [letter s] ((points s).flatMap (fun p => [p.1.text, p.2.text]) ++ r) = some (acc ++ commands s, r) :=
  step_until hs acc (ends_next h s)

theorem next_shapes (l : List Shape) : Next (l.flatMap tokens) := by
  intro t ht
  cases l with
  | nil => cases ht
  | cons s l =>
    have : t = [letter s] := by
      have : ((s :: l).flatMap tokens).head? = some [letter s] := rfl
      rw [this] at ht
      exact (Option.some.inj ht).symm
    rw [this]
    cases s <;> rfl

theorem loop_shapes {num : Str → Option Rat} {l : List Shape} (hl : ∀ s ∈ l, Readable num s) (acc : List Cmd) {k : Nat}
    (hk : (l.flatMap tokens).length ≤ k) : loop num k acc (l.flatMap tokens) = some (acc ++ l.flatMap commands) := by
  induction l generalizing acc k with
  | nil => cases k <;> simp [loop]
  | cons s l ih =>
    have e : (s :: l).flatMap tokens = [letter s] :: ((points s).flatMap (fun p => [p.1.text, p.2.text]) ++ l.flatMap tokens) := rfl
    rw [e] at hk ⊢
    cases k with
    | zero => simp at hk
    | succ k =>
      rw [loop, step_shape (hl s List.mem_cons_self) acc (next_shapes l)]
      dsimp only
      rw [ih (fun x hx => hl x (List.mem_cons_of_mem _ hx)) _ (by rw [List.length_cons, List.length_append] at hk; omega)]
      simp

theorem parse_shapes {num : Str → Option Rat} {l : List Shape} (hl : ∀ s ∈ l, Readable num s) {text : Str}
    (ht : Tokens text (l.flatMap tokens)) : parseCommands num text = some (l.flatMap commands) := by
  unfold parseCommands
  rw [tokenize_eq ht]
  exact loop_shapes hl [] (Nat.le_refl _)

/-! ## Splines -/

theorem curve_same (p0 p1 p2 p3 : Pt) : extendedCurve p0 p1 p2 p3 = plainCurve p0 p1 p2 p3 := by
  unfold extendedCurve plainCurve
  have h : ∀ x : Rat, 1 / 2 * x / 3 = x / 6 := by intro x; grind
  rw [h, h, h, h]

theorem curves_through (p0 p1 : Pt) (l : List Pt) :
    (curves plainCurve p0 p1 l).map (fun c => c.2.2) = l ∧
    (∀ i c d, (curves plainCurve p0 p1 l)[i]? = some c → (curves plainCurve p0 p1 l)[i + 1]? = some d →
      d.1.1 - c.2.2.1 = c.2.2.1 - c.2.1.1 ∧ d.1.2 - c.2.2.2 = c.2.2.2 - c.2.1.2) ∧
    ∀ c, (curves plainCurve p0 p1 l)[0]? = some c → ∃ p2 rest, l = p2 :: rest ∧ c = plainCurve p0 p1 p2 (rest.headD p2) := by
  induction l generalizing p0 p1 with
  | nil => exact ⟨rfl, fun i c d h => by simp [curves] at h, fun c h => by simp [curves] at h⟩
  | cons p2 rest ih =>
    obtain ⟨h1, h2, h3⟩ := ih p1 p2
    refine ⟨?_, ?_, ?_⟩
    · rw [curves, List.map_cons, h1]; rfl
    · intro i c d hc hd
      rw [curves] at hc hd
      cases i with
      | zero =>
        simp only [List.getElem?_cons_zero, Option.some.injEq] at hc
        rw [List.getElem?_cons_succ] at hd
        obtain ⟨p3, rest', rfl, rfl⟩ := h3 d hd
        subst hc
        simp only [plainCurve, List.headD_cons]
        constructor <;> grind
      | succ i =>
        rw [List.getElem?_cons_succ] at hc hd
        exact h2 i c d hc hd
    · intro c hc
      rw [curves] at hc
      simp only [List.getElem?_cons_zero, Option.some.injEq] at hc
      exact ⟨p2, rest, rfl, hc.symm⟩

theorem spline_same (l : List Pt) : splineToBezier l true = splineToBezier l false := by
  unfold splineToBezier
  split
  · rfl
  · have : extendedCurve = plainCurve := by
      funext a b c d; exact curve_same a b c d
    simp [this]

theorem spline_through {l : List Pt} (h : 3 ≤ l.length) (e : Bool) : ThroughPoints l (splineToBezier l e) := by
  have key : ThroughPoints l (splineToBezier l false) := by
    cases l with
    | nil => simp at h
    | cons p rest =>
      have e : splineToBezier (p :: rest) false = curves plainCurve p p rest := by
        show (if (p :: rest).length < 3 then [] else curves plainCurve p p rest) = _
        rw [if_neg (by omega)]
      rw [e]
      exact ⟨(curves_through p p rest).1, (curves_through p p rest).2.1⟩
  cases e with
  | false => exact key
  | true => rw [spline_same]; exact key

theorem draws {c : Cmd} (h : ∀ l, c = .spline l ∨ c = .extendSpline l → 3 ≤ l.length) : Draws c (calls c) := by
  cases c with
  | moveTo p => exact .move p
  | moveToNoDraw p => exact .noDraw p
  | lineTo p => exact .line p
  | bezierTo a b c => exact .bezier a b c
  | spline l =>
    have h3 := h l (Or.inl rfl)
    rw [calls, if_pos h3]
    exact .spline (spline_through h3 false)
  | extendSpline l =>
    have h3 := h l (Or.inr rfl)
    rw [calls, if_pos h3]
    exact .extend (spline_through h3 true)
  | closePath => exact .close

theorem draws_all {l : List Cmd} (h : ∀ c ∈ l, ∀ p, c = .spline p ∨ c = .extendSpline p → 3 ≤ p.length) : DrawsAll l (l.flatMap calls) := by
  induction l with
  | nil => exact .nil
  | cons c l ih =>
    exact .cons (draws (h c List.mem_cons_self)) (ih fun x hx => h x (List.mem_cons_of_mem _ hx))

theorem commands_long {s : Shape} : ∀ c ∈ commands s, ∀ p, c = .spline p ∨ c = .extendSpline p → 3 ≤ p.length := by
  intro c hc p hp
  cases s with
  | move q l =>
    rcases List.mem_cons.1 hc with rfl | hc
    · rcases hp with e | e <;> cases e
    · obtain ⟨x, _, rfl⟩ := List.mem_map.1 hc
      rcases hp with e | e <;> cases e
  | noDraw q l =>
    obtain ⟨x, _, rfl⟩ := List.mem_map.1 hc
    rcases hp with e | e <;> cases e
  | line q l =>
    obtain ⟨x, _, rfl⟩ := List.mem_map.1 hc
    rcases hp with e | e <;> cases e
  | bezier q l =>
    obtain ⟨x, _, rfl⟩ := List.mem_map.1 hc
    rcases hp with e | e <;> cases e
  | spline a b c' l =>
    unfold commands at hc
    dsimp only at hc
    have := List.mem_singleton.1 hc
    subst this
    rcases hp with e | e
    · injection e with e
      subst e
      split <;> simp <;> omega
    · cases e
  | extend a b c' l =>
    have := List.mem_singleton.1 hc
    subst this
    rcases hp with e | e
    · cases e
    · injection e with e
      subst e
      simp
  | close =>
    have := List.mem_singleton.1 hc
    subst this
    rcases hp with e | e <;> cases e

theorem commands_ne (s : Shape) : commands s ≠ [] := by
  cases s <;> simp [commands]

theorem loop_rest {num : Str → Option Rat} {l : List Shape} (hl : ∀ s ∈ l, Readable num s) {r : List Str} (h : Next r) (acc : List Cmd)
    {k : Nat} (hk : (l.flatMap tokens ++ r).length ≤ k) :
    ∃ k', r.length ≤ k' ∧ loop num k acc (l.flatMap tokens ++ r) = loop num k' (acc ++ l.flatMap commands) r := by
  induction l generalizing acc k with
  | nil => exact ⟨k, by simpa using hk, by simp⟩
  | cons s l ih =>
    rw [List.flatMap_cons, List.append_assoc] at hk ⊢
    have hn : Next (l.flatMap tokens ++ r) := by
      intro t ht
      cases l with
      | nil => exact h t ht
      | cons a l => exact next_shapes (a :: l) t (by simpa [tokens] using ht)
    cases k with
    | zero => simp [tokens] at hk
    | succ k =>
      have hk' : (l.flatMap tokens ++ r).length ≤ k := by
        unfold tokens at hk
        rw [List.length_append, List.length_cons] at hk
        have : (l.flatMap tokens).length + r.length = (l.flatMap tokens ++ r).length := by rw [List.length_append]
        unfold tokens at *
        omega
      obtain ⟨k', h1, h2⟩ := ih (fun x hx => hl x (List.mem_cons_of_mem _ hx)) (acc ++ commands s) hk'
      refine ⟨k', h1, ?_⟩
      show loop num (k + 1) acc ([letter s] :: ((points s).flatMap (fun p => [p.1.text, p.2.text]) ++ (l.flatMap tokens ++ r))) = _
      rw [loop, step_shape (hl s List.mem_cons_self) acc hn]
      dsimp only
      rw [h2, List.flatMap_cons, List.append_assoc]

/-- A command that fails makes the whole fail. -/
theorem parse_fails {num : Str → Option Rat} {l : List Shape} (hl : ∀ s ∈ l, Readable num s) {t : Str} {r : List Str}
    (hc : isCommand t = true) (hf : ∀ acc, step num acc t r = none) {text : Str}
    (ht : Tokens text (l.flatMap tokens ++ t :: r)) : parseCommands num text = none := by
  unfold parseCommands
  rw [tokenize_eq ht]
  have hn : Next (t :: r) := by
    intro x hx
    cases hx
    exact hc
  obtain ⟨k', h1, h2⟩ := loop_rest hl hn [] (Nat.le_refl _)
  rw [h2]
  cases k' with
  | zero => simp at h1
  | succ k => rw [loop, hf]

/-- Tokens that are no commands are passed over. -/
theorem loop_skip {num : Str → Option Rat} {ws : List Str} (hw : ∀ t ∈ ws, isCommand t = false) (acc : List Cmd) (r : List Str) {k : Nat}
    (hk : (ws ++ r).length ≤ k) : ∃ k', r.length ≤ k' ∧ loop num k acc (ws ++ r) = loop num k' acc r := by
  induction ws generalizing k with
  | nil => exact ⟨k, hk, rfl⟩
  | cons t ws ih =>
    cases k with
    | zero => simp at hk
    | succ k =>
      obtain ⟨k', h1, h2⟩ := ih (fun x hx => hw x (List.mem_cons_of_mem _ hx)) (k := k) (by simpa using hk)
      refine ⟨k', h1, ?_⟩
      have ht : t ∉ [['m'], ['n'], ['l'], ['b'], ['s'], ['p'], ['c']] := of_decide_eq_false (hw t List.mem_cons_self)
      simp only [List.mem_cons, List.not_mem_nil, or_false, not_or] at ht
      obtain ⟨a1, a2, a3, a4, a5, a6, a7⟩ := ht
      rw [List.cons_append, loop, step, if_neg a1, if_neg a2, if_neg a3, if_neg a4, if_neg a5, if_neg a6, if_neg a7]
      exact h2

theorem pairs_short {num : Str → Option Rat} {r : List Str} (h : r.length < 2) : pairs num r = some ([], r) := by
  match r, h with
  | [], _ => rfl
  | [_], _ => rfl

theorem sixes_short {num : Str → Option Rat} {r : List Str} (h : r.length < 6) : sixes num r = some ([], r) := by
  match r, h with
  | [], _ => rfl
  | [_], _ => rfl
  | [_, _], _ => rfl
  | [_, _, _], _ => rfl
  | [_, _, _, _], _ => rfl
  | [_, _, _, _, _], _ => rfl
  | _ :: _ :: _ :: _ :: _ :: _ :: _, h => simp at h; omega

theorem pairs_broken {num : Str → Option Rat} {l : List Point} (hl : ∀ p ∈ l, PtOk num p) {a b : Str} (ha : Word a)
    (hb : num a = none ∨ num b = none) (r : List Str) : pairs num (ptToks l ++ a :: b :: r) = none := by
  induction l with
  | nil =>
    show pairs num (a :: b :: r) = none
    rw [pairs, if_neg (by rw [word_not_command ha]; simp)]
    rcases hb with h | h
    · rw [h]
    · rw [h]; cases num a <;> rfl
  | cons p l ih =>
    have hp := hl p List.mem_cons_self
    obtain ⟨w1, n1⟩ := hp p.1 (by simp)
    obtain ⟨_, n2⟩ := hp p.2 (by simp)
    show pairs num (p.1.text :: p.2.text :: (ptToks l ++ a :: b :: r)) = _
    rw [pairs, if_neg (by rw [word_not_command w1]; simp), n1, n2]
    dsimp only
    rw [ih fun q hq => hl q (List.mem_cons_of_mem _ hq)]
    rfl

theorem six_none {num : Str → Option Rat} {a b c d e f : Str} (hb : ∃ t ∈ [a, b, c, d, e, f], num t = none) {α : Type}
    (g : Rat → Rat → Rat → Rat → Rat → Rat → Option α) :
    (match num a, num b, num c, num d, num e, num f with
      | some x1, some y1, some x2, some y2, some x3, some y3 => g x1 y1 x2 y2 x3 y3
      | _, _, _, _, _, _ => none) = none := by
  split
  · rename_i h1 h2 h3 h4 h5 h6
    obtain ⟨t, ht, hn⟩ := hb
    simp only [List.mem_cons, List.not_mem_nil, or_false] at ht
    rcases ht with rfl | rfl | rfl | rfl | rfl | rfl <;> simp_all
  · rfl

theorem sixes_broken {num : Str → Option Rat} {a b c d e f : Str} (ha : Word a) (hb : ∃ t ∈ [a, b, c, d, e, f], num t = none) (r : List Str) :
    ∀ {l : List Point}, (∀ p ∈ l, PtOk num p) → l.length % 3 = 0 → sixes num (ptToks l ++ a :: b :: c :: d :: e :: f :: r) = none
  | [], _, _ => by
    show sixes num (a :: b :: c :: d :: e :: f :: r) = none
    rw [sixes, if_neg (by rw [word_not_command ha]; simp)]
    exact six_none hb _
  | [_], _, h => by simp at h
  | [_, _], _, h => by simp at h
  | p :: q :: s :: l, hl, h => by
    obtain ⟨w1, n1⟩ := hl p (by simp) p.1 (by simp)
    obtain ⟨_, n2⟩ := hl p (by simp) p.2 (by simp)
    obtain ⟨_, n3⟩ := hl q (by simp) q.1 (by simp)
    obtain ⟨_, n4⟩ := hl q (by simp) q.2 (by simp)
    obtain ⟨_, n5⟩ := hl s (by simp) s.1 (by simp)
    obtain ⟨_, n6⟩ := hl s (by simp) s.2 (by simp)
    show sixes num (p.1.text :: p.2.text :: q.1.text :: q.2.text :: s.1.text :: s.2.text :: (ptToks l ++ a :: b :: c :: d :: e :: f :: r)) = _
    rw [sixes, if_neg (by rw [word_not_command w1]; simp), n1, n2, n3, n4, n5, n6]
    dsimp only
    rw [sixes_broken ha hb r (fun x hx => hl x (by simp [hx])) (by simp at h; omega)]
    rfl

end Verif.Drawing
