import Verif.Lemmas.Wrap
/-!
# C44, C85 — word wrapping

C44 is for any arithmetic and any font; C85 for exact arithmetic and any font.
-/
namespace Verif.Props
open Verif Verif.Wrap Verif.Spec.Wrap

/-- A font where each character is one unit wide. -/
def unitFont : Font Rat := ⟨fun w => (w.length, 0, w.length), 0, 1⟩

theorem wrap_cases (N : Num F) (f : Font F) (m : F) (bal : Bool) (line : List (Seg α)) :
    wrap N f m bal line = [line] ∨
      ((words (textOf line)).length ≥ 2 ∧ ∃ limit, wrap N f m bal line =
        ((slices (flat 0 line) (charStarts 0 (words (textOf line))) (0 :: fill N f limit ((words (textOf line)).map (word N f)))).map
          (fun p => (regroup p).map (·.2))).filter (fun l => !l.isEmpty)) := by
  unfold wrap
  by_cases h : line = []
  · exact .inl (by rw [if_pos h])
  · rw [if_neg h]
    simp only [flat_text]
    by_cases hl : (words (textOf line)).length ≤ 1
    · exact .inl (by rw [if_pos hl])
    · rw [if_neg hl]
      unfold lineStarts
      simp only
      by_cases hb : fill N f m ((words (textOf line)).map (word N f)) = []
      · exact .inl (by rw [if_pos hb])
      · rw [if_neg hb]
        refine .inr ⟨by omega, ?_⟩
        cases bal
        · exact ⟨m, rfl⟩
        · exact ⟨_, rfl⟩

/-- **C44** (partial: a line left without any character is not shown).  Whatever the numbers and the font do, the lines are the
original cut at blanks, one blank going at each cut, and every character keeps the tags and position of its segment.
Missing: cuts that leave nothing on a line, see `C44_violated`. -/
theorem C44_partial (N : Num F) (f : Font F) (m : F) (bal : Bool) (line : List (Seg α)) :
    wrap N f m bal line = [line] ∨
      ∃ pieces, Broken (tagged line) pieces ∧ (wrap N f m bal line).map tagged = pieces.filter (fun p => !p.isEmpty) := by
  rcases wrap_cases N f m bal line with h | ⟨hl, limit, h⟩
  · exact .inl h
  · refine .inr ?_
    obtain ⟨k, hw, hne⟩ := words_spec (textOf line)
    obtain ⟨ps, h1, h2, h3⟩ := fill_spec N f limit ((words (textOf line)).map (word N f)) (by simpa using hne)
    obtain ⟨qs, q1, _, q3, q4⟩ := pieces_map _ ps _ h1 h2
    rw [h3, q4, q1] at h
    rw [q1] at hw
    have h0 : qs ≠ [] := by intro h0; subst h0; exact hne q1
    obtain ⟨pieces, p1, p2, _⟩ := cut_spec line qs k hw q3 h0 _ h
    exact ⟨pieces, p1, p2⟩

example : (wrap exact unitFont 5 false [⟨"ab cd".toList, 0⟩, ⟨"e fg".toList, 1⟩]).map tagged =
    [[('a', 0), ('b', 0)], [('c', 0), ('d', 0), ('e', 1)], [('f', 1), ('g', 1)]] ∨
  (wrap exact unitFont 5 false [⟨"ab cd".toList, 0⟩, ⟨"e fg".toList, 1⟩]).map tagged =
    [[('a', 0), ('b', 0)], [('c', 0), ('d', 0), ('e', 1), (' ', 1), ('f', 1), ('g', 1)]] := by decide +kernel

theorem words_ne_of_single {t : List Char} {ws : List Str} {k : Nat} (hw : Words t ws k) (hl : 2 ≤ ws.length) (hs : SingleBlanks t) : ∀ w ∈ ws, w ≠ [] := by
  intro w hm hw0
  subst hw0
  obtain ⟨h1, h2, h3'⟩ := hw
  have h3 : ws.getLast? ≠ some [] := by
    rcases h3' with h3 | h3
    · omega
    · exact h3.2
  clear h3'
  obtain ⟨u, v, rfl⟩ := List.append_of_mem hm
  by_cases hv : v = []
  · subst hv; exact h3 (by simp)
  · have hc : ∃ c ∈ join v, c ≠ ' ' := by
      have hlast : v.getLast? ≠ some [] := by
        intro h; apply h3
        rw [List.getLast?_append, List.getLast?_cons, h]
        rfl
      have h2' : ∀ w ∈ v, ' ' ∉ w := fun w hw => h2 w (by simp [hw])
      clear h1 h2 h3 hs hm hl
      induction v with
      | nil => exact absurd rfl hv
      | cons x v ih =>
        by_cases hv' : v = []
        · subst hv'
          cases x with
          | nil => simp at hlast
          | cons c x => exact ⟨c, by simp [join], fun h => h2' (c :: x) (by simp) (by simp [h])⟩
        · rw [join_cons x hv']
          obtain ⟨c, hc, hc'⟩ := ih hv' (by
            cases v with
            | nil => exact absurd rfl hv'
            | cons y v => rwa [List.getLast?_cons_cons] at hlast) (fun w hw => h2' w (List.mem_cons_of_mem _ hw))
          exact ⟨c, by simp [hc], hc'⟩
    obtain ⟨c, hc, hc'⟩ := hc
    have e : join (u ++ [] :: v) = (if u = [] then [] else join u ++ [' ']) ++ ' ' :: join v := by
      by_cases hu : u = []
      · subst hu; rw [if_pos rfl, List.nil_append, join_cons [] hv]
      · rw [if_neg hu, join_append hu (by simp), join_cons [] hv]; simp
    rw [e, List.append_assoc] at h1
    obtain ⟨a', d, ha, hd⟩ := hs _ _ h1 ⟨c, by simp [hc], hc'⟩
    by_cases hu : u = []
    · rw [if_pos hu] at ha
      simp at ha
    · rw [if_neg hu] at ha
      have := congrArg List.getLast? ha
      simp at this
      exact hd this.symm

theorem texts_ne {k : Nat} (ps : List (List Str)) (hne : ∀ p ∈ ps, p ≠ []) (hw : ∀ w ∈ ps.flatten, w ≠ []) : ∀ t ∈ texts k ps, t ≠ [] := by
  have hj : ∀ p ∈ ps, join p ≠ [] := by
    intro p hp
    cases p with
    | nil => exact absurd rfl (hne _ hp)
    | cons w p =>
      have : w ≠ [] := hw w (List.mem_flatten.2 ⟨_, hp, by simp⟩)
      cases p with
      | nil => exact this
      | cons v p => rw [join_cons w (by simp)]; simp
  clear hne hw
  induction ps with
  | nil => intro t ht; cases ht
  | cons p ps ih =>
    intro t ht
    cases ps with
    | nil =>
      rw [texts] at ht
      rw [List.mem_singleton.1 ht]
      have := hj p (by simp)
      simp [this]
    | cons q ps =>
      rw [texts] at ht
      · rcases List.mem_cons.1 ht with rfl | ht
        · exact hj p (by simp)
        · exact ih (fun p hp => hj p (List.mem_cons_of_mem _ hp)) t ht
      · simp

/-- **C44**, exactly, for a line without blanks at the beginning or side by side (some may follow the last word). -/
theorem C44_exact (N : Num F) (f : Font F) (m : F) (bal : Bool) (line : List (Seg α)) (hs : SingleBlanks (textOf line)) :
    Broken (tagged line) ((wrap N f m bal line).map tagged) := by
  rcases wrap_cases N f m bal line with h | ⟨hl, limit, h⟩
  · rw [h]; exact .whole _
  · obtain ⟨k, hw, hne⟩ := words_spec (textOf line)
    obtain ⟨ps, h1, h2, h3⟩ := fill_spec N f limit ((words (textOf line)).map (word N f)) (by simpa using hne)
    obtain ⟨qs, q1, _, q3, q4⟩ := pieces_map _ ps _ h1 h2
    have hwn := words_ne_of_single hw hl hs
    rw [h3, q4, q1] at h
    rw [q1] at hw hwn
    have h0 : qs ≠ [] := by intro h0; subst h0; exact hne q1
    obtain ⟨pieces, p1, p2, p3⟩ := cut_spec line qs k hw q3 h0 _ h
    rw [p2, List.filter_eq_self.2]
    · exact p1
    · intro p hp
      have : p.map (·.1) ≠ [] := texts_ne qs q3 hwn _ (by rw [← p3]; exact List.mem_map_of_mem hp)
      cases p with
      | nil => exact absurd rfl this
      | cons c p => rfl

example : SingleBlanks "ab cd ".toList := by
  intro a b h hc
  match a, h with
  | ['a', 'b'], _ => exact ⟨['a'], 'b', rfl, by decide⟩
  | ['a', 'b', ' ', 'c', 'd'], _ => exact ⟨['a', 'b', ' ', 'c'], 'd', rfl, by decide⟩
  | [], h => injection h with h1 _; exact absurd h1 (by decide)
  | [x], h => injection h with h1 h2; injection h2 with h2 _; exact absurd h2 (by decide)
  | [_, _, _], h => 
    injection h with _ h; injection h with _ h; injection h with _ h; injection h with h _; exact absurd h (by decide)
  | [_, _, _, _], h => 
    injection h with _ h; injection h with _ h; injection h with _ h; injection h with _ h; injection h with h _; exact absurd h (by decide)
  | _ :: _ :: _ :: _ :: _ :: _ :: a, h => 
    have := congrArg List.length h
    simp at this

/-- **C44 is violated**: a blank before a word that is too wide is lost, for the line with nothing on it is dropped: what
comes out is not the line cut at blanks. -/
theorem C44_violated : ∃ (line : List (Seg Nat)), ¬ Broken (tagged line) ((wrap exact unitFont 5 false line).map tagged) := by
  refine ⟨[⟨" looong".toList, 0⟩], ?_⟩
  have e : (wrap exact unitFont 5 false [⟨" looong".toList, 0⟩]).map tagged = [[('l', 0), ('o', 0), ('o', 0), ('o', 0), ('n', 0), ('g', 0)]] := by
    decide +kernel
  rw [e]
  intro h
  generalize ht : tagged [(⟨" looong".toList, 0⟩ : Seg Nat)] = t at h
  cases h with
  | whole => exact absurd ht (by decide)
  | brk _ _ _ _ h => cases h

/-! ## C85 -/

/-- The lines that come from a limit. -/
theorem lines_of_limit (f : Font Rat) (limit : Rat) (line : List (Seg α)) (out : List (List (Seg α)))
    (h : out = ((slices (flat 0 line) (charStarts 0 (words (textOf line))) (0 :: fill exact f limit ((words (textOf line)).map (word exact f)))).map
          (fun p => (regroup p).map (·.2))).filter (fun l => !l.isEmpty)) :
    ∃ ps, Lines line out ps ∧ Packed f limit ps ∧ ps.length = (fill exact f limit ((words (textOf line)).map (word exact f))).length + 1 := by
  obtain ⟨k, hw, hne⟩ := words_spec (textOf line)
  obtain ⟨ps, h1, h2, h3, h4⟩ := fill_packed f limit (words (textOf line)) hne
  have hlen : ps.length = (fill exact f limit ((words (textOf line)).map (word exact f))).length + 1 := by
    rw [← startsOf_length ps 0, ← h3, List.length_cons]
  rw [h3, h1] at h
  rw [h1] at hw
  have h0 : ps ≠ [] := by intro h0; subst h0; exact hne h1
  obtain ⟨pieces, _, p2, p3⟩ := cut_spec line ps k hw h2 h0 _ h
  exact ⟨ps, ⟨k, hw, h2, by rw [texts_lines p2, p3]⟩, h4, hlen⟩

theorem lines_whole (line : List (Seg α)) (ht : textOf line ≠ []) : Lines line [line] [words (textOf line)] := by
  obtain ⟨k, hw, hne⟩ := words_spec (textOf line)
  refine ⟨k, by simpa using hw, by simpa using hne, ?_⟩
  rw [texts, ← hw.1]
  rw [List.filter_cons_of_pos (by simpa using ht)]
  rfl

theorem lines_same {line : List (Seg α)} {out out' : List (List (Seg α))} {ps : List (List (List Char))} (h : out.map textOf = out'.map textOf)
    (hl : Lines line out ps) : Lines line out' ps := by
  obtain ⟨k, h1, h2, h3⟩ := hl
  exact ⟨k, h1, h2, by rw [← h]; exact h3⟩

theorem wrap_exact (f : Font Rat) (m : Rat) (line : List (Seg α)) (ht : textOf line ≠ []) :
    (∀ bal, wrap exact f m bal line = [line]) ∧ (∃ ps, Lines line [line] ps ∧ Packed f m ps ∧ ps.length = 1) ∨
    ∀ bal, ∃ limit, (bal = false → limit = m) ∧
      (bal = true → limit = balance exact f ((words (textOf line)).map (word exact f)) (fill exact f m ((words (textOf line)).map (word exact f))).length 24
        (maxWord exact f ((words (textOf line)).map (word exact f))) m) ∧
      wrap exact f m bal line = ((slices (flat 0 line) (charStarts 0 (words (textOf line))) (0 :: fill exact f limit ((words (textOf line)).map (word exact f)))).map
          (fun p => (regroup p).map (·.2))).filter (fun l => !l.isEmpty) := by
  have hn : line ≠ [] := by rintro rfl; exact ht rfl
  unfold wrap
  simp only [if_neg hn, flat_text]
  by_cases hl : (words (textOf line)).length ≤ 1
  · left
    refine ⟨fun bal => by rw [if_pos hl], [words (textOf line)], lines_whole line ht, ?_, rfl⟩
    rw [Packed]; exact .inl hl
  · simp only [if_neg hl]
    unfold lineStarts
    simp only
    by_cases hb : fill exact f m ((words (textOf line)).map (word exact f)) = []
    · left
      refine ⟨fun bal => by rw [if_pos hb], [words (textOf line)], lines_whole line ht, ?_, rfl⟩
      obtain ⟨k, hw, hne⟩ := words_spec (textOf line)
      obtain ⟨ps, h1, h2, h3, h4⟩ := fill_packed f m (words (textOf line)) hne
      rw [hb] at h3
      have hlen := startsOf_length ps 0
      rw [← h3] at hlen
      match ps, hlen with
      | [p], _ =>
        have : words (textOf line) = p := by simpa using h1
        rw [this]; exact h4
    · right
      simp only [if_neg hb]
      intro bal
      cases bal
      · exact ⟨m, fun _ => rfl, by simp, rfl⟩
      · exact ⟨_, by simp, fun _ => rfl, rfl⟩

/-- **C85**, breaking as late as possible: the words of the text are put on lines, in order; a line of more than one word is
never wider than the limit; and the first word of a line would not have fitted on the line before. -/
theorem C85_greedy (f : Font Rat) (m : Rat) (line : List (Seg α)) (ht : textOf line ≠ []) :
    ∃ ps, Lines line (wrap exact f m false line) ps ∧ Packed f m ps := by
  rcases wrap_exact f m line ht with ⟨h, ps, h1, h2, _⟩ | h
  · exact ⟨ps, by rw [h]; exact h1, h2⟩
  · obtain ⟨limit, e, _, h⟩ := h false
    rw [e rfl] at h
    obtain ⟨ps, h1, h2, _⟩ := lines_of_limit f m line _ h
    exact ⟨ps, h1, h2⟩

example : Lines [(⟨"ab cde f".toList, 0⟩ : Seg Nat)] (wrap exact unitFont 5 false [⟨"ab cde f".toList, 0⟩]) [["ab".toList], ["cde".toList, "f".toList]] ∧
    Packed unitFont 5 [["ab".toList], ["cde".toList, "f".toList]] := by
  refine ⟨⟨0, ⟨rfl, by decide, .inr (by decide)⟩, by decide, by decide +kernel⟩, ?_⟩
  rw [Packed, Packed]
  exact ⟨.inl (by decide), by decide +kernel, .inr (by decide +kernel)⟩

/-- **C85**, balanced lines (partial: only if every single word fits): the lines are packed under a limit that is not above the
one given, and there are no more of them than when breaking as late as possible.
Missing: a word wider than the limit, see `C85_violated`. -/
theorem C85_balanced_partial (f : Font Rat) (m : Rat) (line : List (Seg α)) (ht : textOf line ≠ []) (hm : 0 ≤ m)
    (ws : List (List Char)) (k : Nat) (hk : Words (textOf line) ws k) (hw : ∀ w ∈ ws, width f [w] ≤ m) :
    ∃ ps qs limit, Lines line (wrap exact f m true line) ps ∧ Packed f limit ps ∧ limit ≤ m ∧
      Lines line (wrap exact f m false line) qs ∧ Packed f m qs ∧ ps.length ≤ qs.length := by
  rcases wrap_exact f m line ht with ⟨h, ps, h1, h2, _⟩ | h
  · exact ⟨ps, ps, m, by rw [h]; exact h1, h2, Rat.le_refl, by rw [h]; exact h1, h2, Nat.le_refl _⟩
  · obtain ⟨l1, _, e1, g1⟩ := h true
    obtain ⟨l2, e2, _, g2⟩ := h false
    have e1 := e1 rfl
    rw [e2 rfl] at g2
    obtain ⟨ps, p1, p2, p3⟩ := lines_of_limit f l1 line _ g1
    obtain ⟨qs, q1, q2, q3⟩ := lines_of_limit f m line _ g2
    rw [← words_unique hk] at hw
    refine ⟨ps, qs, l1, p1, p2, ?_, q1, q2, ?_⟩
    · rw [e1]
      exact (balance_le f _ _ 24 _ _ (maxWord_le f _ m hm hw)).1
    · rw [p3, q3, e1]
      exact Nat.succ_le_succ (balance_count exact f _ _ 24 _ _ (Nat.le_refl _))

example : (wrap exact unitFont 9 true [(⟨"aa bb cc dd".toList, 0⟩ : Seg Nat)]).map textOf = ["aa bb".toList, "cc dd".toList] ∧
    (wrap exact unitFont 9 false [(⟨"aa bb cc dd".toList, 0⟩ : Seg Nat)]).map textOf = ["aa bb cc".toList, "dd".toList] := by decide +kernel

example : Words "aa bb cc dd".toList ["aa".toList, "bb".toList, "cc".toList, "dd".toList] 0 ∧
    ∀ w ∈ ["aa".toList, "bb".toList, "cc".toList, "dd".toList], width unitFont [w] ≤ 9 :=
  ⟨⟨rfl, by decide, .inr (by decide)⟩, by decide +kernel⟩

/-- **C85 is violated**: one word that is too wide raises the limit for all lines when they are balanced: three words that did
not fit side by side are put on one line. -/
theorem C85_violated : ∃ (line : List (Seg Nat)) (ws : List (List Char)),
    join ws ∈ (wrap exact unitFont 5 true line).map textOf ∧ ¬ Fits unitFont 5 ws ∧
      (wrap exact unitFont 5 false line).map textOf = ["aaaaaaaaaa".toList, "bb bb".toList, "bb".toList] := by
  refine ⟨[⟨"aaaaaaaaaa bb bb bb".toList, 0⟩], ["bb".toList, "bb".toList, "bb".toList], by decide +kernel, ?_, by decide +kernel⟩
  intro h
  rcases h with h | h
  · exact absurd h (by decide)
  · exact absurd h (by decide +kernel)

end Verif.Props
