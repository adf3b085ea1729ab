import Verif.Model.StyleCmd
import Verif.Spec.StyleCmd
import Verif.Lemmas.InfoCmd
/-! # Lemmas for the style commands -/
namespace Verif.StyleCmd
open Verif Verif.Doc Verif.Pos Verif.InfoCmd Verif.EventCmd
open Verif.Spec.EventCmd (Lacks csv)
open Verif.Spec.StyleCmd

theorem pattern_ne (n : Str) : pattern n ≠ [] := by unfold pattern; simp

theorem nl_pattern {n : Str} (h : '\n' ∉ n) : '\n' ∉ pattern n := by
  unfold pattern; simp [h]

/-- The first occurrence at the start of a line. -/
theorem first_of_lead {pat x : Str} (b : Str) (hp : '\n' ∉ pat) (h0 : pat ≠ []) (hx : Lead x) (hl : Lacks pat x) :
    splitOnceStr pat (x ++ pat ++ b) = some (x, b) := by
  rcases hx with rfl | hx
  · apply splitOnceStr_first; intros; simp
  · obtain ⟨A, rfl⟩ : ∃ A, x = A ++ ['\n'] := by
      rw [List.getLast?_eq_some_iff] at hx; exact hx
    exact first_of_line b hp h0 (lacks_left hl)

theorem lineStart_lead {x : Str} (hx : Lead x) : lineStart x = (x, []) := by
  unfold lineStart
  rcases hx with rfl | hx
  · rfl
  · obtain ⟨A, rfl⟩ : ∃ A, x = A ++ ['\n'] := by
      rw [List.getLast?_eq_some_iff] at hx; exact hx
    simp

theorem dropWhile_row {r t : Str} (h : '\n' ∉ r) (ht : t = [] ∨ t.head? = some '\n') :
    (r ++ t).dropWhile (· ≠ '\n') = t := by
  have h1 := takeWhile_row h ht
  have h2 := List.takeWhile_append_dropWhile (p := (· ≠ '\n')) (l := r ++ t)
  rw [h1] at h2
  exact List.append_cancel_left h2

theorem findLine_at {n rest x y : Str} (hx : Lead x) (hl : Unseen n x) (hn : '\n' ∉ n) (hr : '\n' ∉ rest) (hy : Tail y) :
    findLine (pattern n) (x ++ (pattern n ++ rest) ++ y) = some (x, pattern n ++ rest, y) := by
  unfold findLine
  rw [show x ++ (pattern n ++ rest) ++ y = x ++ pattern n ++ (rest ++ y) by simp,
    first_of_lead _ (nl_pattern hn) (pattern_ne n) hx hl]
  simp only
  rw [lineStart_lead hx, takeWhile_row hr hy, dropWhile_row hr hy]
  simp

theorem insert_at (d : Doc) {a b : Str} (h : d.text = a ++ b) (t : Str) :
    ∃ d', d.insert (byteLen a) t = (.ok (), d') ∧ d'.text = a ++ t ++ b := by
  have e : d.insert (byteLen a) t = (.ok (), Doc.record { d with text := a ++ t ++ b } (.insert (byteLen a) t) insertDesc) := by
    simp only [Doc.insert, h, insertRaw_at]
  exact ⟨_, e, rfl⟩

/-! ## The last occurrence -/

theorem lacks_reverse {pat s : Str} (h : Lacks pat s) : Lacks pat.reverse s.reverse := by
  intro a b e
  have := congrArg List.reverse e
  simp only [List.reverse_reverse, List.reverse_append] at this
  exact h b.reverse a.reverse (by rw [this, List.append_assoc])

theorem fromLast_at {c : Char} {pt s : Str} (p : Str) (hl : Lacks (c :: pt) (pt ++ s)) :
    fromLast (c :: pt) (p ++ (c :: pt) ++ s) = some ((c :: pt) ++ s) := by
  unfold fromLast
  have h := lacks_reverse hl
  rw [List.reverse_cons, List.reverse_append] at h
  have := first_of_lacks h p.reverse
  rw [List.reverse_append, List.reverse_append, List.reverse_cons, ← List.append_assoc, this]
  simp

theorem fromLast_none {pat s : Str} (h : Lacks pat s) : fromLast pat s = none := by
  unfold fromLast
  rw [splitOnceStr_none.2 (lacks_reverse h)]

/-! ## Comma-separated fields -/

theorem splitStr_spaced : ∀ {l : List Str}, l ≠ [] → (∀ x ∈ l, ',' ∉ x) → splitStr ", ".toList (spaced l) = l
  | [], h, _ => absurd rfl h
  | [x], _, h => by
    rw [spaced]
    exact splitStr_of_lacks (lacks_mem (c := ',') (by simp) (h x (by simp)))
  | x :: y :: l, _, h => by
    have e : splitOnceStr (',' :: [' ']) (x ++ (',' :: [' ']) ++ spaced (y :: l)) = some (x, spaced (y :: l)) :=
      splitOnceStr_of_not_mem _ (h x (by simp))
    rw [spaced]
    have := splitStr_cons (pat := ", ".toList) (by simp) e
    show splitStr ", ".toList (x ++ ", ".toList ++ spaced (y :: l)) = _
    rw [show x ++ ", ".toList ++ spaced (y :: l) = x ++ (',' :: [' ']) ++ spaced (y :: l) from rfl, this,
      splitStr_spaced (by simp) (fun z hz => h z (by simp [hz]))]

theorem splitOn_csv : ∀ {l : List Str}, l ≠ [] → (∀ x ∈ l, ',' ∉ x) → splitOn ',' (csv l) = l
  | [], h, _ => absurd rfl h
  | [x], _, h => by rw [csv]; exact splitOn_of_not_mem (h x (by simp))
  | x :: y :: l, _, h => by
    rw [csv, splitOn_append_sep _ (h x (by simp)), splitOn_csv (by simp) (fun z hz => h z (by simp [hz]))]

theorem joinStr_csv : ∀ l : List Str, joinStr [','] l = csv l
  | [] => rfl
  | [_] => rfl
  | x :: y :: l => by rw [joinStr, csv, joinStr_csv (y :: l)]; simp; simp

/-! ## Updates -/

theorem update_length (names fields : List Str) (u : Str × Str) : (update names fields u).length = fields.length := by
  unfold update
  split
  · split <;> simp
  · rfl

theorem update_get {names fields : List Str} {u : Str × Str} (hn : names.Nodup) {i : Nat} (hi : i < fields.length) :
    (names[i]? = some u.1 → (update names fields u)[i]? = some u.2) ∧
    (names[i]? ≠ some u.1 → (update names fields u)[i]? = fields[i]?) := by
  unfold update
  cases h : names.findIdx? (· = u.1) with
  | none =>
    rw [List.findIdx?_eq_none_iff] at h
    refine ⟨fun hi' => ?_, fun _ => rfl⟩
    have := h _ (List.mem_of_getElem? hi')
    simp at this
  | some j =>
    rw [List.findIdx?_eq_some_iff_getElem] at h
    obtain ⟨hj, h1, _⟩ := h
    simp only [decide_eq_true_eq] at h1
    simp only
    have hjs : names[j]? = some u.1 := by rw [List.getElem?_eq_getElem hj, h1]
    constructor
    · intro hi'
      have hij : i = j := by
        obtain ⟨hil, hie⟩ := List.getElem?_eq_some_iff.1 hi'
        exact (List.getElem?_inj hil hn).1 (by rw [hi', hjs])
      subst hij
      rw [if_pos hi]
      simp [hi]
    · intro hne
      have hij : j ≠ i := by intro e; subst e; exact hne hjs
      split
      · simp [hij]
      · rfl

theorem updated_foldl {names : List Str} (hn : names.Nodup) (us : List (Str × Str)) :
    ∀ fields : List Str, Updated names us fields (us.foldl (update names) fields) := by
  induction us with
  | nil =>
    intro fields
    refine ⟨rfl, fun i _ => Or.inr ⟨by simp, rfl⟩⟩
  | cons u us ih =>
    intro fields
    obtain ⟨h1, h2⟩ := ih (update names fields u)
    rw [update_length] at h1 h2
    refine ⟨h1, ?_⟩
    intro i hi
    have hg := update_get (u := u) hn hi
    rcases h2 i hi with ⟨v, hv, hv1, hv2⟩ | ⟨hv, hv2⟩
    · exact Or.inl ⟨v, by simp [hv], hv1, hv2⟩
    · by_cases hu : names[i]? = some u.1
      · exact Or.inl ⟨u, by simp, hu, by rw [List.foldl_cons, hv2, hg.1 hu]⟩
      · refine Or.inr ⟨?_, by rw [List.foldl_cons, hv2, hg.2 hu]⟩
        intro w hw
        rcases List.mem_cons.1 hw with rfl | hw
        · exact hu
        · exact hv w hw

end Verif.StyleCmd
