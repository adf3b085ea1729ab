import Verif.Model.IndexUpdate
import Verif.Spec.IndexUpdate
import Verif.Lemmas.Index
import Verif.Lemmas.Sort
/-!
# Lemmas: keeping the word index up to date
-/
namespace Verif.IndexUpdate
open Verif Verif.Pos Verif.Spec.Srch Verif.Spec.IndexUpdate

theorem mem_extract {word : Char → Bool} {lower : Str → Str} {text k : Str} {p : Nat} :
    p ∈ extract word lower text k ↔ ∃ w, IsWordAt word text w p ∧ lower w = k := by
  unfold extract
  rw [List.mem_map]
  constructor
  · rintro ⟨⟨q, w⟩, h, rfl⟩
    obtain ⟨h1, h2⟩ := List.mem_filter.1 h
    exact ⟨w, (Index.words_iff _ _ _ _).1 h1, of_decide_eq_true h2⟩
  · rintro ⟨w, h1, h2⟩
    exact ⟨(p, w), List.mem_filter.2 ⟨(Index.words_iff _ _ _ _).2 h1, decide_eq_true h2⟩, rfl⟩

theorem exact_build (word : Char → Bool) (lower : Str → Str) (text : Str) : Exact word lower text (extract word lower text) := by
  intro k
  refine ⟨?_, fun p => mem_extract⟩
  unfold extract
  rw [List.pairwise_map]
  exact (Search.words_sorted text 0 none (by simp)).1.filter _

theorem mem_foldl_add (off x : Nat) : ∀ (found entry : List Nat),
    x ∈ found.foldl (fun e p => if e.contains (p + off) then e else e ++ [p + off]) entry ↔ x ∈ entry ∨ ∃ p ∈ found, x = p + off := by
  intro found
  induction found with
  | nil => intro entry; simp
  | cons p found ih =>
    intro entry
    rw [List.foldl_cons, ih]
    by_cases h : entry.contains (p + off) = true
    · rw [if_pos h]
      rw [List.contains_iff_mem] at h
      constructor
      · rintro (h' | ⟨q, hq, rfl⟩)
        · exact .inl h'
        · exact .inr ⟨q, by simp [hq], rfl⟩
      · rintro (h' | ⟨q, hq, rfl⟩)
        · exact .inl h'
        · rcases List.mem_cons.1 hq with rfl | hq'
          · exact .inl h
          · exact .inr ⟨q, hq', rfl⟩
    · rw [if_neg h]
      constructor
      · rintro (h' | ⟨q, hq, rfl⟩)
        · rcases List.mem_append.1 h' with h' | h'
          · exact .inl h'
          · exact .inr ⟨p, by simp, by simpa using h'⟩
        · exact .inr ⟨q, by simp [hq], rfl⟩
      · rintro (h' | ⟨q, hq, rfl⟩)
        · exact .inl (by simp [h'])
        · rcases List.mem_cons.1 hq with rfl | hq'
          · exact .inl (by simp)
          · exact .inr ⟨q, hq', rfl⟩

theorem mem_addAll {off x : Nat} {found entry : List Nat} : x ∈ addAll off found entry ↔ x ∈ entry ∨ ∃ p ∈ found, x = p + off := by
  unfold addAll
  by_cases h : found = []
  · rw [if_pos h, h]; simp
  · rw [if_neg h, mem_sortKey, mem_foldl_add]

/-- A word that ends before the end of `a` does not depend on what follows. -/
theorem word_prefix {word : Char → Bool} {a r w : Str} {p : Nat} (h : IsWordAt word (a ++ r) w p) (hp : p + byteLen w < byteLen a) (r' : Str) :
    IsWordAt word (a ++ r') w p := by
  obtain ⟨pre, post, h1, h2, h3, h4, h5, h6⟩ := h
  obtain ⟨t, ht1, ht2⟩ := Search.prefix_of_le h1 (by rw [byteLen_append]; omega)
  have hne : t ≠ [] := by
    rintro rfl
    rw [List.append_nil] at ht1
    rw [ht1, byteLen_append] at hp; omega
  refine ⟨pre, t ++ r', by rw [ht1]; simp, h2, h3, h4, h5, ?_⟩
  intro c hc
  apply h6
  rw [ht2]
  cases t with
  | nil => exact absurd rfl hne
  | cons d t => exact hc

/-- A word inside a stretch of the text is a word of the stretch. -/
theorem word_inside {word : Char → Bool} {u v t w : Str} {p : Nat} (h : IsWordAt word (u ++ v ++ t) w p) (hu : byteLen u ≤ p)
    (hv : p + byteLen w < byteLen (u ++ v) ∨ t = []) : ∃ q, p = q + byteLen u ∧ IsWordAt word v w q := by
  obtain ⟨pre, post, h1, h2, h3, h4, h5, h6⟩ := h
  have hz : pre ++ (w ++ post) = u ++ (v ++ t) := by rw [← List.append_assoc, ← List.append_assoc]; exact h1.symm
  obtain ⟨z, hz1, hz2⟩ := Search.prefix_of_le hz (by omega)
  refine ⟨byteLen z, by rw [← h2, hz1, byteLen_append]; omega, ?_⟩
  have h5' : ∀ c, z.getLast? = some c → word c = false := by
    intro c hc
    apply h5
    rw [hz1, List.getLast?_append, hc]; rfl
  rcases hv with hv | rfl
  · have e : v ++ t = (z ++ w) ++ post := by rw [hz2]; simp
    obtain ⟨s, hs1, hs2⟩ := Search.prefix_of_le e (by
      rw [← h2, hz1, byteLen_append, byteLen_append] at hv
      rw [byteLen_append]; omega)
    have hne : s ≠ [] := by
      rintro rfl
      rw [List.append_nil] at hs1
      rw [← h2, hz1, hs1, byteLen_append, byteLen_append, byteLen_append] at hv; omega
    refine ⟨z, s, by rw [hs1], rfl, h3, h4, h5', ?_⟩
    intro c hc
    apply h6
    rw [hs2]
    cases s with
    | nil => exact absurd rfl hne
    | cons d s => exact hc
  · refine ⟨z, post, ?_, rfl, h3, h4, h5', h6⟩
    rw [List.append_nil] at hz2
    rw [hz2]; simp

theorem newLen_ge (x : Int) (n : Nat) : -(n : Int) ≤ (x.toNat : Int) - (n : Int) := by omega

theorem rescan_nil (word : Char → Bool) (lower : Str → Str) (cached : Str) (sum : Int) (m : Str → List Nat) :
    rescan word lower cached sum [] m = some m := rfl

theorem rescan_cons (word : Char → Bool) (lower : Str → Str) (cached : Str) (sum a : Int) (c : Range) (l : List (Range × Int))
    (m : Str → List Nat) : rescan word lower cached sum ((c, a) :: l) m =
      (window word lower cached (satAdd c.start sum) m).bind (rescan word lower cached (sum + a) l) := rfl

theorem extract_nil (word : Char → Bool) (lower : Str → Str) (k : Str) : extract word lower [] k = [] := rfl

theorem addAll_nil (off : Nat) (e : List Nat) : addAll off [] e = e := by unfold addAll; rw [if_pos rfl]

theorem update_eq {word : Char → Bool} {lower : Str → Str} {st : St} {text : Str} {changes : List Range} (h1 : changes ≠ [])
    (h2 : ¬ (changes.length > 10 ∨ (changes.map (fun r => r.fin - r.start)).sum > 1000)) :
    update word lower st text changes =
      match adjustments text (sortKey (·.start) changes) 0 (sortKey (·.start) changes) with
      | none => .panic
      | some adj =>
        match rescan word lower text 0 ((sortKey (·.start) changes).zip adj)
          (fun k => (st.words k).filterMap (fun p => move p ((sortKey (·.start) changes).zip adj) p)) with
        | none => .panic
        | some m => .ok ⟨text, m⟩ := by
  unfold update
  rw [if_neg h1, if_neg h2]
  rfl

/-- One change. -/
theorem update_single (word : Char → Bool) (lower : Str → Str) (st : St) (a x y b u v t : Str) (hx : byteLen x ≤ 1000)
    (hw : a ++ y ++ b = u ++ v ++ t) (hu : byteLen u = byteLen a - 50)
    (hv : byteLen (u ++ v) = min (byteLen a + 100) (byteLen (a ++ y ++ b))) :
    ∃ (m : Str → List Nat) (adj : Int), -(byteLen x : Int) ≤ adj ∧
      update word lower st (a ++ y ++ b) [⟨byteLen a, byteLen a + byteLen x⟩] = .ok ⟨a ++ y ++ b, m⟩ ∧
      ∀ k p, p ∈ m k ↔ (∃ q, q ∈ st.words k ∧ (q < byteLen a ∧ p = q ∨ byteLen a + byteLen x ≤ q ∧ p = satAdd q adj)) ∨
        ∃ q ∈ extract word lower v k, p = q + byteLen u := by
  have hd : dropBytes (a ++ y ++ b) (satAdd (byteLen a) 0) = some (y ++ b) := by
    have : satAdd (byteLen a) 0 = byteLen a := by simp [satAdd]
    rw [this, List.append_assoc]; exact dropBytes_append _ _
  have hadj : ∃ adj : Int, -(byteLen x : Int) ≤ adj ∧ adjustments (a ++ y ++ b) [⟨byteLen a, byteLen a + byteLen x⟩] 0
      [⟨byteLen a, byteLen a + byteLen x⟩] = some [adj] := by
    refine ⟨(newLen [⟨byteLen a, byteLen a + byteLen x⟩] ⟨byteLen a, byteLen a + byteLen x⟩ (y ++ b) : Int) -
      ((byteLen a + byteLen x - byteLen a : Nat) : Int), by omega, ?_⟩
    simp only [adjustments]
    rw [if_neg (by omega), hd]
    rfl
  obtain ⟨adj, ha1, ha2⟩ := hadj
  have hmove : ∀ q : Nat, ∀ p, move q [(⟨byteLen a, byteLen a + byteLen x⟩, adj)] q = some p ↔
      q < byteLen a ∧ p = q ∨ byteLen a + byteLen x ≤ q ∧ p = satAdd q adj := by
    intro q p
    simp only [move]
    by_cases h1 : byteLen a ≤ q ∧ q < byteLen a + byteLen x
    · rw [if_pos h1]; constructor
      · intro h; cases h
      · omega
    · rw [if_neg h1]
      by_cases h2 : byteLen a + byteLen x ≤ q
      · rw [if_pos h2]
        constructor
        · intro h; injection h with h; exact .inr ⟨h2, h.symm⟩
        · rintro (h | h)
          · omega
          · rw [h.2]
      · rw [if_neg h2]
        constructor
        · intro h; injection h with h; exact .inl ⟨by omega, h.symm⟩
        · rintro (h | h)
          · rw [h.2]
          · omega
  have hmem : ∀ k p, p ∈ (st.words k).filterMap (fun p => move p [(⟨byteLen a, byteLen a + byteLen x⟩, adj)] p) ↔
      ∃ q, q ∈ st.words k ∧ (q < byteLen a ∧ p = q ∨ byteLen a + byteLen x ≤ q ∧ p = satAdd q adj) := by
    intro k p
    rw [List.mem_filterMap]
    exact exists_congr fun q => and_congr_right fun _ => hmove q p
  have hsort : sortKey (fun r : Range => r.start) [⟨byteLen a, byteLen a + byteLen x⟩] = [⟨byteLen a, byteLen a + byteLen x⟩] := rfl
  have hsl : sliceBytes (a ++ y ++ b) (byteLen a - 50) (min (byteLen a + 100) (byteLen (a ++ y ++ b))) = some v := by
    rw [← hv, ← hu, hw, byteLen_append]
    exact sliceBytes_append _ _ _
  refine ⟨fun k => addAll (byteLen u) (extract word lower v k)
    ((st.words k).filterMap (fun p => move p [(⟨byteLen a, byteLen a + byteLen x⟩, adj)] p)), adj, ha1, ?_, ?_⟩
  · have hr : ∀ m, rescan word lower (a ++ y ++ b) 0 [(⟨byteLen a, byteLen a + byteLen x⟩, adj)] m =
        some fun k => addAll (byteLen u) (extract word lower v k) (m k) := by
      intro m
      have h0 : satAdd (byteLen a) 0 = byteLen a := by simp [satAdd]
      rw [rescan_cons, h0, window]
      by_cases hlt : byteLen a - 50 < min (byteLen a + 100) (byteLen (a ++ y ++ b))
      · rw [if_pos hlt, hsl, hu]; rfl
      · rw [if_neg hlt, Option.bind_some, rescan_nil]
        have hv0 : v = [] := by
          rw [← hv, byteLen_append, hu] at hlt
          cases v with
          | nil => rfl
          | cons c v => have := Char.utf8Size_pos c; rw [byteLen_cons] at hlt; omega
        congr 1
        funext k
        rw [hv0, extract_nil, addAll_nil]
    rw [update_eq (by simp) (by simp; omega), hsort, ha2]
    simp only
    rw [List.zip_cons_cons, List.zip_nil_left, hr]
  · intro k p
    rw [mem_addAll, hmem]

end Verif.IndexUpdate
