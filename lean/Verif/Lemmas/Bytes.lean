import Verif.Model.Bytes
import Verif.Lemmas.Str
namespace Verif

theorem utf8Size_eq (c : Char) :
    c.utf8Size = if c.toNat < 0x80 then 1 else if c.toNat < 0x800 then 2
      else if c.toNat < 0x10000 then 3 else 4 := by
  unfold Char.utf8Size
  have e : c.toNat = c.val.toNat := rfl
  simp only [e, UInt32.le_iff_toNat_le]
  have e1 : (UInt32.ofNatLT 0x7F (of_decide_eq_true rfl)).toNat = 127 := rfl
  have e2 : (UInt32.ofNatLT 0x7FF (of_decide_eq_true rfl)).toNat = 2047 := rfl
  have e3 : (UInt32.ofNatLT 0xFFFF (of_decide_eq_true rfl)).toNat = 65535 := rfl
  rw [e1, e2, e3]
  simp only [← Nat.lt_succ_iff]

theorem utf8Size_pos (c : Char) : 0 < c.utf8Size := by
  rw [utf8Size_eq]; split <;> (try split) <;> (try split) <;> omega

theorem length_utf8Enc (c : Char) : (utf8Enc c).length = c.utf8Size := by
  rw [utf8Size_eq]
  simp only [utf8Enc]
  split
  · rfl
  · split
    · rfl
    · split <;> rfl

@[simp] theorem byteLen_nil : byteLen [] = 0 := rfl
@[simp] theorem byteLen_cons (c : Char) (s : Str) : byteLen (c :: s) = c.utf8Size + byteLen s := by
  simp [byteLen]
@[simp] theorem byteLen_append (a b : Str) : byteLen (a ++ b) = byteLen a + byteLen b := by
  simp [byteLen]

theorem length_le_byteLen (s : Str) : s.length ≤ byteLen s := by
  induction s with
  | nil => simp
  | cons c cs ih => have := utf8Size_pos c; simp; omega

theorem length_utf8 (s : Str) : (utf8 s).length = byteLen s := by
  induction s with
  | nil => rfl
  | cons c cs ih => simp [utf8] at ih ⊢; rw [ih, length_utf8Enc]

theorem utf8_append (a b : Str) : utf8 (a ++ b) = utf8 a ++ utf8 b := by simp [utf8]
theorem utf8_cons (c : Char) (b : Str) : utf8 (c :: b) = utf8Enc c ++ utf8 b := by simp [utf8]

theorem takeBytes_iff {s p : Str} {n : Nat} :
    takeBytes s n = some p ↔ ∃ q, s = p ++ q ∧ byteLen p = n := by
  induction s generalizing p n with
  | nil =>
    cases n with
    | zero =>
      simp only [takeBytes]
      constructor
      · intro h; injection h with h; subst h; exact ⟨[], rfl, rfl⟩
      · rintro ⟨q, h, _⟩; simp at h; simp [h]
    | succ n =>
      simp only [takeBytes]
      constructor
      · intro h; simp at h
      · rintro ⟨q, h, hb⟩; simp at h; simp [h] at hb
  | cons c cs ih =>
    cases n with
    | zero =>
      simp only [takeBytes]
      constructor
      · intro h; injection h with h; subst h; exact ⟨c :: cs, rfl, rfl⟩
      · rintro ⟨q, h, hb⟩
        cases p with
        | nil => rfl
        | cons d p => have := utf8Size_pos d; simp at hb; omega
    | succ n =>
      simp only [takeBytes]
      constructor
      · intro h
        split at h
        · next hle =>
          simp only [Option.map_eq_some_iff] at h
          obtain ⟨p', hp', rfl⟩ := h
          obtain ⟨q, rfl, hb⟩ := ih.1 hp'
          exact ⟨q, rfl, by simp; omega⟩
        · simp at h
      · rintro ⟨q, h, hb⟩
        cases p with
        | nil => simp at hb
        | cons d p' =>
          simp only [List.cons_append, List.cons.injEq] at h
          obtain ⟨rfl, rfl⟩ := h
          simp only [byteLen_cons] at hb
          rw [if_pos (by omega), ih.2 ⟨q, rfl, by omega⟩]
          rfl

theorem dropBytes_iff {s q : Str} {n : Nat} :
    dropBytes s n = some q ↔ ∃ p, s = p ++ q ∧ byteLen p = n := by
  induction s generalizing q n with
  | nil =>
    cases n with
    | zero =>
      simp only [dropBytes]
      constructor
      · intro h; injection h with h; subst h; exact ⟨[], rfl, rfl⟩
      · rintro ⟨p, h, _⟩; simp at h; simp [h]
    | succ n =>
      simp only [dropBytes]
      constructor
      · intro h; simp at h
      · rintro ⟨p, h, hb⟩; simp at h; simp [h] at hb
  | cons c cs ih =>
    cases n with
    | zero =>
      simp only [dropBytes]
      constructor
      · intro h; injection h with h; subst h; exact ⟨[], rfl, rfl⟩
      · rintro ⟨p, h, hb⟩
        cases p with
        | nil => simpa using h
        | cons d p => have := utf8Size_pos d; simp at hb; omega
    | succ n =>
      simp only [dropBytes]
      constructor
      · intro h
        split at h
        · next hle =>
          obtain ⟨p, rfl, hb⟩ := ih.1 h
          exact ⟨c :: p, rfl, by simp; omega⟩
        · simp at h
      · rintro ⟨p, h, hb⟩
        cases p with
        | nil => simp at hb
        | cons d p' =>
          simp only [List.cons_append, List.cons.injEq] at h
          obtain ⟨rfl, rfl⟩ := h
          simp only [byteLen_cons] at hb
          rw [if_pos (by omega), ih.2 ⟨p', rfl, by omega⟩]

theorem isBoundary_iff {s : Str} {n : Nat} :
    isBoundary s n = true ↔ ∃ p q, s = p ++ q ∧ byteLen p = n := by
  induction s generalizing n with
  | nil =>
    cases n with
    | zero => simp [isBoundary]
    | succ n =>
      simp only [isBoundary]
      constructor
      · intro h; simp at h
      · rintro ⟨p, q, h, hb⟩; simp at h; simp [h] at hb
  | cons c cs ih =>
    cases n with
    | zero => simp only [isBoundary, true_iff]; exact ⟨[], _, rfl, rfl⟩
    | succ n =>
      simp only [isBoundary]
      constructor
      · intro h
        split at h
        · next hle =>
          obtain ⟨p, q, rfl, hb⟩ := ih.1 h
          exact ⟨c :: p, q, rfl, by simp; omega⟩
        · simp at h
      · rintro ⟨p, q, h, hb⟩
        cases p with
        | nil => simp at hb
        | cons d p' =>
          simp only [List.cons_append, List.cons.injEq] at h
          obtain ⟨rfl, rfl⟩ := h
          simp only [byteLen_cons] at hb
          rw [if_pos (by omega), ih.2 ⟨p', q, rfl, by omega⟩]

theorem takeBytes_append (p q : Str) : takeBytes (p ++ q) (byteLen p) = some p :=
  takeBytes_iff.2 ⟨q, rfl, rfl⟩

theorem dropBytes_append (p q : Str) : dropBytes (p ++ q) (byteLen p) = some q :=
  dropBytes_iff.2 ⟨p, rfl, rfl⟩

theorem sliceBytes_append (p q r : Str) :
    sliceBytes (p ++ q ++ r) (byteLen p) (byteLen p + byteLen q) = some q := by
  simp only [sliceBytes]
  rw [if_pos (by omega), List.append_assoc, dropBytes_append]
  simp only [Option.bind_some]
  rw [show byteLen p + byteLen q - byteLen p = byteLen q by omega, takeBytes_append]

theorem sliceBytes_iff {s q : Str} {a b : Nat} :
    sliceBytes s a b = some q ↔ ∃ p r, s = p ++ q ++ r ∧ byteLen p = a ∧ b = a + byteLen q := by
  constructor
  · intro h
    simp only [sliceBytes] at h
    split at h
    · next hle =>
      simp only [Option.bind_eq_some_iff] at h
      obtain ⟨t, ht, hq⟩ := h
      obtain ⟨p, rfl, hp⟩ := dropBytes_iff.1 ht
      obtain ⟨r, rfl, hq⟩ := takeBytes_iff.1 hq
      exact ⟨p, r, by simp, hp, by omega⟩
    · simp at h
  · rintro ⟨p, r, rfl, rfl, rfl⟩
    exact sliceBytes_append p q r

theorem stripPrefix_iff {p s t : Str} : stripPrefix p s = some t ↔ s = p ++ t := by
  induction p generalizing s with
  | nil => simp [stripPrefix, eq_comm]
  | cons c cs ih =>
    cases s with
    | nil => simp [stripPrefix]
    | cons d ds =>
      simp only [stripPrefix]
      split
      · next h => simp [h, ih]
      · next h => simp; intro e; exact absurd e.symm h

theorem stripPrefix_append (p t : Str) : stripPrefix p (p ++ t) = some t := stripPrefix_iff.2 rfl

theorem stripPrefix_eq_none {p s : Str} : stripPrefix p s = none ↔ ∀ t, s ≠ p ++ t := by
  constructor
  · intro h t e; rw [stripPrefix_iff.2 e] at h; simp at h
  · intro h
    cases hs : stripPrefix p s with
    | none => rfl
    | some t => exact absurd (stripPrefix_iff.1 hs) (h t)

/-! ### chunks -/

theorem chunksAux_flatten {n : Nat} (hn : 0 < n) (f : Nat) (l : List α) (h : l.length ≤ f) :
    (chunksAux n f l).flatten = l := by
  induction f generalizing l with
  | zero => simp at h; subst h; simp [chunksAux]
  | succ f ih =>
    cases l with
    | nil => simp [chunksAux]
    | cons a t =>
      simp only [chunksAux, List.flatten_cons]
      rw [ih _ (by simp at h ⊢; omega), List.take_append_drop]

theorem chunks_flatten {n : Nat} (hn : 0 < n) (l : List α) : (chunks n l).flatten = l :=
  chunksAux_flatten hn _ _ (Nat.le_refl _)

theorem mem_chunksAux {n : Nat} (hn : 0 < n) (f : Nat) (l c : List α) (h : c ∈ chunksAux n f l) :
    0 < c.length ∧ c.length ≤ n := by
  induction f generalizing l with
  | zero => simp [chunksAux] at h
  | succ f ih =>
    cases l with
    | nil => simp [chunksAux] at h
    | cons a t =>
      simp only [chunksAux, List.mem_cons] at h
      rcases h with rfl | h
      · simp; omega
      · exact ih _ h

theorem mem_chunks {n : Nat} (hn : 0 < n) {l c : List α} (h : c ∈ chunks n l) :
    0 < c.length ∧ c.length ≤ n := mem_chunksAux hn _ _ _ h

theorem chunksAux_fuel {n : Nat} (hn : 0 < n) (f g : Nat) (l : List α) (hf : l.length ≤ f)
    (hg : l.length ≤ g) : chunksAux n f l = chunksAux n g l := by
  induction f generalizing l g with
  | zero =>
    simp at hf; subst hf
    cases g <;> rfl
  | succ f ih =>
    cases l with
    | nil => cases g <;> rfl
    | cons a t =>
      cases g with
      | zero => simp at hg
      | succ g =>
        simp only [chunksAux]
        rw [ih g _ (by simp at hf ⊢; omega) (by simp at hg ⊢; omega)]

theorem chunks_cons {n : Nat} (hn : 0 < n) {l : List α} (hl : l ≠ []) :
    chunks n l = l.take n :: chunks n (l.drop n) := by
  cases l with
  | nil => exact absurd rfl hl
  | cons a t =>
    simp only [chunks, List.length_cons, chunksAux]
    congr 1
    exact chunksAux_fuel hn _ _ _ (by simp; omega) (Nat.le_refl _)

@[simp] theorem chunks_nil (n : Nat) : chunks n ([] : List α) = [] := rfl

end Verif
