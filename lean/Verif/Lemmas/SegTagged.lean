import Verif.Lemmas.Segment
/-!
# Lemmas: a block with a tag is a block in which the analysis finds one
-/
namespace Verif.Segment
open Verif Verif.Override
open Verif.Spec.Segment
open Verif.Spec.Ovr (Letter Digit Name)

theorem scanName_name {c : Char} {d : Str} (hc : Letter c ∨ Digit c) : Name (scanName [] (c :: d)).1 := by
  rcases scanName_spec (c :: d) with ⟨_, _, h⟩ | ⟨h, _⟩
  · obtain ⟨h1, h2⟩ := h c rfl
    rcases hc with hc | hc
    · exact absurd hc h1
    · exact absurd hc h2
  · exact h

theorem blockLoop_tag {c : Char} {d : Str} (hc : Letter c ∨ Digit c) (a : Str) : ∀ (k pos : Nat) (o : Out), '\\' ∉ a →
    (a ++ '\\' :: c :: d).length ≤ k → blockLoop k pos (a ++ '\\' :: c :: d) = .ok o → o.tags ≠ [] := by
  induction a with
  | nil =>
    intro k pos o _ hk h
    cases k with
    | zero => simp at hk
    | succ k =>
      have hn := scanName_name (d := d) hc
      simp only [List.nil_append] at h
      rw [blockLoop] at h
      simp only [if_true] at h
      have h1 : (scanName [] (c :: d)).1 ≠ [] := by
        intro e
        rw [e] at hn
        obtain ⟨x, t, e2, _⟩ := hn
        cases e2
      rw [if_pos h1, if_neg (Override.Name.not_blank hn)] at h
      obtain ⟨o', _, e⟩ := addTag_ok h
      rw [e.1]
      simp
  | cons x a ih =>
    intro k pos o ha hk h
    simp only [List.mem_cons, not_or] at ha
    cases k with
    | zero => simp at hk
    | succ k =>
      simp only [List.cons_append] at h
      rw [blockLoop, if_neg (fun e => ha.1 e.symm)] at h
      exact ih k _ o ha.2 (by simpa using hk) h

theorem scanBlock_braces {d : Nat} {content : Str} (h : Braces d content) (s : Str) :
    scanBlock d (content ++ '}' :: s) = .ok (content, true, s) ∨ scanBlock d (content ++ '}' :: s) = .err := by
  induction h with
  | done => left; simp [scanBlock]
  | opn d t _ ih =>
    simp only [List.cons_append]
    rw [scanBlock, if_pos rfl]
    split
    · exact .inr rfl
    · rcases ih with e | e <;> rw [e]
      · exact .inl rfl
      · exact .inr rfl
  | cls d t hd _ ih =>
    simp only [List.cons_append]
    rw [scanBlock, if_neg (by decide), if_pos rfl, if_neg (by omega)]
    simp only [Nat.add_sub_cancel]
    rcases ih with e | e <;> rw [e]
    · exact .inl rfl
    · exact .inr rfl
  | other d c t h1 h2 _ ih =>
    simp only [List.cons_append]
    rw [scanBlock, if_neg h1, if_neg h2]
    rcases ih with e | e <;> rw [e]
    · exact .inl rfl
    · exact .inr rfl

theorem textLoop_tagged {s : Str} {bs : List Str} {t : Str} (h : Raw s bs t) : ∀ (k pos : Nat) (m : Bool) (a : Analysis),
    s.length ≤ k → Tagged bs → textLoop k pos m s = .ok a → a.tags ≠ [] := by
  induction h with
  | nil => intro _ _ _ _ _ ⟨b, hb, _⟩; cases hb
  | opened _ _ => intro _ _ _ _ _ ⟨b, hb, _⟩; cases hb
  | lone => intro _ _ _ _ _ ⟨b, hb, _⟩; cases hb
  | block content s bs t hb _ ih =>
    intro k pos m a hk ⟨b, hm, p, c, d, e, hp, hc⟩ h
    cases k with
    | zero => simp at hk
    | succ k =>
      change textLoop (k + 1) pos m ('{' :: (content ++ '}' :: s)) = .ok a at h
      obtain ⟨content', closed, r, tc, o, m', h1, _, h3, h4, h5⟩ := textLoop_block h
      rcases scanBlock_braces hb s with e2 | e2
      · rw [e2] at h1
        injection h1 with h1
        injection h1 with h1 h1'
        injection h1' with h1' h1''
        subst h1 h1' h1''
        obtain ⟨a', h6, _, h7, _⟩ := prependOut_ok h5
        rw [h7]
        rcases List.mem_cons.1 hm with rfl | hm
        · have hne : b ≠ [] := by rw [e]; simp
          rcases h4 with ⟨h4, _⟩ | ⟨_, _, _, h4⟩
          · rw [h3 rfl hne] at h4
            unfold parseBlock at h4
            rw [e] at h4
            have := blockLoop_tag hc p _ _ o hp (Nat.le_refl _) h4
            intro e3
            exact this (List.append_eq_nil_iff.1 e3).1
          · rcases h4 with h4 | h4
            · exact absurd h4 hne
            · cases h4
        · have := ih k _ _ a' (by simp at hk; omega) ⟨b, hm, p, c, d, e, hp, hc⟩ h6
          intro e3
          exact this (List.append_eq_nil_iff.1 e3).2
      · rw [e2] at h1; cases h1
  | brk c s bs t hc _ ih =>
    intro k pos m a hk ht h
    cases k with
    | zero => simp at hk
    | succ k =>
      rw [textLoop, if_neg (by decide), if_pos rfl] at h
      obtain ⟨a', h1, _, h2, _⟩ := prependText_ok h
      rw [h2]
      exact ih k _ _ a' (by simp at hk; omega) ht h1
  | space s bs t _ ih =>
    intro k pos m a hk ht h
    cases k with
    | zero => simp at hk
    | succ k =>
      rw [textLoop, if_neg (by decide), if_pos rfl] at h
      obtain ⟨a', h1, _, h2, _⟩ := prependText_ok h
      rw [h2]
      exact ih k _ _ a' (by simp at hk; omega) ht h1
  | other c s bs t _ _ ih =>
    intro k pos m a hk ht h
    cases k with
    | zero => simp at hk
    | succ k =>
      rw [textLoop, if_neg (by decide), if_pos rfl] at h
      obtain ⟨a', h1, _, h2, _⟩ := prependText_ok h
      rw [h2]
      exact ih k _ _ a' (by simp at hk; omega) ht h1
  | char c s bs t hc _ ih =>
    intro k pos m a hk ht h
    cases k with
    | zero => simp at hk
    | succ k =>
      rw [textLoop.eq_def] at h
      dsimp only at h
      rw [if_neg hc.1, if_neg hc.2] at h
      obtain ⟨a', h1, _, h2, _⟩ := prependText_ok h
      rw [h2]
      exact ih k _ _ a' (by simp at hk; omega) ht h1

end Verif.Segment
