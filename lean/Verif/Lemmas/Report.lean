import Verif.Model.Report
import Verif.Spec.Report
import Verif.Lemmas.EventCmd
/-! # Lemmas about reports -/
namespace Verif.Report
open Verif Verif.Doc Verif.Pos Verif.Spec.Report

theorem bytes_eq (s : Str) : bytes s = byteLen s := rfl

/-- The loop with reports does what the loop without them does. -/
theorem editLoop_same (ag : Bool) (edit : Nat → Str → Outcome (Option Str)) (n : Nat) : ∀ (d : Doc) (pos idx : Nat) (total : Option Range),
    (editLoop ag edit n d pos idx total).map (fun r => ((match r.1 with | .ok _ => .ok () | .err => .err | .panic => .panic), r.2)) =
      EventCmd.editLoop ag edit n d pos idx := by
  induction n with
  | zero => intro d pos idx total; rfl
  | succ n ih =>
    intro d pos idx total
    rw [editLoop, EventCmd.editLoop]
    split
    · cases dropBytes d.text pos with
      | none => rfl
      | some rest =>
        dsimp only
        split
        · rfl
        · split
          · cases edit idx (rest.takeWhile (· ≠ '\n')) with
            | panic => rfl
            | err => rfl
            | ok o =>
              cases o with
              | none => exact ih _ _ _ _
              | some new =>
                dsimp only
                cases d.replace ⟨pos, pos + byteLen (rest.takeWhile (· ≠ '\n'))⟩ new with
                | mk o d' =>
                  cases o with
                  | ok u => exact ih _ _ _ _
                  | err => rfl
                  | panic => rfl
          · split
            · rfl
            · exact ih _ _ _ _
    · rfl

theorem byteLen_pos {s : Str} (h : s ≠ []) : 0 < byteLen s := by
  cases s with
  | nil => exact absurd rfl h
  | cons c s => have := utf8Size_pos c; simp; omega

theorem append_of_byteLen_le {a b c d : Str} (e : a ++ b = c ++ d) (h : byteLen a ≤ byteLen c) : ∃ x, c = a ++ x ∧ b = x ++ d := by
  rcases List.append_eq_append_iff.1 e with ⟨x, h1, h2⟩ | ⟨x, h1, h2⟩
  · exact ⟨x, h1, h2⟩
  · have hx : byteLen x = 0 := by rw [h1, byteLen_append] at h; omega
    have : x = [] := by
      cases x with
      | nil => rfl
      | cons c x => have := utf8Size_pos c; simp at hx; omega
    subst this
    exact ⟨[], by simpa using h1.symm, by simpa using h2.symm⟩

/-- What has been changed so far lies in the collected range, before the place of the loop. -/
def Sofar (orig text : Str) (pos : Nat) : Option Range → Prop
  | none => text = orig
  | some r => Covers orig text r ∧ r.fin ≤ pos

/-- One change more. -/
theorem sofar_change {orig : Str} {a line tail new : Str} {total : Option Range}
    (hs : Sofar orig (a ++ line ++ tail) (byteLen a) total) :
    ∃ r, grow total ⟨byteLen a, byteLen a + byteLen new⟩ = some r ∧ Covers orig (a ++ new ++ tail) r ∧
      r.fin = byteLen a + byteLen new := by
  cases total with
  | none => exact ⟨_, rfl, ⟨a, line, new, tail, Eq.symm hs, rfl, rfl, rfl⟩, rfl⟩
  | some t =>
    obtain ⟨⟨p, o, m, s, g1, g2, g3, g4⟩, g5⟩ := hs
    have e : (p ++ m) ++ s = a ++ (line ++ tail) := by rw [← g2, List.append_assoc]
    rw [g4, bytes_eq, bytes_eq] at g5
    obtain ⟨x, k1, k2⟩ := append_of_byteLen_le e (by rw [byteLen_append]; exact g5)
    have hl : byteLen a = byteLen p + byteLen m + byteLen x := by rw [k1]; simp only [byteLen_append]
    have hf : max t.fin (byteLen a + byteLen new) = byteLen a + byteLen new := by
      rw [g4, bytes_eq, bytes_eq]; omega
    refine ⟨_, rfl, ⟨p, o ++ x ++ line, m ++ x ++ new, tail, ?_, ?_, ?_, ?_⟩, hf⟩
    · rw [g1, k2]; simp only [List.append_assoc]
    · rw [k1]; simp only [List.append_assoc]
    · show min t.start (byteLen a) = _
      rw [g3, bytes_eq]; omega
    · show max t.fin (byteLen a + byteLen new) = _
      rw [hf]
      simp only [bytes_eq, byteLen_append]
      omega

/-- What stands at the place of the loop stood there in the beginning. -/
theorem sofar_infix {orig : Str} {a line tail : Str} {total : Option Range}
    (hs : Sofar orig (a ++ line ++ tail) (byteLen a) total) : ∃ b, orig = b ++ line ++ tail := by
  cases total with
  | none => exact ⟨a, Eq.symm hs⟩
  | some t =>
    obtain ⟨⟨p, o, m, s, g1, g2, g3, g4⟩, g5⟩ := hs
    have e : (p ++ m) ++ s = a ++ (line ++ tail) := by rw [← g2, List.append_assoc]
    rw [g4, bytes_eq, bytes_eq] at g5
    obtain ⟨x, k1, k2⟩ := append_of_byteLen_le e (by rw [byteLen_append]; exact g5)
    exact ⟨p ++ o ++ x, by rw [g1, k2]; simp only [List.append_assoc]⟩

theorem right_end {orig : Str} {d : Doc} {pos : Nat} {total : Option Range} (hs : Sofar orig d.text pos total) :
    Right orig d.text (atEnd total d) := by
  cases total with
  | none => exact hs
  | some t => exact ⟨hs.1, rfl⟩

/-- A change the loop copes with: it lengthens the line by at most one byte, or the new line has no line feed and no
second mark. -/
def Tame (l new : Str) : Prop :=
  byteLen new ≤ byteLen l + 1 ∨ ('\n' ∉ new ∧ ∀ x y, new = x ++ y → x ≠ [] → EventCmd.isEventLine y = false)

theorem drop_inside {s : Str} {n : Nat} {u : Str} (h : dropBytes s n = some u) {a b : Str} (hs : s = a ++ b)
    (hn : n ≤ byteLen a) : ∃ x y, a = x ++ y ∧ u = y ++ b ∧ byteLen x = n := by
  obtain ⟨x, h1, h2⟩ := dropBytes_iff.1 h
  obtain ⟨y, k1, k2⟩ := append_of_byteLen_le (h1.symm.trans hs) (by omega)
  exact ⟨x, y, k1, k2, h2⟩

theorem editLoop_good {ag : Bool} {edit : Nat → Str → Outcome (Option Str)} {orig : Str}
    (he : ∀ i l new b t, orig = b ++ l ++ t → '\n' ∉ l → EventCmd.isEventLine l = true → edit i l = .ok (some new) → Tame l new) (k : Nat) :
    ∀ (d : Doc) (pos idx : Nat) (total : Option Range), byteLen d.text - pos ≤ k → Sofar orig d.text pos total →
    ∃ n o d', editLoop ag edit n d pos idx total = some (o, d') ∧ ∀ rep, o = .ok rep → Right orig d'.text rep := by
  induction k with
  | zero =>
    intro d pos idx total hk hs
    refine ⟨1, .ok (atEnd total d), d, ?_, ?_⟩
    · rw [editLoop, if_neg (by omega)]
    · intro rep h; injection h with h; subst h; exact right_end hs
  | succ k ih =>
    intro d pos idx total hk hs
    have mono : ∀ p, pos ≤ p → Sofar orig d.text p total := by
      intro p hp
      cases total with
      | none => exact hs
      | some t => exact ⟨hs.1, Nat.le_trans hs.2 hp⟩
    by_cases hp : pos < byteLen d.text
    · cases hdr : dropBytes d.text pos with
      | none =>
        refine ⟨1, .panic, d, ?_, fun rep h => by cases h⟩
        rw [editLoop, if_pos hp, hdr]
      | some rest =>
        obtain ⟨a, hta, hal⟩ := dropBytes_iff.1 hdr
        have hrest : rest = rest.takeWhile (· ≠ '\n') ++ rest.dropWhile (· ≠ '\n') := (List.takeWhile_append_dropWhile).symm
        have htext : d.text = a ++ rest.takeWhile (· ≠ '\n') ++ rest.dropWhile (· ≠ '\n') := by
          rw [List.append_assoc, ← hrest]; exact hta
        by_cases hl : rest.takeWhile (· ≠ '\n') = []
        · refine ⟨1, .ok (atEnd total d), d, ?_, ?_⟩
          · rw [editLoop, if_pos hp, hdr]; dsimp only; rw [if_pos hl]
          · intro rep h; injection h with h; subst h; exact right_end hs
        · by_cases hev : EventCmd.isEventLine (rest.takeWhile (· ≠ '\n')) = true
          · cases hed : edit idx (rest.takeWhile (· ≠ '\n')) with
            | panic =>
              refine ⟨1, .panic, d, ?_, fun rep h => by cases h⟩
              rw [editLoop, if_pos hp, hdr]; dsimp only; rw [if_neg hl, if_pos hev, hed]
            | err =>
              refine ⟨1, .err, d, ?_, fun rep h => by cases h⟩
              rw [editLoop, if_pos hp, hdr]; dsimp only; rw [if_neg hl, if_pos hev, hed]
            | ok o =>
              cases o with
              | none =>
                obtain ⟨n, o, d', h, h'⟩ := ih d (pos + byteLen (rest.takeWhile (· ≠ '\n')) + 1) (idx + 1) total (by omega) (mono _ (by omega))
                refine ⟨n + 1, o, d', ?_, h'⟩
                rw [editLoop, if_pos hp, hdr]; dsimp only; rw [if_neg hl, if_pos hev, hed]
                exact h
              | some new =>
                obtain ⟨d1, h1, h2⟩ := EventCmd.replace_at d htext new
                rw [hal] at h1
                have hs' : Sofar orig (a ++ rest.takeWhile (· ≠ '\n') ++ rest.dropWhile (· ≠ '\n')) (byteLen a) total := by
                  rw [← htext, hal]; exact hs
                obtain ⟨b, hb⟩ := sofar_infix hs'
                obtain ⟨r, g1, g2, g3⟩ := sofar_change (new := new) hs'
                have hno : '\n' ∉ rest.takeWhile (· ≠ '\n') := by
                  intro h
                  have := List.all_takeWhile (l := rest) (p := (· ≠ '\n'))
                  rw [List.all_eq_true] at this
                  simpa using this _ h
                have step : ∀ n, editLoop ag edit (n + 1) d pos idx total =
                    editLoop ag edit n d1 (pos + byteLen (rest.takeWhile (· ≠ '\n')) + 1) (idx + 1) (some r) := by
                  intro n
                  rw [editLoop, if_pos hp, hdr]; dsimp only; rw [if_neg hl, if_pos hev, hed]
                  dsimp only
                  rw [h1]
                  dsimp only
                  rw [← g1, hal]
                have hlen : byteLen d.text = byteLen a + byteLen (rest.takeWhile (· ≠ '\n')) + byteLen (rest.dropWhile (· ≠ '\n')) := by
                  rw [htext]; simp only [byteLen_append]
                have hlen1 : byteLen d1.text = byteLen a + byteLen new + byteLen (rest.dropWhile (· ≠ '\n')) := by
                  rw [h2]; simp only [byteLen_append]
                have htail : rest.dropWhile (· ≠ '\n') = [] ∨ (rest.dropWhile (· ≠ '\n')).head? = some '\n' := by
                  cases hq : rest.dropWhile (· ≠ '\n') with
                  | nil => exact Or.inl rfl
                  | cons c q =>
                    right
                    have := List.head?_dropWhile_not (p := (· ≠ '\n')) (l := rest)
                    rw [hq] at this
                    simpa using this
                have htame := he _ _ _ _ _ hb hno hev hed
                have hlpos : 0 < byteLen (rest.takeWhile (· ≠ '\n')) := byteLen_pos hl
                generalize rest.takeWhile (· ≠ '\n') = line at *
                generalize rest.dropWhile (· ≠ '\n') = tail at *
                by_cases hsm : byteLen new ≤ byteLen line + 1
                · obtain ⟨n, o, d', h, h'⟩ := ih d1 (pos + byteLen line + 1) (idx + 1) (some r) (by omega)
                    (by rw [h2]; exact ⟨g2, by omega⟩)
                  exact ⟨n + 1, o, d', (step n).trans h, h'⟩
                · rcases htame with htame | ⟨hnn, hmark⟩
                  · exact absurd htame hsm
                  · have hp1 : pos + byteLen line + 1 < byteLen d1.text := by omega
                    cases hdr1 : dropBytes d1.text (pos + byteLen line + 1) with
                    | none =>
                      refine ⟨2, .panic, d1, ?_, fun rep h => by cases h⟩
                      rw [step, editLoop, if_pos hp1, hdr1]
                    | some rest1 =>
                      obtain ⟨x, y, k1, k2, k3⟩ := drop_inside hdr1 h2 (by rw [byteLen_append]; omega)
                      obtain ⟨z, k4, k5⟩ := append_of_byteLen_le k1 (by omega)
                      have hz : z ≠ [] := by
                        intro hz
                        subst hz
                        have : byteLen x = byteLen a := by rw [k4]; simp
                        omega
                      have hy : y ≠ [] := by
                        intro hy
                        subst hy
                        have : byteLen x = byteLen a + byteLen new := by rw [← byteLen_append, k1]; simp
                        omega
                      have hny : '\n' ∉ y := fun h => hnn (by rw [k5]; exact List.mem_append_right _ h)
                      have hxy : byteLen x + byteLen y = byteLen a + byteLen new := by
                        rw [← byteLen_append, ← byteLen_append, k1]
                      have hline : rest1.takeWhile (· ≠ '\n') = y := by
                        rw [k2]; exact EventCmd.takeWhile_row hny htail
                      have hnev := hmark z y k5 hz
                      by_cases hbr : EventCmd.closes ag y = true
                      · refine ⟨2, .ok (atEnd (some r) d1), d1, ?_, ?_⟩
                        · rw [step, editLoop, if_pos hp1, hdr1]; dsimp only
                          rw [hline, if_neg hy, if_neg (by rw [hnev]; decide), if_pos hbr]
                        · intro rep h; injection h with h; subst h; rw [h2]; exact ⟨g2, by rw [← h2]; rfl⟩
                      · obtain ⟨n, o, d', h, h'⟩ := ih d1 (pos + byteLen line + 1 + byteLen y + 1) (idx + 1) (some r) (by omega)
                          (by rw [h2]; exact ⟨g2, by omega⟩)
                        refine ⟨n + 2, o, d', ?_, h'⟩
                        rw [step, editLoop, if_pos hp1, hdr1]; dsimp only
                        rw [hline, if_neg hy, if_neg (by rw [hnev]; decide), if_neg hbr]
                        exact h
          · by_cases hb : EventCmd.closes ag (rest.takeWhile (· ≠ '\n')) = true
            · refine ⟨1, .ok (atEnd total d), d, ?_, ?_⟩
              · rw [editLoop, if_pos hp, hdr]; dsimp only; rw [if_neg hl, if_neg hev, if_pos hb]
              · intro rep h; injection h with h; subst h; exact right_end hs
            · obtain ⟨n, o, d', h, h'⟩ := ih d (pos + byteLen (rest.takeWhile (· ≠ '\n')) + 1) idx total (by omega) (mono _ (by omega))
              refine ⟨n + 1, o, d', ?_, h'⟩
              rw [editLoop, if_pos hp, hdr]; dsimp only; rw [if_neg hl, if_neg hev, if_neg hb]
              exact h
    · refine ⟨1, .ok (atEnd total d), d, ?_, ?_⟩
      · rw [editLoop, if_neg hp]
      · intro rep h; injection h with h; subst h; exact right_end hs

/-- One step of the loop. -/
theorem step_ends {ag : Bool} {edit : Nat → Str → Outcome (Option Str)} (d : Doc) (pos idx : Nat)
    (hkeep : ∀ p i, pos < p → idx ≤ i → ∃ n r, EventCmd.editLoop ag edit n d p i = some r)
    (hedit : ∀ a line tail new d1, byteLen a = pos → d.text = a ++ line ++ tail → d1.text = a ++ new ++ tail →
      EventCmd.isEventLine line = true → edit idx line = .ok (some new) →
      ∃ n r, EventCmd.editLoop ag edit n d1 (pos + byteLen line + 1) (idx + 1) = some r) :
    ∃ n r, EventCmd.editLoop ag edit n d pos idx = some r := by
  by_cases hp : pos < byteLen d.text
  · cases hdr : dropBytes d.text pos with
    | none => exact ⟨1, _, by rw [EventCmd.editLoop, if_pos hp, hdr]⟩
    | some rest =>
      by_cases hl : rest.takeWhile (· ≠ '\n') = []
      · exact ⟨1, _, by rw [EventCmd.editLoop, if_pos hp, hdr]; dsimp only; rw [if_pos hl]⟩
      · by_cases hev : EventCmd.isEventLine (rest.takeWhile (· ≠ '\n')) = true
        · cases hed : edit idx (rest.takeWhile (· ≠ '\n')) with
          | panic =>
            refine ⟨1, (.panic, d), ?_⟩
            rw [EventCmd.editLoop, if_pos hp, hdr]; dsimp only; rw [if_neg hl, if_pos hev, hed]
          | err =>
            refine ⟨1, (.err, d), ?_⟩
            rw [EventCmd.editLoop, if_pos hp, hdr]; dsimp only; rw [if_neg hl, if_pos hev, hed]
          | ok o =>
            cases o with
            | none =>
              obtain ⟨n, r, h⟩ := hkeep (pos + byteLen (rest.takeWhile (· ≠ '\n')) + 1) (idx + 1) (by omega) (by omega)
              refine ⟨n + 1, r, ?_⟩
              rw [EventCmd.editLoop, if_pos hp, hdr]; dsimp only; rw [if_neg hl, if_pos hev, hed]
              exact h
            | some new =>
              obtain ⟨a, hta, hal⟩ := dropBytes_iff.1 hdr
              have hrest : rest = rest.takeWhile (· ≠ '\n') ++ rest.dropWhile (· ≠ '\n') := (List.takeWhile_append_dropWhile).symm
              have htext : d.text = a ++ rest.takeWhile (· ≠ '\n') ++ rest.dropWhile (· ≠ '\n') := by
                rw [List.append_assoc, ← hrest]; exact hta
              obtain ⟨d1, h1, h2⟩ := EventCmd.replace_at d htext new
              rw [hal] at h1
              obtain ⟨n, r, h⟩ := hedit a _ _ new d1 hal htext h2 hev hed
              refine ⟨n + 1, r, ?_⟩
              rw [EventCmd.editLoop, if_pos hp, hdr]; dsimp only; rw [if_neg hl, if_pos hev, hed]
              dsimp only
              rw [h1]
              exact h
        · by_cases hb : EventCmd.closes ag (rest.takeWhile (· ≠ '\n')) = true
          · refine ⟨1, (.ok (), d), ?_⟩
            rw [EventCmd.editLoop, if_pos hp, hdr]; dsimp only; rw [if_neg hl, if_neg hev, if_pos hb]
          · obtain ⟨n, r, h⟩ := hkeep (pos + byteLen (rest.takeWhile (· ≠ '\n')) + 1) idx (by omega) (by omega)
            refine ⟨n + 1, r, ?_⟩
            rw [EventCmd.editLoop, if_pos hp, hdr]; dsimp only; rw [if_neg hl, if_neg hev, if_neg hb]
            exact h
  · refine ⟨1, (.ok (), d), ?_⟩
    rw [EventCmd.editLoop, if_neg hp]

/-- The loop ends when from some index on no edit makes a line more than twice as long. -/
theorem editLoop_ends {ag : Bool} {edit : Nat → Str → Outcome (Option Str)} {K : Nat}
    (he : ∀ i l new, K ≤ i → EventCmd.isEventLine l = true → edit i l = .ok (some new) → byteLen new ≤ 2 * byteLen l) (j : Nat) :
    ∀ (k : Nat) (d : Doc) (pos idx : Nat), K ≤ idx + j → byteLen d.text - pos ≤ k → ∃ n r, EventCmd.editLoop ag edit n d pos idx = some r := by
  induction j with
  | zero =>
    intro k
    induction k with
    | zero =>
      intro d pos idx _ hk
      refine ⟨1, (.ok (), d), ?_⟩
      rw [EventCmd.editLoop, if_neg (by omega)]
    | succ k ih =>
      intro d pos idx hj hk
      refine step_ends d pos idx ?_ ?_
      · intro p i hp hi
        exact ih d p i (by omega) (by omega)
      · intro a line tail new d1 hal htext h2 hev hed
        refine ih d1 _ _ (by omega) ?_
        have := he _ _ _ (by omega) hev hed
        rw [htext] at hk
        rw [h2]
        simp only [byteLen_append] at hk ⊢
        omega
  | succ j ihj =>
    intro k
    induction k with
    | zero =>
      intro d pos idx _ hk
      refine ⟨1, (.ok (), d), ?_⟩
      rw [EventCmd.editLoop, if_neg (by omega)]
    | succ k ih =>
      intro d pos idx hj hk
      refine step_ends d pos idx ?_ ?_
      · intro p i hp hi
        exact ih d p i (by omega) (by omega)
      · intro a line tail new d1 hal htext h2 hev hed
        exact ihj _ d1 _ _ (by omega) (Nat.le_refl _)

end Verif.Report
