import Verif.Model.Batch
import Verif.Spec.Batch
import Verif.Lemmas.Doc
import Verif.Lemmas.Bytes
/-! Lemmas for batches of commands. -/
namespace Verif.Batch
open Verif Verif.Pos Verif.Doc Verif.Spec Verif.Spec.Batch

theorem loop_ok (acc : Result) (h : acc.ok = true) (cs : List Cmd) (s : Str) (r : Result) (s' : Str) (hl : loop acc cs s = (.ok r, s'))
    (hr : r.ok = false) : r = failure := by
  induction cs generalizing acc s with
  | nil =>
    obtain ⟨e, _⟩ := Prod.mk.inj hl
    obtain rfl := Outcome.ok.inj e
    rw [h] at hr; exact nomatch hr
  | cons c cs ih =>
    unfold loop at hl
    split at hl
    · split at hl
      · exact ih _ rfl _ hl
      · exact (Outcome.ok.inj (Prod.mk.inj hl).1).symm
    · exact nomatch (Prod.mk.inj hl).1
    · exact nomatch (Prod.mk.inj hl).1

/-- Going on with more commands. -/
def next (f : Result → Cmd) : Outcome Result × Str → Outcome Result × Str
  | (.ok r, s) => if r.ok then f r s else (.ok r, s)
  | x => x

theorem loop_append (acc : Result) (h : acc.ok = true) (cs ds : List Cmd) (s : Str) :
    loop acc (cs ++ ds) s = next (fun r => loop r ds) (loop acc cs s) := by
  induction cs generalizing acc s with
  | nil => simp [loop, next, h]
  | cons c cs ih =>
    rw [List.cons_append]
    unfold loop
    cases hc : c s with
    | mk o s' =>
    cases o with
    | ok r =>
      dsimp only
      by_cases hr : r.ok = true
      · rw [if_pos hr, if_pos hr]; exact ih _ rfl _
      · rw [if_neg hr, if_neg hr]; rfl
    | err => rfl
    | panic => rfl

theorem union_assoc (a b c : Range) : (a.union b).union c = a.union (b.union c) := by
  simp only [Range.union, Range.mk.injEq]
  omega

theorem joinRange_assoc (a b c : Option Range) : joinRange (joinRange a b) c = joinRange a (joinRange b c) := by
  cases a <;> cases b <;> cases c <;> simp [joinRange, union_assoc]

theorem join_assoc (a b c : Result) : join (join a b) c = join a (join b c) := by
  simp [join, joinRange_assoc, Bool.or_assoc, Option.or_assoc]

theorem join_success (a : Result) (h : a.ok = true) : join a success = a := by
  obtain ⟨o, r, c, b⟩ := a
  dsimp only at h; subst h
  simp only [join, success, Bool.or_false, Option.none_or]
  congr
  cases r <;> rfl

theorem success_join (a : Result) (h : a.ok = true) : join success a = a := by
  obtain ⟨o, r, c, b⟩ := a
  dsimp only at h; subst h
  simp only [join, success, Bool.false_or, Option.or_none]
  congr
  cases r <;> rfl

/-- The results before a batch are joined with the batch's own. -/
theorem loop_acc (acc a : Result) (ha : a.ok = true) (cs : List Cmd) (s : Str) :
    loop (join acc a) cs s = next (fun r s => (.ok (join acc r), s)) (loop a cs s) := by
  induction cs generalizing a s with
  | nil => simp [loop, next, ha]
  | cons c cs ih =>
    unfold loop
    cases hc : c s with
    | mk o s' =>
    cases o with
    | ok r =>
      dsimp only
      by_cases hr : r.ok = true
      · rw [if_pos hr, if_pos hr, join_assoc]; exact ih _ rfl _
      · rw [if_neg hr, if_neg hr]; rfl
    | err => rfl
    | panic => rfl

theorem nested (acc : Result) (h : acc.ok = true) (ds es : List Cmd) (s : Str) :
    loop acc (batch ds :: es) s = loop acc (ds ++ es) s := by
  rw [loop_append acc h]
  have hj : loop acc ds s = loop (join acc success) ds s := by rw [join_success acc h]
  rw [hj, loop_acc acc success rfl]
  show (match batch ds s with
    | (.ok r, s') => if r.ok then loop (join acc r) es s' else (.ok failure, s')
    | (.err, s') => (.err, s')
    | (.panic, s') => (.panic, s')) = _
  cases hb : loop success ds s with
  | mk o s' =>
  rw [show batch ds s = _ from hb]
  cases o with
  | ok r =>
    dsimp only [next]
    by_cases hr : r.ok = true
    · simp [hr, join]
    · have hr' : r.ok = false := by simpa using hr
      obtain rfl := loop_ok success rfl ds s r s' hb hr'
      simp [failure]
  | err => rfl
  | panic => rfl

theorem cmdOf_splice {s s' : Str} {e : Edit} (h : Splice s e s') :
    cmdOf e s = (.ok (change ⟨(place e).1, (place e).2⟩ (place e).2), s') := by
  cases h with
  | insert a b t => simp only [cmdOf, insertCmd, insertRaw_at, report, place]; rw [new_of_le (by omega)]
  | delete a m b => simp only [cmdOf, deleteCmd, deleteRaw_at, report, place]; rw [new_of_le (by omega)]
  | replace a m b n => simp only [cmdOf, replaceCmd, replaceRaw_at, report, place]; rw [new_of_le (by omega)]

/-- Adding a text edit at the end of a batch that has succeeded. -/
theorem batch_snoc {cs : List Cmd} {s s' s'' : Str} {r : Result} {e : Edit} (hb : batch cs s = (.ok r, s')) (hr : r.ok = true)
    (h : Splice s' e s'') : batch (cs ++ [cmdOf e]) s = (.ok (join r (change ⟨(place e).1, (place e).2⟩ (place e).2)), s'') := by
  have e1 : batch (cs ++ [cmdOf e]) s = next (fun r => loop r [cmdOf e]) (batch cs s) := loop_append _ rfl _ _ _
  rw [e1, hb]
  simp only [next, hr, if_true, loop, cmdOf_splice h]
  rfl

/-- Behind the end of a stretch. -/
theorem behind {x y a m b : Str} (h : x ++ y = a ++ m ++ b) (hl : byteLen x ≤ byteLen a) : ∃ z, a = x ++ z ∧ y = z ++ m ++ b := by
  rw [List.append_assoc] at h
  rcases List.append_eq_append_iff.1 h with ⟨z, h1, h2⟩ | ⟨z, h1, h2⟩
  · exact ⟨z, h1, by rw [h2, List.append_assoc]⟩
  · have : byteLen z = 0 := by
      have := byteLen_append a z
      rw [← h1] at this
      omega
    have hz : z = [] := by
      cases z with
      | nil => rfl
      | cons c cs => have h0 := utf8Size_pos c; rw [byteLen_cons] at this; omega
    subst hz
    exact ⟨[], by simpa using h1.symm, by simpa using h2.symm⟩

/-- A splice as a splitting of both texts at its place. -/
theorem splice_place {s s' : Str} {e : Edit} (h : Splice s e s') :
    ∃ a m n b, s = a ++ m ++ b ∧ s' = a ++ n ++ b ∧ (place e).1 = byteLen a ∧ (place e).2 = byteLen a + byteLen n := by
  cases h with
  | insert a b t => exact ⟨a, [], t, b, by simp, rfl, rfl, rfl⟩
  | delete a m b => exact ⟨a, m, [], b, rfl, by simp, rfl, by simp [place]⟩
  | replace a m b n => exact ⟨a, m, n, b, rfl, rfl, rfl, rfl⟩

theorem typed_splices (a b : Str) (ts : List Str) : Splices (a ++ b) (typed (byteLen a) ts) (a ++ ts.flatten ++ b) := by
  have key : ∀ (ts : List Str) (s0 a : Str) (es : List Edit), Splices s0 es (a ++ b) →
      Splices s0 (es ++ typed (byteLen a) ts) (a ++ ts.flatten ++ b) := by
    intro ts
    induction ts with
    | nil => intro s0 a es h; simpa [typed] using h
    | cons t ts ih =>
      intro s0 a es h
      have := ih s0 (a ++ t) (es ++ [.insert (byteLen a) t]) (.snoc h (.insert a b t))
      rw [byteLen_append] at this
      simpa [typed, List.append_assoc] using this
  simpa using key ts (a ++ b) a [] (.nil _)

theorem typed_forward (a b : Str) (ts : List Str) :
    ∃ k, Forward (a ++ b) (typed (byteLen a) ts) (a ++ ts.flatten ++ b) k := by
  have key : ∀ (ts : List Str) (s0 a : Str) (es : List Edit) (k : Nat), Forward s0 es (a ++ b) k → k ≤ byteLen a →
      ∃ k', Forward s0 (es ++ typed (byteLen a) ts) (a ++ ts.flatten ++ b) k' := by
    intro ts
    induction ts with
    | nil => intro s0 a es k h _; exact ⟨k, by simpa [typed] using h⟩
    | cons t ts ih =>
      intro s0 a es k h hk
      obtain ⟨k', h'⟩ := ih s0 (a ++ t) (es ++ [.insert (byteLen a) t]) _ (Forward.snoc (e := .insert (byteLen a) t) h (.insert a b t) hk) (by simp [place, byteLen_append])
      rw [byteLen_append] at h'
      exact ⟨k', by simpa [typed, List.append_assoc] using h'⟩
  simpa using key ts (a ++ b) a [] 0 (.nil _) (Nat.zero_le _)

end Verif.Batch
