import Verif.Lemmas.Query
/-! Property C96: event queries. -/
namespace Verif.Props
open Verif
open Verif.Query
open Verif.Spec
open Verif.Spec.Query
open Verif.Ast (Event)
open Verif.Parser (Section)

private theorem not_before_self (o : SortOpt) {a : Info} (ha : Fits a.event) : ¬ Before o a a := by
  have irr : ∀ c, ¬ Less c a a := by
    intro c h
    obtain ⟨x, hx, _⟩ := key_spec c ha
    have := (less_iff c ha ha hx hx).1.1 h
    unfold KLess at this
    cases x with
    | num n => simp [cmpKey, cmpNat] at this
    | txt s =>
      have h2 := ((cmpStr_spec s s).2.2).2 rfl
      simp [cmpKey, h2] at this
  rintro (h | ⟨_, c, _, h⟩ | ⟨_, _, h⟩)
  · cases o.ascending <;> simp [irr] at h
  · cases o.ascending <;> simp [irr] at h
  · omega

/-- **C96, partial.** A query has exactly the events of the script that meet its filter, each once, in the order asked for and cut
at the limit; its indices, its count and its first result follow from that.

Missing: times that do not fit in 32 bits (see `C96_overflow_violated`); times are only read as `h:m:s.c` (see `C96_time_violated`);
patterns are plain texts (see `C96_regex_violated`). -/
theorem C96_query_partial (lower : Str → Str) (sections : List Section) (q : Query) (hf : ∀ e ∈ allEvents sections, Fits e) :
    ∃ full : List Info,
      (∀ i ∈ full, (allEvents sections)[i.index]? = some i.event ∧ Meets (if q.filter.caseSensitive then id else lower) q.filter i.event) ∧
      (∀ k e, (allEvents sections)[k]? = some e → Meets (if q.filter.caseSensitive then id else lower) q.filter e →
        ∃ i ∈ full, i.index = k) ∧
      (full.map (·.index)).Nodup ∧ full.Pairwise (Ordered q) ∧
      execute lower sections q = .ok (full.take (q.limit.getD full.length)) ∧
      indices lower sections q = .ok ((full.take (q.limit.getD full.length)).map (·.index)) ∧
      count lower sections q = .ok (min (q.limit.getD full.length) full.length) ∧
      first lower sections q = .ok full.head? := by
  have hfi : ∀ i ∈ collect sections, Fits i.event := by
    intro i hi
    rw [collect, flat_events] at hi
    exact hf _ (List.mem_of_getElem? (mem_numbered _ _ i hi).2.1)
  obtain ⟨l, hl, hsub, hm⟩ := applyFilters_spec lower q.filter (collect sections) hfi
  have hsorted : l.Pairwise (fun a b => a.index < b.index) := by
    rw [collect] at hsub
    exact (numbered_sorted _ 0).sublist hsub
  have hstep : ∃ full, (∀ q' : Query, q'.sort = q.sort → sortStep q' l = .ok full) ∧ full.Pairwise (Ordered q) ∧ ∀ i, i ∈ full ↔ i ∈ l := by
    unfold Ordered
    cases h : q.sort with
    | none => exact ⟨l, fun q' e => by simp [sortStep, e], hsorted, fun _ => Iff.rfl⟩
    | some o =>
      obtain ⟨r, hr, hp, hm'⟩ := applySort_spec o l [] (fun a ha => hfi a ((hm a).1 ha).1) (by simp) hsorted (by simp) .nil
      exact ⟨r, fun q' e => by simp [sortStep, e, hr], hp, fun i => by simp [hm']⟩
  obtain ⟨full, hfull, hp, hmem⟩ := hstep
  have hin : ∀ i ∈ full, i ∈ numbered 0 (allEvents sections) ∧ Meets (if q.filter.caseSensitive then id else lower) q.filter i.event := by
    intro i hi
    have := (hm i).1 ((hmem i).1 hi)
    rwa [collect, flat_events] at this
  have hex : execute lower sections q = .ok (full.take (q.limit.getD full.length)) := by
    unfold execute
    rw [hl]
    simp only
    rw [hfull q rfl]
    cases q.limit <;> simp
  refine ⟨full, ?_, ?_, ?_, hp, hex, ?_, ?_, ?_⟩
  · intro i hi
    obtain ⟨h1, h2⟩ := hin i hi
    have := (mem_numbered _ _ i h1).2.1
    exact ⟨by simpa using this, h2⟩
  · intro k e hk he
    have := numbered_mem _ 0 k e hk
    refine ⟨⟨k, e, 1, (0, 0)⟩, ?_, rfl⟩
    rw [hmem, hm, collect, flat_events]
    exact ⟨by simpa using this, he⟩
  · have hne : full.Pairwise (fun a b => a.index ≠ b.index) := by
      refine List.Pairwise.imp_of_mem ?_ hp
      intro a b ha hb hab hi
      have m1 := mem_numbered _ _ a (hin a ha).1
      have m2 := mem_numbered _ _ b (hin b hb).1
      have hev : a.event = b.event := by
        have := m1.2.1
        rw [hi, m2.2.1] at this
        exact (Option.some.inj this).symm
      have : a = b := by
        cases a; cases b
        simp at hi hev m1 m2 ⊢
        exact ⟨hi, hev, by rw [m1.2.1, m2.2.1], by rw [m1.2.2, m2.2.2]⟩
      subst this
      unfold Ordered at hab
      cases hs : q.sort with
      | none => rw [hs] at hab; exact absurd hab (Nat.lt_irrefl _)
      | some o =>
        rw [hs] at hab
        exact not_before_self o (hfi a ((hm a).1 ((hmem a).1 ha)).1) hab
    exact List.pairwise_map.2 hne
  · unfold indices; rw [hex]
  · unfold count; rw [hex]; simp [List.length_take]
  · unfold first execute
    simp only [hl]
    rw [hfull { q with limit := some 1 } rfl]
    cases full <;> simp

/-- Three events, for the examples. -/
private def sample : List Section :=
  let e (start stop style text : String) : Event :=
    ⟨.dialogue, ['0'], start.toList, stop.toList, style.toList, [], ['0'], ['0'], ['0'], none, none, [], text.toList⟩
  [.events [(e "0:00:05.00" "0:00:06.00" "Top" "b", ⟨0, 0, 3, 0⟩), (e "0:00:01.00" "0:00:09.00" "Main" "a", ⟨0, 0, 4, 0⟩),
    (e "0:00:05.00" "0:00:07.00" "Main" "c", ⟨0, 0, 5, 0⟩)]]

example : indices id sample { filter := { style := some "Mai".toList, caseSensitive := true }, sort := some ⟨.start, none, false⟩ } = .ok [2, 1] ∧
    indices id sample { sort := some ⟨.start, some .text, false⟩ } = .ok [2, 0, 1] ∧
    indices id sample { sort := some ⟨.start, none, true⟩, limit := some 2 } = .ok [1, 0] ∧
    indices id sample { filter := { time := some (500, 700) } } = .ok [0, 2] := by decide +kernel

/-- **C96, disagreement.** Every event is said to be in line 1, at the beginning of the document. -/
theorem C96_line_violated : execute id sample { limit := some 2 } =
    .ok [⟨0, ⟨.dialogue, ['0'], "0:00:05.00".toList, "0:00:06.00".toList, "Top".toList, [], ['0'], ['0'], ['0'], none, none, [], ['b']⟩, 1, (0, 0)⟩,
      ⟨1, ⟨.dialogue, ['0'], "0:00:01.00".toList, "0:00:09.00".toList, "Main".toList, [], ['0'], ['0'], ['0'], none, none, [], ['a']⟩, 1, (0, 0)⟩] := by
  decide +kernel

/-- **C96, disagreement.** Asking for regular expressions changes nothing: they are looked for as texts. -/
theorem C96_regex_violated (lower : Str → Str) (sections : List Section) (q : Query) (b : Bool) :
    execute lower sections { q with filter := { q.filter with regex := b } } = execute lower sections q := by
  have h : ∀ l, applyFilters lower { q.filter with regex := b } l = applyFilters lower q.filter l := by
    intro l
    induction l with
    | nil => rfl
    | cons i l ih =>
      unfold applyFilters
      rw [ih]
      rfl
  unfold execute
  rw [h]
  rfl

/-- **C96, disagreement.** A time that the library itself reads, `0:00:01`, is in no time range; one it refuses, with 99 minutes, is. -/
theorem C96_time_violated : TimeText "0:00:01".toList 100 ∧ parseTime "0:00:01".toList = .err ∧
    parseTime "0:99:00.00".toList = .ok 594000 ∧ ¬ ∃ v, TimeText "0:99:00.00".toList v := by
  refine ⟨(Time.rawValue_iff).1 (by decide), by decide, by decide, ?_⟩
  rintro ⟨v, h⟩
  have := (Time.rawValue_iff).2 h
  revert this
  rw [show Time.rawValue "0:99:00.00".toList = none by decide]
  exact nofun

/-- **C96, disagreement.** One time of more than 32 bits makes every query by time panic. -/
theorem C96_overflow_violated :
    let e : Event := ⟨.dialogue, ['0'], "11931:00:00.00".toList, "11931:00:01.00".toList, [], [], ['0'], ['0'], ['0'], none, none, [], []⟩
    execute id [.events [(e, ⟨0, 0, 1, 0⟩)]] { filter := { time := some (0, 100) } } = .panic ∧
    execute id [.events [(e, ⟨0, 0, 1, 0⟩), (e, ⟨0, 0, 2, 0⟩)]] { sort := some ⟨.start, none, true⟩ } = .panic := by decide +kernel

/-- **C96, disagreement.** Changing the timing, the type or the effects of the found events always fails. -/
theorem C96_chain_violated (lower : Str → Str) (sections : List Section) (q : Query) : chain lower sections q ≠ .ok () := by
  unfold chain
  cases execute lower sections q <;> exact nofun

end Verif.Props
