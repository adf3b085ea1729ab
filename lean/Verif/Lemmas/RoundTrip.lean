import Verif.Spec.RoundTrip
import Verif.Lemmas.Media
import Verif.Props.Lines
/-! # Writing a whole script and reading it back -/
namespace Verif.Parser
open Verif
open Verif.Ast
open Verif.Spec.EventCmd (White Trimmed csv Plain)
open Verif.Spec.InfoCmd (Stripped)
open Verif.Spec.Lines
open Verif.Spec.Script
open Verif.Spec.RoundTrip
open Verif.Media (split_first data_no_end data_all unlines_snoc_append)

/-! ## Lines that say something -/

/-- A line that begins with a visible sign other than `;`, `#`, `[`. -/
def Loud (l : Str) : Prop := ∃ c r, l = c :: r ∧ ¬ White c ∧ c ≠ ';' ∧ c ≠ '#' ∧ c ≠ '['

theorem Loud.not_silent {l : Str} (h : Loud l) : ¬ Silent l := by
  obtain ⟨c, r, rfl, hw, h1, h2, -⟩ := h
  rintro (h | ⟨w, d, x, e, hs, hd⟩)
  · exact hw (h c (by simp))
  · cases w with
    | nil =>
      obtain ⟨rfl, -⟩ := List.cons.inj e
      rcases hd with h | h
      · exact h1 h
      · exact h2 h
    | cons a w =>
      obtain ⟨rfl, -⟩ := List.cons.inj e
      rcases hs c (by simp) with h | h | h <;>
        exact hw ((SrtDoc.white_iff c).1 (by rw [h]; decide))

theorem Loud.not_opens {l : Str} (h : Loud l) : ¬ Opens l := by
  obtain ⟨c, r, rfl, hw, -, -, h3⟩ := h
  rintro ⟨w, x, e, hs⟩
  cases w with
  | nil => exact h3 (List.cons.inj e).1
  | cons a w =>
    obtain ⟨rfl, -⟩ := List.cons.inj e
    exact hw (hs c (by simp))

theorem nil_silent : Silent [] := Or.inl (by simp)

theorem nil_not_opens : ¬ Opens [] := by
  rintro ⟨w, r, e, -⟩
  simp at e

/-- What a line says of it when its beginning is known. -/
theorem says_prefix {p r x : Str} (h : Says (p ++ r) x) (hp : Loud p) (hl : ∀ c, p.getLast? = some c → ¬ White c) :
    ∃ d b, x = p ++ d ∧ r = d ++ b ∧ ∀ c ∈ b, White c := by
  obtain ⟨-, ⟨-, hx⟩, a, b, e, ha, hb⟩ := h
  obtain ⟨c, p', rfl, hc, -⟩ := hp
  cases a with
  | cons d a =>
    obtain ⟨rfl, -⟩ := List.cons.inj e
    exact absurd (ha c (by simp)) hc
  | nil =>
    rw [List.nil_append] at e
    rcases List.append_eq_append_iff.1 e with ⟨d, e1, e2⟩ | ⟨d, e1, e2⟩
    · exact ⟨d, b, e1, e2, hb⟩
    · cases d with
      | nil => exact ⟨[], r, by simpa using e1.symm, rfl, by rw [List.nil_append] at e2; rw [← e2]; exact hb⟩
      | cons y d =>
        exfalso
        have : (c :: p').getLast? = some ((y :: d).getLast (by simp)) := by
          rw [e1, List.getLast?_append, List.getLast?_eq_some_getLast (by simp)]; rfl
        exact hl _ this (hb _ (by rw [e2]; exact List.mem_append_left _ (List.getLast_mem _)))

theorem trim_of_prefix {r d b : Str} (e : r = d ++ b) (hb : ∀ c ∈ b, White c) : trim d = trim r := by
  rw [e, Handlers.trim_right hb]

/-! ## Script info -/

theorem field_loud {f : Str × Str} (h : FieldOk f) : Loud (f.1 ++ ": ".toList ++ f.2) := by
  cases e : f.1 with
  | nil => exact ⟨':', ' ' :: f.2, rfl, (fun hw => absurd ((SrtDoc.white_iff _).2 hw) (by decide)), by decide, by decide, by decide⟩
  | cons c k =>
    have h1 := h.head
    have h2 := h.trimmed.1.1
    rw [e] at h1 h2
    refine ⟨c, k ++ ": ".toList ++ f.2, rfl, h2 c rfl, ?_, ?_, ?_⟩
    · rintro rfl; exact h1.1 rfl
    · rintro rfl; exact h1.2.1 rfl
    · rintro rfl; exact h1.2.2 rfl

theorem first_colon : ∀ {k k' v v' : Str}, k ++ ':' :: v = k' ++ ':' :: v' → ':' ∉ k → ':' ∉ k' → k = k' ∧ v = v'
  | [], [], v, v', e, _, _ => ⟨rfl, (List.cons.inj e).2⟩
  | [], c :: k', v, v', e, _, h => by
    obtain ⟨rfl, -⟩ := List.cons.inj e
    exact absurd (by simp) h
  | c :: k, [], v, v', e, h, _ => by
    obtain ⟨rfl, -⟩ := List.cons.inj e
    exact absurd (by simp) h
  | c :: k, d :: k', v, v', e, h1, h2 => by
    obtain ⟨rfl, e'⟩ := List.cons.inj e
    obtain ⟨rfl, rfl⟩ := first_colon e' (fun h => h1 (by simp [h])) (fun h => h2 (by simp [h]))
    exact ⟨rfl, rfl⟩

theorem says_nil {x : Str} (h : Says [] x) : False := h.1 nil_silent

theorem info_back : ∀ {fields fs : List (Str × Str)}, (∀ f ∈ fields, FieldOk f) →
    InfoOf (fields.map (fun f => f.1 ++ ": ".toList ++ f.2) ++ [[]]) fs → fs = fields
  | [], fs, _, h => by
    cases h with
    | silent _ h => cases h; rfl
    | field h => exact (says_nil h).elim
    | other h => exact (says_nil h).elim
  | f :: fields, fs, hf, h => by
    have h0 := hf f (by simp)
    have hl := field_loud h0
    have ih : ∀ {fs}, InfoOf (fields.map (fun f => f.1 ++ ": ".toList ++ f.2) ++ [[]]) fs → fs = fields :=
      fun h => info_back (fun g hg => hf g (by simp [hg])) h
    have e : f.1 ++ ": ".toList ++ f.2 = (f.1 ++ [':']) ++ (' ' :: f.2) := by simp
    have hcolon : Loud (f.1 ++ [':']) := by
      obtain ⟨c, r, e1, h1, h2, h3, h4⟩ := hl
      cases e2 : f.1 with
      | nil => exact ⟨':', [], rfl, (fun hw => absurd ((SrtDoc.white_iff _).2 hw) (by decide)), by decide, by decide, by decide⟩
      | cons d k =>
        rw [e2] at e1
        obtain ⟨rfl, -⟩ := List.cons.inj e1
        exact ⟨d, k ++ [':'], rfl, h1, h2, h3, h4⟩
    have hlast : ∀ c, (f.1 ++ [':']).getLast? = some c → ¬ White c := by
      intro c hc
      rw [List.getLast?_concat] at hc
      cases hc
      exact fun hw => absurd ((SrtDoc.white_iff _).2 hw) (by decide)
    rw [List.map_cons, List.cons_append] at h
    cases h with
    | silent hs _ => exact absurd hs hl.not_silent
    | @field _ _ fs k v k' v' hs hk sk sv hr =>
      rw [e] at hs
      obtain ⟨d, b, e1, e2, hb⟩ := says_prefix hs hcolon hlast
      rw [List.append_assoc, List.singleton_append] at e1
      obtain ⟨rfl, rfl⟩ := first_colon e1 hk h0.colon
      rw [ih hr, ← Handlers.stripped_eq sk, ← Handlers.stripped_eq sv, EventCmd.trimmed_trim h0.trimmed.1, trim_of_prefix e2 hb]
      have : trim ([' '] ++ f.2) = trim f.2 :=
        Handlers.trim_left (fun c hc => by rw [List.mem_singleton.1 hc]; unfold White; decide)
      rw [List.singleton_append] at this
      rw [this, EventCmd.trimmed_trim h0.trimmed.2]
    | other hs hk _ =>
      rw [e] at hs
      obtain ⟨d, b, e1, e2, hb⟩ := says_prefix hs hcolon hlast
      exact absurd (by rw [e1]; simp) hk

/-! ## Format lines -/

theorem names_fields {d : Str} {names : List Str} (h : Names d names) : names = formatFields d := by
  obtain ⟨parts, hne, rfl, hc, hl, hz⟩ := h
  unfold formatFields
  rw [StyleCmd.splitOn_csv hne hc]
  clear hne hc
  induction parts generalizing names with
  | nil => cases names with
    | nil => rfl
    | cons a n => simp at hl
  | cons p parts ih =>
    cases names with
    | nil => simp at hl
    | cons a n =>
      rw [List.map_cons, Handlers.stripped_eq (hz (p, a) (by simp)), ← ih (by simpa using hl) (fun q hq => hz q (by simp [hq]))]

theorem trim_space {s : Str} : trim (' ' :: s) = trim s := by
  have : trim ([' '] ++ s) = trim s :=
    Handlers.trim_left (fun c hc => by rw [List.mem_singleton.1 hc]; unfold White; decide)
  exact this

theorem joinStr_comma : ∀ {f : List Str}, f ≠ [] → ' ' :: joinStr ", ".toList f = csv (f.map (fun n => ' ' :: n))
  | [], h => absurd rfl h
  | [n], _ => rfl
  | n :: m :: f, _ => by
    have e : joinStr ", ".toList (n :: m :: f) = n ++ ',' :: (' ' :: joinStr ", ".toList (m :: f)) := by
      rw [joinStr]; simp; simp
    rw [e, joinStr_comma (by simp)]
    show _ = csv ((' ' :: n) :: (' ' :: m) :: f.map (fun n => ' ' :: n))
    rw [csv]
    rfl

theorem formatFields_join {f : List Str} (h : NamesOk f) : formatFields (' ' :: joinStr ", ".toList f) = f := by
  obtain ⟨hne, h⟩ := h
  unfold formatFields
  rw [joinStr_comma hne, StyleCmd.splitOn_csv (by simpa using hne)]
  · rw [List.map_map]
    have : ∀ n ∈ f, (trim ∘ fun n => ' ' :: n) n = n := by
      intro n hn
      rw [Function.comp_apply, trim_space, EventCmd.trimmed_trim (h n hn).2.2]
    rw [List.map_congr_left this, List.map_id']
  · intro x hx
    obtain ⟨n, hn, rfl⟩ := List.mem_map.1 hx
    simpa using (h n hn).1

theorem format_loud : Loud "Format:".toList :=
  ⟨'F', "ormat:".toList, rfl, (fun hw => absurd ((SrtDoc.white_iff _).2 hw) (by decide)), by decide, by decide, by decide⟩

theorem colon_last {p : Str} (hp : p.getLast? = some ':') : ∀ c, p.getLast? = some c → ¬ White c := by
  intro c hc
  rw [hp] at hc
  cases hc
  exact fun hw => absurd ((SrtDoc.white_iff _).2 hw) (by decide)

theorem format_back {f : List Str} {d : Str} {names : List Str} (hf : NamesOk f)
    (h : Says ("Format:".toList ++ (' ' :: joinStr ", ".toList f)) ("Format:".toList ++ d)) (hn : Names d names) : names = f := by
  obtain ⟨d', b, e1, e2, hb⟩ := says_prefix h format_loud (colon_last (by decide))
  have e1 := List.append_cancel_left e1
  subst e1
  rw [names_fields hn]
  have e3 : formatFields d = formatFields (' ' :: joinStr ", ".toList f) := by
    unfold formatFields
    rw [← Handlers.splitOn_trim d, trim_of_prefix e2 hb, Handlers.splitOn_trim]
  rw [e3, formatFields_join hf]

/-! ## Events -/

theorem event_kept {f : List Str} {e e' : Event} (h : EventFits f e) (hk : KeptEvent f e e') : e' = e := by
  obtain ⟨k, hf, ho, ht, ht'⟩ := hk
  have a : ∀ x ∈ eventFields, x.2 e' = x.2 e := by
    intro x hx
    by_cases hh : Has f x.1
    · exact (hf x hx).1 hh
    · rw [(hf x hx).2 hh, h.fields x hx hh]
  have o : ∀ x ∈ eventOptions, x.2 e' = x.2 e := by
    intro x hx
    by_cases hh : Has f x.1
    · rw [(ho x hx).1 hh]
      have := (h.options x hx).2 hh
      cases e1 : x.2 e with
      | none => rw [e1] at this; cases this
      | some v => rfl
    · rw [(ho x hx).2 hh]
      cases e1 : x.2 e with
      | none => rfl
      | some v => exact absurd ((h.options x hx).1 (by rw [e1]; rfl)) hh
  have t : e'.text = e.text := by
    by_cases hh : Has f "Text".toList
    · rw [← Handlers.stripped_eq (ht hh), EventCmd.trimmed_trim h.trimmed]
    · rw [ht' hh, h.text hh]
  simp only [eventFields, eventOptions, List.forall_mem_cons] at a o
  obtain ⟨a1, a2, a3, a4, a5, a6, a7, a8, a9, -⟩ := a
  obtain ⟨b1, b2, -⟩ := o
  cases e; cases e'
  simp only at *
  subst_vars
  rfl

theorem event_reads {f : List Str} {e : Event} (hf : EventFormatOk f) (h : EventFits f e) :
    parseEvent (e.toAssWith f) f = some e := by
  rcases hf.text with ⟨pre, rfl, ht⟩ | ⟨ht, hl⟩
  · obtain ⟨e', h1, h2⟩ := C10_text_last_partial hf.spelled ht h.plain
    rw [h1, event_kept h h2]
  · obtain ⟨e', h1, h2⟩ := C10_no_text_partial hf.spelled ht hf.names.1 hl h.plain
    rw [h1, event_kept h h2]

theorem kind_loud (k : Kind) : Loud (k.str ++ [':']) := by
  cases k <;> exact ⟨_, _, rfl, (fun hw => absurd ((SrtDoc.white_iff _).2 hw) (by decide)), by decide, by decide, by decide⟩

theorem kind_not_format (k : Kind) (d r : Str) : k.str ++ [':'] ++ r ≠ "Format:".toList ++ d := by
  cases k <;> (intro h; exact absurd (List.cons.inj h).1 (by decide))

theorem parseEvent_ext {k : Kind} {d r : Str} (h : trim d = trim r) (f : List Str) :
    parseEvent (k.str ++ ':' :: d) f = parseEvent (k.str ++ ':' :: r) f := by
  unfold parseEvent
  rw [eventKind_write, eventKind_write]
  simp only [h]

theorem events_back {f : Option (List Str)} {fmt : List Str} (hfmt : EventFormatOk fmt)
    (hf : ∀ x, parseEvent x (f.getD []) = parseEvent x fmt) :
    ∀ {es : List Event} {o : Nat} {l : List (Event × Nat × Nat)} {f' : Option (List Str)}, (∀ e ∈ es, EventFits fmt e) →
    EventsOf f o (es.map (fun e => e.toAssWith fmt) ++ [[]]) l f' → l.map Prod.fst = es ∧ f' = f
  | [], o, l, f', _, h => by
    cases h with
    | silent _ h => cases h; exact ⟨rfl, rfl⟩
    | format h => exact (says_nil h).elim
    | event h => exact (says_nil h).elim
    | other h => exact (says_nil h).elim
  | e :: es, o, l, f', he, h => by
    have h0 := he e (by simp)
    have ih : ∀ {o l f'}, EventsOf f o (es.map (fun e => e.toAssWith fmt) ++ [[]]) l f' → l.map Prod.fst = es ∧ f' = f :=
      fun h => events_back hfmt hf (fun g hg => he g (by simp [hg])) h
    obtain ⟨r, hr⟩ : ∃ r, e.toAssWith fmt = (e.kind.str ++ [':']) ++ r :=
      ⟨' ' :: joinStr [','] (fmt.map e.value), by unfold Event.toAssWith; simp⟩
    have hloud : Loud (e.toAssWith fmt) := by
      rw [hr]
      obtain ⟨c, x, e1, h1⟩ := kind_loud e.kind
      exact ⟨c, x ++ r, by rw [e1]; rfl, h1⟩
    have hlast : (e.kind.str ++ [':']).getLast? = some ':' := by rw [List.getLast?_concat]
    have hread := event_reads hfmt h0
    have says : ∀ {x}, Says (e.toAssWith fmt) x → parseEvent x (f.getD []) = some e ∧ ∀ d, x ≠ "Format:".toList ++ d := by
      intro x hs
      rw [hr] at hs hread
      obtain ⟨d, b, rfl, e2, hb⟩ := says_prefix hs (kind_loud e.kind) (colon_last hlast)
      refine ⟨?_, fun d => kind_not_format _ _ _⟩
      rw [hf, ← hread, List.append_assoc, List.append_assoc]
      exact parseEvent_ext (trim_of_prefix e2 hb) fmt
    rw [List.map_cons, List.cons_append] at h
    cases h with
    | silent hs _ => exact absurd hs hloud.not_silent
    | format hs _ _ => exact absurd rfl ((says hs).2 _)
    | event hs hp _ hrest =>
      obtain ⟨i1, i2⟩ := ih hrest
      rw [(says hs).1] at hp
      exact ⟨by rw [List.map_cons, i1, ← Option.some.inj hp], i2⟩
    | other hs _ hp _ =>
      rw [(says hs).1] at hp
      cases hp

theorem events_format {f0 : Option (List Str)} {f : List Str} {o : Nat} {L : List Str} {l : List (Event × Nat × Nat)}
    {f' : Option (List Str)} (hf : NamesOk f)
    (h : EventsOf f0 o (("Format:".toList ++ (' ' :: joinStr ", ".toList f)) :: L) l f') :
    ∃ o', EventsOf (some f) o' L l f' := by
  cases h with
  | silent hs _ =>
    exact absurd hs (Loud.not_silent ⟨'F', _, rfl, (fun hw => absurd ((SrtDoc.white_iff _).2 hw) (by decide)), by decide, by decide, by decide⟩)
  | format hs hn hr => rw [format_back hf hs hn] at hr; exact ⟨_, hr⟩
  | event hs hp _ _ =>
    obtain ⟨d, b, rfl, -, -⟩ := says_prefix hs format_loud (colon_last (by decide))
    exact absurd hp (by intro h; cases h)
  | other hs hn _ _ =>
    obtain ⟨d, b, e1, -, -⟩ := says_prefix hs format_loud (colon_last (by decide))
    exact absurd e1 (hn d)

/-! ## Styles -/

theorem style_kept {f : List Str} {e e' : Style} (h : StyleFits f e) (hk : KeptStyle f e e') : e' = e := by
  obtain ⟨k, hf, ho⟩ := hk
  have a : ∀ x ∈ styleFields, x.2 e' = x.2 e := by
    intro x hx
    by_cases hh : Has f x.1
    · exact (hf x hx).1 hh
    · rw [(hf x hx).2 hh, h.fields x hx hh]
  have o : ∀ x ∈ styleOptions, x.2 e' = x.2 e := by
    intro x hx
    by_cases hh : Has f x.1
    · rw [(ho x hx).1 hh]
      have := (h.options x hx).2 hh
      cases e1 : x.2 e with
      | none => rw [e1] at this; cases this
      | some v => rfl
    · rw [(ho x hx).2 hh]
      cases e1 : x.2 e with
      | none => rfl
      | some v => exact absurd ((h.options x hx).1 (by rw [e1]; rfl)) hh
  have p := h.parent
  simp only [styleFields, styleOptions, List.forall_mem_cons] at a o
  obtain ⟨a1, a2, a3, a4, a5, a6, a7, a8, a9, a10, a11, a12, a13, a14, a15, a16, a17, a18, a19, a20, a21, a22, a23, -⟩ := a
  obtain ⟨b1, b2, b3, -⟩ := o
  cases e; cases e'
  simp only at *
  subst_vars
  rfl

/-- The value written for a name is a field, an optional field, `0` or nothing. -/
theorem svalue_all {P : Str → Prop} {s : Style} (h1 : ∀ x ∈ styleFields, P (x.2 s))
    (h2 : ∀ x ∈ styleOptions, ∀ v, x.2 s = some v → P v) (h3 : P ['0']) (h4 : P []) (f : Str) : P (s.value f) := by
  have ite : ∀ {c : Prop} [Decidable c] {a b : Str}, P a → P b → P (if c then a else b) := by
    intro c _ a b ha hb
    by_cases h : c
    · rw [if_pos h]; exact ha
    · rw [if_neg h]; exact hb
  have opt : ∀ {o : Option Str}, (∀ v, o = some v → P v) → P (o.getD "0".toList) := by
    intro o h
    cases o with
    | none => exact h3
    | some v => exact h v rfl
  simp only [styleFields, styleOptions, List.forall_mem_cons] at h1 h2
  obtain ⟨a1, a2, a3, a4, a5, a6, a7, a8, a9, a10, a11, a12, a13, a14, a15, a16, a17, a18, a19, a20, a21, a22, a23, -⟩ := h1
  obtain ⟨b1, b2, b3, -⟩ := h2
  unfold Style.value
  exact ite a1 (ite a2 (ite a3 (ite a4 (ite a5 (ite a6 (ite a7 (ite a8 (ite a9 (ite a10 (ite a11 (ite a12 (ite a13 (ite a14
    (ite a15 (ite a16 (ite a17 (ite a18 (ite a19 (ite a20 (ite a21 (ite a22 (ite (opt b1) (ite (opt b2) (ite a23
    (ite (opt b3) h4)))))))))))))))))))))))))

theorem value_all {P : Str → Prop} {e : Event} (h1 : ∀ x ∈ eventFields, P (x.2 e))
    (h2 : ∀ x ∈ eventOptions, ∀ v, x.2 e = some v → P v) (ht : P e.text) (h3 : P ['0']) (h4 : P []) (f : Str) : P (e.value f) := by
  have ite : ∀ {c : Prop} [Decidable c] {a b : Str}, P a → P b → P (if c then a else b) := by
    intro c _ a b ha hb
    by_cases h : c
    · rw [if_pos h]; exact ha
    · rw [if_neg h]; exact hb
  have opt : ∀ {o : Option Str}, (∀ v, o = some v → P v) → P (o.getD "0".toList) := by
    intro o h
    cases o with
    | none => exact h3
    | some v => exact h v rfl
  simp only [eventFields, eventOptions, List.forall_mem_cons] at h1 h2
  obtain ⟨a1, a2, a3, a4, a5, a6, a7, a8, a9, -⟩ := h1
  obtain ⟨b1, b2, -⟩ := h2
  unfold Event.value
  exact ite a1 (ite a2 (ite a3 (ite a4 (ite a5 (ite a6 (ite a7 (ite a8 (ite (opt b1) (ite (opt b2) (ite a9 (ite ht h4)))))))))))

theorem getField_congr {n : Str} : ∀ {fmt p q : List Str}, p.map trim = q.map trim → getField fmt p n = getField fmt q n
  | [], p, q, _ => by rw [getField, getField] <;> simp
  | f :: fmt, [], [], _ => rfl
  | f :: fmt, [], y :: q, h => by simp at h
  | f :: fmt, x :: p, [], h => by simp at h
  | f :: fmt, x :: p, y :: q, h => by
    simp only [List.map_cons] at h
    obtain ⟨h1, h2⟩ := List.cons.inj h
    rw [getField, getField, h1, getField_congr h2]

theorem styleOf_congr {parent : Option Str} {fmt p q : List Str} (h : p.map trim = q.map trim) :
    styleOf parent fmt p = styleOf parent fmt q := by
  have g : ∀ n, getField fmt p n = getField fmt q n := fun n => getField_congr h
  unfold styleOf optField
  simp only [g]

theorem parent_none {x : Str} (h : ∀ c, (trimStart x).head? = some c → c ≠ '*') : styleParent x = (x, none) := by
  unfold styleParent
  rw [if_neg]
  intro hs
  obtain ⟨r, hr⟩ := startsWith_iff.1 hs
  exact h '*' (by rw [hr]; rfl) rfl

theorem parseStyle_space {x : Str} (h : ∀ c, x.head? = some c → ¬ White c ∧ c ≠ '*') (fmt : List Str) :
    parseStyle (' ' :: x) fmt = parseStyle x fmt := by
  have e : trimStart (' ' :: x) = x ∧ trimStart x = x := by
    cases x with
    | nil => exact ⟨rfl, rfl⟩
    | cons c x =>
      have := SrtDoc.not_white (h c rfl).1
      unfold trimStart
      rw [List.dropWhile_cons_of_pos (by decide), List.dropWhile_cons_of_neg (by simp [this])]
      exact ⟨rfl, rfl⟩
  have hm : (splitOn ',' (' ' :: x)).map trim = (splitOn ',' x).map trim := by
    rw [← Handlers.splitOn_trim, trim_space, Handlers.splitOn_trim]
  have hl : (splitOn ',' (' ' :: x)).length = (splitOn ',' x).length := by
    have := congrArg List.length hm
    simpa using this
  unfold parseStyle
  rw [parent_none (by rw [e.1]; exact fun c hc => (h c hc).2), parent_none (by rw [e.2]; exact fun c hc => (h c hc).2)]
  simp only [hl, styleOf_congr hm]

theorem style_reads {f : List Str} {s : Style} (hf : StyleFormatOk f) (h : StyleFits f s) :
    parseStyle (trim (' ' :: csv (f.map s.value))) f = some s := by
  have hstar : ∀ n, (s.value n).head? ≠ some '*' := fun n => svalue_all h.star.1 h.star.2 (by decide) (by decide) n
  have hpl : ∀ n, Plain (s.value n) := fun n => svalue_all h.plain.1 h.plain.2
    (by refine ⟨by decide, ?_, ?_⟩ <;> · intro c h; simp at h; subst h; unfold White; decide) ⟨by simp, by simp, by simp⟩ n
  obtain ⟨line, s', h1, h2, h3⟩ := C11_round_trip_partial hf.names.1 hf.spelled h.plain (fun n _ => hstar n)
  have e : s.toAssWith f = "Style:".toList ++ (' ' :: csv (f.map s.value)) := by
    unfold Style.toAssWith
    rw [StyleCmd.joinStr_csv]
    rfl
  rw [e] at h1
  have h1 := List.append_cancel_left h1
  subst h1
  have ht : ∀ x ∈ f.map s.value, Trimmed x := by
    intro x hx
    obtain ⟨n, _, rfl⟩ := List.mem_map.1 hx
    exact (hpl n).2
  rw [trim_csv ht, ← parseStyle_space, h2, style_kept h h3]
  intro c hc
  refine ⟨head_csv (fun x hx => (ht x hx).1) c hc, ?_⟩
  rintro rfl
  obtain ⟨hne, -⟩ := hf.names
  cases f with
  | nil => exact hne rfl
  | cons n f =>
    have hn := hstar n
    rw [List.map_cons] at hc
    cases e1 : s.value n with
    | nil => rw [e1] at hc; cases f <;> simp [csv] at hc
    | cons a x =>
      rw [e1] at hc hn
      cases f <;> (simp [csv] at hc; exact hn (by rw [hc]; rfl))

theorem style_loud : Loud "Style:".toList :=
  ⟨'S', "tyle:".toList, rfl, (fun hw => absurd ((SrtDoc.white_iff _).2 hw) (by decide)), by decide, by decide, by decide⟩

theorem styles_back {f : Option (List Str)} {fmt : List Str} (hfmt : StyleFormatOk fmt)
    (hf : ∀ x, parseStyle x (f.getD []) = parseStyle x fmt) :
    ∀ {es : List Style} {o : Nat} {l : List (Style × Nat × Nat)} {f' : Option (List Str)}, (∀ e ∈ es, StyleFits fmt e) →
    StylesOf f o (es.map (fun e => e.toAssWith fmt) ++ [[]]) l f' → l.map Prod.fst = es ∧ f' = f
  | [], o, l, f', _, h => by
    cases h with
    | silent _ h => cases h; exact ⟨rfl, rfl⟩
    | format h => exact (says_nil h).elim
    | style h => exact (says_nil h).elim
    | short h => exact (says_nil h).elim
    | other h => exact (says_nil h).elim
  | e :: es, o, l, f', he, h => by
    have h0 := he e (by simp)
    have ih : ∀ {o l f'}, StylesOf f o (es.map (fun e => e.toAssWith fmt) ++ [[]]) l f' → l.map Prod.fst = es ∧ f' = f :=
      fun h => styles_back hfmt hf (fun g hg => he g (by simp [hg])) h
    have hr : e.toAssWith fmt = "Style:".toList ++ (' ' :: csv (fmt.map e.value)) := by
      unfold Style.toAssWith
      rw [StyleCmd.joinStr_csv]
      rfl
    have hloud : Loud (e.toAssWith fmt) := by
      rw [hr]
      obtain ⟨c, x, e1, h1⟩ := style_loud
      exact ⟨c, x ++ _, by rw [e1]; rfl, h1⟩
    have hread := style_reads hfmt h0
    have says : ∀ {x}, Says (e.toAssWith fmt) x → ∃ d, x = "Style:".toList ++ d ∧
        ∀ d', Stripped d d' → parseStyle d' (f.getD []) = some e := by
      intro x hs
      rw [hr] at hs
      obtain ⟨d, b, rfl, e2, hb⟩ := says_prefix hs style_loud (colon_last (by decide))
      refine ⟨d, rfl, ?_⟩
      intro d' hd'
      rw [hf, ← Handlers.stripped_eq hd', trim_of_prefix e2 hb, hread]
    rw [List.map_cons, List.cons_append] at h
    cases h with
    | silent hs _ => exact absurd hs hloud.not_silent
    | format hs _ _ =>
      obtain ⟨d, e1, -⟩ := says hs
      exact absurd (List.cons.inj e1).1 (by decide)
    | style hs hd hp _ hrest =>
      obtain ⟨i1, i2⟩ := ih hrest
      obtain ⟨d, e1, h2⟩ := says hs
      rw [List.append_cancel_left e1] at hd
      rw [h2 _ hd] at hp
      exact ⟨by rw [List.map_cons, i1, ← Option.some.inj hp], i2⟩
    | short hs hd hp _ =>
      obtain ⟨d, e1, h2⟩ := says hs
      rw [List.append_cancel_left e1] at hd
      rw [h2 _ hd] at hp
      cases hp
    | other hs _ hn _ =>
      obtain ⟨d, e1, h2⟩ := says hs
      exact absurd e1 (hn d)

theorem styles_format {f0 : Option (List Str)} {f : List Str} {o : Nat} {L : List Str} {l : List (Style × Nat × Nat)}
    {f' : Option (List Str)} (hf : NamesOk f)
    (h : StylesOf f0 o (("Format:".toList ++ (' ' :: joinStr ", ".toList f)) :: L) l f') :
    ∃ o', StylesOf (some f) o' L l f' := by
  cases h with
  | silent hs _ =>
    exact absurd hs (Loud.not_silent ⟨'F', _, rfl, (fun hw => absurd ((SrtDoc.white_iff _).2 hw) (by decide)), by decide, by decide, by decide⟩)
  | format hs hn hr => rw [format_back hf hs hn] at hr; exact ⟨_, hr⟩
  | style hs _ _ _ _ =>
    obtain ⟨d, b, e1, -, -⟩ := says_prefix hs format_loud (colon_last (by decide))
    exact absurd (List.cons.inj e1).1 (by decide)
  | short hs _ _ _ =>
    obtain ⟨d, b, e1, -, -⟩ := says_prefix hs format_loud (colon_last (by decide))
    exact absurd (List.cons.inj e1).1 (by decide)
  | other hs hn _ _ =>
    obtain ⟨d, b, e1, -, -⟩ := says_prefix hs format_loud (colon_last (by decide))
    exact absurd e1 (hn d)

/-! ## Embedded files -/

/-- The lines written for embedded files. -/
def fileLines (key : Str) (l : List (Str × List Str)) : List Str := l.flatMap (fun m => (key ++ ": ".toList ++ m.1) :: m.2)

theorem nil_ends : EndsData [] := ⟨[], by exact (by decide : trim [] = []) ▸ InfoCmd.stripped_trim [], Or.inl rfl⟩

theorem nil_names {key n : Str} : ¬ Names1 key [] n := by
  rintro ⟨k, v, e, -⟩
  simp at e

theorem files_nil {key : Str} {fs : List (Str × List Str)} (h : FilesOf key [[]] fs) : fs = [] := by
  generalize hL : [([] : Str)] = L at h
  cases h with
  | nil => cases hL
  | other _ h =>
    obtain ⟨-, rfl⟩ := List.cons.inj hL
    cases h
    rfl
  | file h _ _ _ =>
    obtain ⟨rfl, -⟩ := List.cons.inj hL
    exact absurd h nil_names

theorem files_back {key : Str} (hk : Trimmed key) (hc : ':' ∉ key) {l fs : List (Str × List Str)} (hl : FilesOk l)
    (h : FilesOf key (fileLines key l ++ [[]]) fs) : fs = l := by
  cases l with
  | nil => exact files_nil h
  | cons m l =>
    cases l with
    | cons _ _ => have := hl.one; simp at this
    | nil =>
      obtain ⟨n, d⟩ := m
      have hn : Names1 key (key ++ ": ".toList ++ n) n :=
        ⟨key, ' ' :: n, by simp, hc, by have := InfoCmd.stripped_trim key; rwa [EventCmd.trimmed_trim hk] at this, by
          have := InfoCmd.stripped_trim (' ' :: n)
          rwa [trim_space, EventCmd.trimmed_trim (hl.name (n, d) (by simp)).2] at this⟩
      have h' : FilesOf key ((key ++ ": ".toList ++ n) :: (d ++ [[]])) fs := by
        simpa [fileLines] using h
      generalize hL : (key ++ ": ".toList ++ n) :: (d ++ [[]]) = L at h'
      have hd := hl.data (n, d) (by simp)
      cases h' with
      | nil => cases hL
      | other h1 _ =>
        obtain ⟨rfl, -⟩ := List.cons.inj hL
        exact absurd hn (h1 n)
      | @file _ n' ds d' ls fs' h1 h2 h3 h4 =>
        obtain ⟨rfl, e⟩ := List.cons.inj hL
        obtain ⟨rfl, rfl⟩ := split_first (P := EndsData) e (fun x hx => (hd x hx).2.2.1) (data_no_end h2)
          (by intro x hx; cases hx; exact nil_ends) h3
        rw [data_all h2 (fun x hx => (hd x hx).2.2.2), files_nil h4]
        obtain ⟨k, v, e1, hk1, hk2, hk3⟩ := h1
        have e1 : key ++ ':' :: (' ' :: n) = k ++ ':' :: v := by rw [← e1]; simp
        obtain ⟨rfl, rfl⟩ := first_colon e1 hc hk1
        rw [← Handlers.stripped_eq hk3, trim_space, EventCmd.trimmed_trim (hl.name (n, d) (by simp)).2]

/-! ## The lines of a script -/

/-- What stands between the brackets. -/
def rawOf : Section → Str
  | .info _ _ => "Script Info".toList
  | .styles _ => "V4+ Styles".toList
  | .events _ => "Events".toList
  | .fonts _ => "Fonts".toList
  | .graphics _ => "Graphics".toList

/-- The format line, if any. -/
def fmtLines : Option (List Str) → List Str
  | some f => ["Format:".toList ++ (' ' :: joinStr ", ".toList f)]
  | none => []

/-- The lines below the header. -/
def bodyOf (sf ef : Option (List Str)) : Content → List Str
  | .info fields => fields.map (fun f => f.1 ++ ": ".toList ++ f.2)
  | .styles l => fmtLines sf ++ l.map (fun s => s.toAssWith (sf.getD usualStyle))
  | .events l => fmtLines ef ++ l.map (fun s => s.toAssWith (ef.getD usualEvent))
  | .fonts l => fileLines "fontname".toList l
  | .graphics l => fileLines "filename".toList l

/-- Lines with their ends. -/
def ended (L : List Str) : Str := L.flatMap (fun l => l ++ ['\n'])

theorem ended_append (A B : List Str) : ended (A ++ B) = ended A ++ ended B := by
  unfold ended; rw [List.flatMap_append]

theorem ended_unlines : ∀ L : List Str, ended L = unlines (L ++ [[]])
  | [] => rfl
  | l :: L => by
    rw [List.cons_append, unlines_cons (by simp), ← ended_unlines L]
    simp [ended]

theorem fmt_ended (f : Option (List Str)) : formatToAss f = ended (fmtLines f) := by
  cases f with
  | none => rfl
  | some f =>
    unfold ended fmtLines formatToAss
    rw [List.flatMap_singleton, List.append_cons "Format:".toList ' ']
    rfl

theorem files_ended (key : Str) (l : List Media) : l.flatMap (mediaToAss key) =
    ended (fileLines key (l.map (fun m => (m.filename, m.data)))) := by
  induction l with
  | nil => rfl
  | cons m l ih =>
    rw [List.flatMap_cons, ih, List.map_cons]
    unfold fileLines
    rw [List.flatMap_cons, ended_append]
    rfl

theorem head_ended (raw : Str) (B : List Str) :
    ended (('[' :: raw ++ [']']) :: B) = ('[' :: raw ++ [']', '\n']) ++ ended B := by
  unfold ended
  rw [List.flatMap_cons]
  simp

theorem maps_ended {α : Type} (g : α → Str) (l : List α) : l.flatMap (fun x => g x ++ ['\n']) = ended (l.map g) := by
  unfold ended
  rw [List.flatMap_map]

theorem styles_ended (sf ef : Option (List Str)) (l : List (Style × Span)) :
    sectionToAss sf ef (.styles l) = ended (('[' :: "V4+ Styles".toList ++ [']']) :: bodyOf sf ef (.styles (l.map Prod.fst))) := by
  have e : "[V4+ Styles]\n".toList = '[' :: "V4+ Styles".toList ++ [']', '\n'] := by decide
  have h : ∀ s : Style × Span, (match sf with | some f => s.1.toAssWith f | none => s.1.toAss) = s.1.toAssWith (sf.getD usualStyle) := by
    intro s; cases sf <;> rfl
  rw [head_ended]
  show "[V4+ Styles]\n".toList ++ formatToAss sf ++
      l.flatMap (fun s => (match sf with | some f => s.1.toAssWith f | none => s.1.toAss) ++ ['\n']) = _
  simp only [h]
  rw [maps_ended (fun s : Style × Span => s.1.toAssWith (sf.getD usualStyle)), fmt_ended, e, bodyOf, ended_append, List.map_map,
    List.append_assoc]
  rfl

theorem events_ended (sf ef : Option (List Str)) (l : List (Event × Span)) :
    sectionToAss sf ef (.events l) = ended (('[' :: "Events".toList ++ [']']) :: bodyOf sf ef (.events (l.map Prod.fst))) := by
  have e : "[Events]\n".toList = '[' :: "Events".toList ++ [']', '\n'] := by decide
  have h : ∀ s : Event × Span, (match ef with | some f => s.1.toAssWith f | none => s.1.toAss) = s.1.toAssWith (ef.getD usualEvent) := by
    intro s; cases ef <;> rfl
  rw [head_ended]
  show "[Events]\n".toList ++ formatToAss ef ++
      l.flatMap (fun s => (match ef with | some f => s.1.toAssWith f | none => s.1.toAss) ++ ['\n']) = _
  simp only [h]
  rw [maps_ended (fun s : Event × Span => s.1.toAssWith (ef.getD usualEvent)), fmt_ended, e, bodyOf, ended_append, List.map_map,
    List.append_assoc]
  rfl

theorem info_ended (sf ef : Option (List Str)) (fields : List (Str × Str)) (sp : Span) :
    sectionToAss sf ef (.info fields sp) = ended (('[' :: "Script Info".toList ++ [']']) :: bodyOf sf ef (.info fields)) := by
  have e : "[Script Info]\n".toList = '[' :: "Script Info".toList ++ [']', '\n'] := by decide
  rw [head_ended]
  show "[Script Info]\n".toList ++ fields.flatMap (fun f => f.1 ++ ": ".toList ++ f.2 ++ ['\n']) = _
  rw [maps_ended (fun f : Str × Str => f.1 ++ ": ".toList ++ f.2), e]
  rfl

theorem section_ended (sf ef : Option (List Str)) (s : Section) :
    sectionToAss sf ef s = ended (('[' :: rawOf s ++ [']']) :: bodyOf sf ef (content s)) := by
  cases s with
  | info fields sp => exact info_ended sf ef fields sp
  | styles l => exact styles_ended sf ef l
  | events l => exact events_ended sf ef l
  | fonts l =>
    have e : "[Fonts]\n".toList = '[' :: "Fonts".toList ++ [']', '\n'] := by decide
    rw [head_ended]
    show "[Fonts]\n".toList ++ l.flatMap (mediaToAss "fontname".toList) = _
    rw [files_ended, e]; rfl
  | graphics l =>
    have e : "[Graphics]\n".toList = '[' :: "Graphics".toList ++ [']', '\n'] := by decide
    rw [head_ended]
    show "[Graphics]\n".toList ++ l.flatMap (mediaToAss "filename".toList) = _
    rw [files_ended, e]; rfl

/-- The lines of a section, with the blank one after it. -/
def linesOf (sf ef : Option (List Str)) (s : Section) : List Str :=
  ('[' :: rawOf s ++ [']']) :: (bodyOf sf ef (content s) ++ [[]])

theorem toAss_lines (sf ef : Option (List Str)) : ∀ l : List Section,
    joinStr ['\n'] (l.map (sectionToAss sf ef)) = unlines (l.flatMap (linesOf sf ef))
  | [] => rfl
  | [s] => by
    simp only [List.map_cons, List.map_nil, joinStr, List.flatMap_cons, List.flatMap_nil, List.append_nil]
    rw [section_ended, ended_unlines]; rfl
  | s :: t :: l => by
    have ih := toAss_lines sf ef (t :: l)
    have e : ('[' :: rawOf s ++ [']']) :: bodyOf sf ef (content s) ++ [[]] = linesOf sf ef s := rfl
    have hj : ∀ (a b : Str) (l : List Str), joinStr ['\n'] (a :: b :: l) = a ++ '\n' :: joinStr ['\n'] (b :: l) := by
      intro a b l; rw [joinStr] <;> simp
    rw [List.map_cons, List.map_cons, hj, ← List.map_cons, ih, List.flatMap_cons (x := s), section_ended, ended_unlines, e,
      unlines_snoc_append (by unfold linesOf; simp) (by rw [List.flatMap_cons]; unfold linesOf; simp)]

/-! ## Every line is a line, and no header -/

theorem csv_line : ∀ {L : List Str}, (∀ x ∈ L, '\n' ∉ x) → '\n' ∉ csv L
  | [], _ => by simp [csv]
  | [x], h => by rw [csv]; exact h x (by simp)
  | x :: y :: L, h => by
    have := csv_line (L := y :: L) (fun z hz => h z (by simp [hz]))
    rw [csv]
    simp only [List.mem_append, List.mem_cons, not_or]
    exact ⟨h x (by simp), by decide, this⟩

theorem fmt_line {f : List Str} (h : NamesOk f) : ∀ l ∈ fmtLines (some f), '\n' ∉ l ∧ ¬ Opens l := by
  intro l hl
  rw [fmtLines, List.mem_singleton] at hl
  subst hl
  refine ⟨?_, Loud.not_opens ⟨'F', _, rfl, (fun hw => absurd ((SrtDoc.white_iff _).2 hw) (by decide)), by decide, by decide, by decide⟩⟩
  rw [joinStr_comma h.1]
  intro hm
  rcases List.mem_append.1 hm with hm | hm
  · exact absurd hm (by decide)
  · refine csv_line ?_ hm
    intro x hx
    obtain ⟨n, hn, rfl⟩ := List.mem_map.1 hx
    simpa using (h.2 n hn).2.1

theorem style_line {s : Style} {f : List Str} (h : StyleFits f s) (g : List Str) : '\n' ∉ s.toAssWith g ∧ ¬ Opens (s.toAssWith g) := by
  have hr : s.toAssWith g = "Style:".toList ++ (' ' :: csv (g.map s.value)) := by
    unfold Style.toAssWith
    rw [StyleCmd.joinStr_csv]
    rfl
  rw [hr]
  refine ⟨?_, Loud.not_opens ⟨'S', _, rfl, (fun hw => absurd ((SrtDoc.white_iff _).2 hw) (by decide)), by decide, by decide, by decide⟩⟩
  intro hm
  rcases List.mem_append.1 hm with hm | hm
  · exact absurd hm (by decide)
  · cases hm with
    | tail _ hm =>
      refine csv_line ?_ hm
      intro x hx
      obtain ⟨n, hn, rfl⟩ := List.mem_map.1 hx
      exact svalue_all (P := fun x => '\n' ∉ x) h.line.1 h.line.2 (by decide) (by decide) n

theorem event_line {e : Event} {f : List Str} (h : EventFits f e) (g : List Str) : '\n' ∉ e.toAssWith g ∧ ¬ Opens (e.toAssWith g) := by
  have hr : e.toAssWith g = (e.kind.str ++ [':']) ++ (' ' :: csv (g.map e.value)) := by
    unfold Event.toAssWith
    rw [StyleCmd.joinStr_csv]
    simp
  rw [hr]
  obtain ⟨c, x, e1, h1⟩ := kind_loud e.kind
  refine ⟨?_, Loud.not_opens ⟨c, x ++ _, by rw [e1]; rfl, h1⟩⟩
  intro hm
  rcases List.mem_append.1 hm with hm | hm
  · exact absurd hm (by cases e.kind <;> decide)
  · cases hm with
    | tail _ hm =>
      refine csv_line ?_ hm
      intro x hx
      obtain ⟨n, hn, rfl⟩ := List.mem_map.1 hx
      exact value_all (P := fun x => '\n' ∉ x) h.line.1 h.line.2.1 h.line.2.2 (by decide) (by decide) n

theorem files_line {key : Str} (hk : Loud key) (hn : '\n' ∉ key) {l : List (Str × List Str)} (h : FilesOk l) :
    ∀ x ∈ fileLines key l, '\n' ∉ x ∧ ¬ Opens x := by
  intro x hx
  obtain ⟨m, hm, hx⟩ := List.mem_flatMap.1 hx
  cases hx with
  | head =>
    constructor
    · simp only [List.mem_append, not_or]
      exact ⟨⟨hn, by decide⟩, (h.name m hm).1⟩
    · obtain ⟨c, r, e, h1⟩ := hk
      exact Loud.not_opens ⟨c, r ++ ": ".toList ++ m.1, by rw [e]; rfl, h1⟩
  | tail _ hx => exact ⟨(h.data m hm x hx).1, (h.data m hm x hx).2.1⟩

theorem f_loud (x : Str) : Loud ('f' :: x) :=
  ⟨'f', x, rfl, (fun hw => absurd ((SrtDoc.white_iff _).2 hw) (by decide)), by decide, by decide, by decide⟩

theorem bodyOf_line {sf ef : Option (List Str)} {c : Content} (h : Writable sf ef c) : ∀ x ∈ bodyOf sf ef c, '\n' ∉ x ∧ ¬ Opens x := by
  cases c with
  | info fields =>
    intro x hx
    obtain ⟨f, hf, rfl⟩ := List.mem_map.1 hx
    refine ⟨?_, (field_loud (h f hf)).not_opens⟩
    simp only [List.mem_append, not_or]
    exact ⟨⟨(h f hf).line.1, by decide⟩, (h f hf).line.2⟩
  | styles l =>
    obtain ⟨h1, h2⟩ := h
    intro x hx
    rcases List.mem_append.1 hx with hx | hx
    · cases sf with
      | none => cases hx
      | some f => exact fmt_line (h1 f rfl).names x hx
    · obtain ⟨s, hs, rfl⟩ := List.mem_map.1 hx
      exact style_line (h2 s hs) _
  | events l =>
    obtain ⟨h1, h2⟩ := h
    intro x hx
    rcases List.mem_append.1 hx with hx | hx
    · cases ef with
      | none => cases hx
      | some f => exact fmt_line (h1 f rfl).names x hx
    · obtain ⟨s, hs, rfl⟩ := List.mem_map.1 hx
      exact event_line (h2 s hs) _
  | fonts l => exact files_line (f_loud _) (by decide) h
  | graphics l => exact files_line (f_loud _) (by decide) h

theorem raw_line (s : Section) : '\n' ∉ rawOf s ∧ ']' ∉ rawOf s ∧ Stripped (rawOf s) (rawOf s) := by
  have key : ∀ r : Str, '\n' ∉ r → ']' ∉ r → trim r = r → '\n' ∉ r ∧ ']' ∉ r ∧ Stripped r r := by
    intro r h1 h2 h3
    have := InfoCmd.stripped_trim r
    rw [h3] at this
    exact ⟨h1, h2, this⟩
  cases s with
  | info _ _ => exact key "Script Info".toList (by decide) (by decide) (by decide)
  | styles _ => exact key "V4+ Styles".toList (by decide) (by decide) (by decide)
  | events _ => exact key "Events".toList (by decide) (by decide) (by decide)
  | fonts _ => exact key "Fonts".toList (by decide) (by decide) (by decide)
  | graphics _ => exact key "Graphics".toList (by decide) (by decide) (by decide)

/-- The sections of the source written. -/
theorem segments_of {sf ef : Option (List Str)} : ∀ {l : List Section} (o : Nat), (∀ s ∈ l, Writable sf ef (content s)) →
    ∃ segs, Segments o (l.flatMap (linesOf sf ef)) segs ∧
      segs.map (fun g => (g.raw, g.body)) = l.map (fun s => (rawOf s, bodyOf sf ef (content s) ++ [[]]))
  | [], o, _ => ⟨[], .nil o, rfl⟩
  | s :: l, o, h => by
    obtain ⟨segs, h1, h2⟩ := segments_of (l := l)
      (o + size ('[' :: rawOf s ++ [']']) + 1 + sizes (bodyOf sf ef (content s) ++ [[]])) (fun t ht => h t (by simp [ht]))
    refine ⟨⟨rawOf s, o + size ('[' :: rawOf s ++ [']']) + 1, bodyOf sf ef (content s) ++ [[]]⟩ :: segs, ?_, ?_⟩
    · rw [List.flatMap_cons]
      exact .cons ⟨[], [], by simp, by simp, (raw_line s).2.1⟩ (by
        intro x hx
        rcases List.mem_append.1 hx with hx | hx
        · exact (bodyOf_line (h s (by simp)) x hx).2
        · rw [List.mem_singleton.1 hx]; exact nil_not_opens) h1
    · rw [List.map_cons, List.map_cons, h2]

theorem lines_flat {sf ef : Option (List Str)} {l : List Section} (h : ∀ s ∈ l, Writable sf ef (content s)) :
    ∀ x ∈ l.flatMap (linesOf sf ef), '\n' ∉ x := by
  intro x hx
  obtain ⟨s, hs, hx⟩ := List.mem_flatMap.1 hx
  cases hx with
  | head => simp [(raw_line s).1]
  | tail _ hx =>
    rcases List.mem_append.1 hx with hx | hx
    · exact (bodyOf_line (h s hs) x hx).1
    · rw [List.mem_singleton.1 hx]; simp

/-! ## Reading it back -/

/-- What the parser says, without the places. -/
def strip : Said → Content
  | .info fields => .info fields
  | .styles l => .styles (l.map Prod.fst)
  | .events l => .events (l.map Prod.fst)
  | .fonts l => .fonts l
  | .graphics l => .graphics l

theorem strip_said (s : Section) : strip (said s) = content s := by
  cases s <;> simp [strip, said, content, place, Function.comp_def]

theorem usual_event_ok : EventFormatOk usualEvent := by
  refine ⟨⟨by decide, ?_⟩, by unfold EventSpelled SameName; decide, Or.inl ⟨usualEvent.dropLast, by decide, by decide⟩⟩
  unfold usualEvent Trimmed White
  simp

theorem usual_style_ok : StyleFormatOk usualStyle := by
  refine ⟨⟨by decide, ?_⟩, by unfold StyleSpelled SameName; decide⟩
  unfold usualStyle styleFields Trimmed White
  simp

theorem parseEvent_default (x : Str) : parseEvent x [] = parseEvent x usualEvent := rfl
theorem parseStyle_default (x : Str) : parseStyle x [] = parseStyle x usualStyle := rfl

theorem body_events {ef sf : Option (List Str)} {es : List Event} (h : Writable sf ef (.events es)) {o : Nat}
    {l : List (Event × Nat × Nat)} {f' : Option (List Str)} (he : EventsOf none o (bodyOf sf ef (.events es) ++ [[]]) l f') :
    l.map Prod.fst = es ∧ f' = ef := by
  obtain ⟨h1, h2⟩ := h
  cases ef with
  | none => exact events_back (f := none) usual_event_ok parseEvent_default h2 he
  | some f =>
    have hf := h1 f rfl
    have he : EventsOf none o (("Format:".toList ++ (' ' :: joinStr ", ".toList f)) ::
      (es.map (fun s => s.toAssWith f) ++ [[]])) l f' := he
    obtain ⟨o', h3⟩ := events_format hf.names he
    exact events_back hf (fun x => rfl) h2 h3

theorem body_styles {ef sf : Option (List Str)} {es : List Style} (h : Writable sf ef (.styles es)) {o : Nat}
    {l : List (Style × Nat × Nat)} {f' : Option (List Str)} (he : StylesOf none o (bodyOf sf ef (.styles es) ++ [[]]) l f') :
    l.map Prod.fst = es ∧ f' = sf := by
  obtain ⟨h1, h2⟩ := h
  cases sf with
  | none => exact styles_back (f := none) usual_style_ok parseStyle_default h2 he
  | some f =>
    have hf := h1 f rfl
    have he : StylesOf none o (("Format:".toList ++ (' ' :: joinStr ", ".toList f)) ::
      (es.map (fun s => s.toAssWith f) ++ [[]])) l f' := he
    obtain ⟨o', h3⟩ := styles_format hf.names he
    exact styles_back hf (fun x => rfl) h2 h3

def isStyles : Content → Bool
  | .styles _ => true
  | _ => false

def isEvents : Content → Bool
  | .events _ => true
  | _ => false

/-- One section read back. -/
theorem section_back {sf ef : Option (List Str)} {s : Section} (h : Writable sf ef (content s))
    {s0 e0 sf' ef' : Option (List Str)} {g : Seg} {gs : List Seg} {ss : List Said} {us : List Str}
    (hg : g.raw = rawOf s) (hb : g.body = bodyOf sf ef (content s) ++ [[]]) (hs : SectionsOf s0 e0 (g :: gs) ss sf' ef' us) :
    ∃ x ss' s1 e1, ss = x :: ss' ∧ strip x = content s ∧ SectionsOf s1 e1 gs ss' sf' ef' us ∧
      (sf ≠ none → s1 = if isStyles (content s) then sf else s0) ∧
      e1 = if isEvents (content s) then ef else e0 := by
  have raw := (raw_line s).2.2
  rw [← hg] at raw
  have uniq : ∀ {n}, Stripped g.raw n → n = rawOf s := by
    intro n hn
    rw [← Handlers.stripped_eq hn, Handlers.stripped_eq raw, hg]
  cases s with
  | info fields sp =>
    have uniq : ∀ {n}, Stripped g.raw n → n = "Script Info".toList := uniq
    cases hs with
    | info h1 h2 h3 =>
      rw [hb] at h2
      refine ⟨_, _, _, _, rfl, ?_, h3, fun _ => rfl, rfl⟩
      rw [info_back h h2]; rfl
    | styles h1 h2 _ _ => rw [uniq h1] at h2; exact absurd h2 (by unfold StylesName; decide)
    | events h1 _ _ => exact absurd (uniq h1) (by decide)
    | fonts h1 _ _ => exact absurd (uniq h1) (by decide)
    | graphics h1 _ _ => exact absurd (uniq h1) (by decide)
    | unknown h1 h2 _ => rw [uniq h1] at h2; exact absurd (by unfold Known StylesName; decide) h2
  | styles l =>
    have uniq : ∀ {n}, Stripped g.raw n → n = "V4+ Styles".toList := uniq
    cases hs with
    | info h1 _ _ => exact absurd (uniq h1) (by decide)
    | @styles _ _ _ _ _ l' f' _ _ _ _ h1 h2 h3 h4 =>
      rw [hb] at h3
      obtain ⟨e1, e2⟩ := body_styles h h3
      subst e2
      refine ⟨_, _, _, _, rfl, ?_, h4, ?_, rfl⟩
      · rw [strip, e1]; rfl
      · intro hne
        show kept f' l' = f'
        cases f' with
        | none => exact absurd rfl hne
        | some f => rfl
    | events h1 _ _ => exact absurd (uniq h1) (by decide)
    | fonts h1 _ _ => exact absurd (uniq h1) (by decide)
    | graphics h1 _ _ => exact absurd (uniq h1) (by decide)
    | unknown h1 h2 _ => rw [uniq h1] at h2; exact absurd (by unfold Known StylesName; decide) h2
  | events l =>
    have uniq : ∀ {n}, Stripped g.raw n → n = "Events".toList := uniq
    cases hs with
    | info h1 _ _ => exact absurd (uniq h1) (by decide)
    | styles h1 h2 _ _ => rw [uniq h1] at h2; exact absurd h2 (by unfold StylesName; decide)
    | @events _ _ _ _ l' f' _ _ _ _ h1 h3 h4 =>
      rw [hb] at h3
      obtain ⟨e1, e2⟩ := body_events h h3
      subst e2
      refine ⟨_, _, _, _, rfl, ?_, h4, fun _ => rfl, ?_⟩
      · rw [strip, e1]; rfl
      · rfl
    | fonts h1 _ _ => exact absurd (uniq h1) (by decide)
    | graphics h1 _ _ => exact absurd (uniq h1) (by decide)
    | unknown h1 h2 _ => rw [uniq h1] at h2; exact absurd (by unfold Known StylesName; decide) h2
  | fonts l =>
    have uniq : ∀ {n}, Stripped g.raw n → n = "Fonts".toList := uniq
    cases hs with
    | info h1 _ _ => exact absurd (uniq h1) (by decide)
    | styles h1 h2 _ _ => rw [uniq h1] at h2; exact absurd h2 (by unfold StylesName; decide)
    | events h1 _ _ => exact absurd (uniq h1) (by decide)
    | fonts h1 h2 h3 =>
      rw [hb] at h2
      refine ⟨_, _, _, _, rfl, ?_, h3, fun _ => rfl, rfl⟩
      rw [files_back (by unfold Trimmed White; decide) (by decide) h h2]; rfl
    | graphics h1 _ _ => exact absurd (uniq h1) (by decide)
    | unknown h1 h2 _ => rw [uniq h1] at h2; exact absurd (by unfold Known StylesName; decide) h2
  | graphics l =>
    have uniq : ∀ {n}, Stripped g.raw n → n = "Graphics".toList := uniq
    cases hs with
    | info h1 _ _ => exact absurd (uniq h1) (by decide)
    | styles h1 h2 _ _ => rw [uniq h1] at h2; exact absurd h2 (by unfold StylesName; decide)
    | events h1 _ _ => exact absurd (uniq h1) (by decide)
    | fonts h1 _ _ => exact absurd (uniq h1) (by decide)
    | graphics h1 h2 h3 =>
      rw [hb] at h2
      refine ⟨_, _, _, _, rfl, ?_, h3, fun _ => rfl, rfl⟩
      rw [files_back (by unfold Trimmed White; decide) (by decide) h h2]; rfl
    | unknown h1 h2 _ => rw [uniq h1] at h2; exact absurd (by unfold Known StylesName; decide) h2

theorem sections_back {sf ef : Option (List Str)} : ∀ {l : List Section} {segs : List Seg} {s0 e0 sf' ef' : Option (List Str)}
    {ss : List Said} {us : List Str}, (∀ s ∈ l, Writable sf ef (content s)) →
    segs.map (fun g => (g.raw, g.body)) = l.map (fun s => (rawOf s, bodyOf sf ef (content s) ++ [[]])) →
    SectionsOf s0 e0 segs ss sf' ef' us → ss.map strip = l.map content ∧ us = [] ∧
      (sf ≠ none → (s0 = sf ∨ ∃ s ∈ l, isStyles (content s)) → sf' = sf) ∧
      ((e0 = ef ∨ ∃ s ∈ l, isEvents (content s)) → ef' = ef)
  | [], segs, s0, e0, sf', ef', ss, us, _, hm, h => by
    have : segs = [] := by simpa using hm
    subst this
    cases h
    refine ⟨rfl, rfl, fun _ h => ?_, fun h => ?_⟩ <;>
    · rcases h with h | ⟨s, hs, _⟩
      · exact h
      · cases hs
  | s :: l, segs, s0, e0, sf', ef', ss, us, hw, hm, h => by
    cases segs with
    | nil => cases hm
    | cons g gs =>
      rw [List.map_cons, List.map_cons] at hm
      obtain ⟨hg, hm⟩ := List.cons.inj hm
      obtain ⟨x, ss', s1, e1, rfl, h2, h3, h4, h5⟩ := section_back (hw s (by simp)) (congrArg Prod.fst hg) (congrArg Prod.snd hg) h
      obtain ⟨i1, i2, i3, i4⟩ := sections_back (fun t ht => hw t (by simp [ht])) hm h3
      refine ⟨by rw [List.map_cons, List.map_cons, i1, h2], i2, ?_, ?_⟩
      · intro hne hd
        apply i3 hne
        have h4 := h4 hne
        by_cases hx : isStyles (content s)
        · rw [if_pos hx] at h4; exact Or.inl h4
        · rw [if_neg hx] at h4
          rcases hd with hd | ⟨t, ht, hd⟩
          · exact Or.inl (h4.trans hd)
          · cases ht with
            | head => exact absurd hd hx
            | tail _ ht => exact Or.inr ⟨t, ht, hd⟩
      · intro hd
        apply i4
        by_cases hx : isEvents (content s)
        · rw [if_pos hx] at h5; exact Or.inl h5
        · rw [if_neg hx] at h5
          rcases hd with hd | ⟨t, ht, hd⟩
          · exact Or.inl (h5.trans hd)
          · cases ht with
            | head => exact absurd hd hx
            | tail _ ht => exact Or.inr ⟨t, ht, hd⟩

end Verif.Parser
