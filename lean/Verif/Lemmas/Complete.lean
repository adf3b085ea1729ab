import Verif.Spec.Complete
import Verif.Lemmas.Highlight
import Verif.Lemmas.Sort
/-! Lemmas for auto-completion (C103). -/
namespace Verif.Complete
open Verif Verif.Spec.Complete
open Verif.Spec.EventCmd (White)

theorem rsplit_some {x : Char} {s a b : Str} : rsplit x s = some (a, b) ↔ s = a ++ x :: b ∧ x ∉ b := by
  unfold rsplit
  rw [Option.map_eq_some_iff]
  constructor
  · rintro ⟨⟨p, q⟩, h1, h2⟩
    cases h2
    obtain ⟨e, hn⟩ := splitOnce_some h1
    refine ⟨?_, by simpa using hn⟩
    have := congrArg List.reverse e
    simpa using this
  · rintro ⟨e, hn⟩
    refine ⟨(b.reverse, a.reverse), ?_, by simp⟩
    subst e
    have : (a ++ x :: b).reverse = b.reverse ++ x :: a.reverse := by simp
    rw [this, splitOnce_append _ (by simpa using hn)]

theorem rsplit_none {x : Char} {s : Str} : rsplit x s = none ↔ x ∉ s := by
  unfold rsplit
  rw [Option.map_eq_none_iff]
  constructor
  · intro h
    have := splitOnce_eq_none h
    simpa using this
  · intro h
    exact splitOnce_none (by simpa using h)

theorem inTag_iff {lb : Str} : inTag lb = true ↔ ∃ b, InBlock lb b := by
  unfold inTag
  constructor
  · intro h
    cases hr : rsplit '{' lb with
    | none => rw [hr] at h; cases h
    | some p =>
      obtain ⟨a, b⟩ := p
      rw [hr] at h
      obtain ⟨e, hn⟩ := rsplit_some.1 hr
      refine ⟨b, a, e, hn, ?_⟩
      intro hm
      simp [hm] at h
  · rintro ⟨b, a, e, h1, h2⟩
    rw [rsplit_some.2 ⟨e, h1⟩]
    simp [h2]

theorem inTag_false {lb : Str} : inTag lb = false ↔ ∀ b, ¬ InBlock lb b := by
  rw [Bool.eq_false_iff, ne_eq, inTag_iff]
  simp

theorem block_unique {lb b b' : Str} (h : InBlock lb b) (h' : InBlock lb b') : b = b' := by
  obtain ⟨a, e, h1, _⟩ := h
  obtain ⟨a', e', h1', _⟩ := h'
  have := (rsplit_some.2 ⟨e, h1⟩).symm.trans (rsplit_some.2 ⟨e', h1'⟩)
  cases this
  rfl

/-! ## Lines above -/

theorem lines_snoc {a l : Str} (ha : a = [] ∨ a.getLast? = some '\n') (hl : '\n' ∉ l) :
    lines (a ++ l ++ ['\n']) = lines a ++ [stripCr l] := by
  suffices h : ∀ n (a : Str), a.length = n → (a = [] ∨ a.getLast? = some '\n') → lines (a ++ l ++ ['\n']) = lines a ++ [stripCr l] from
    h _ a rfl ha
  intro n
  induction n using Nat.strongRecOn with
  | _ n ih =>
    intro a hn ha
    rcases Highlight.split_line a with (rfl | ⟨hne, hno⟩) | ⟨p, q, rfl, hp⟩
    · rw [List.nil_append, lines_append l hl []]
      rfl
    · rcases ha with e | e
      · exact absurd e hne
      · exact absurd (List.mem_of_getLast? e) hno
    · rw [List.append_assoc, List.append_assoc, List.cons_append, lines_append p hp, lines_append p hp]
      have hq : q = [] ∨ q.getLast? = some '\n' := by
        by_cases h : q = []
        · exact .inl h
        · refine .inr ?_
          rcases ha with e | e
          · simp at e
          · rw [List.getLast?_append] at e
            cases q with
            | nil => exact absurd rfl h
            | cons c q =>
              rw [List.getLast?_cons_cons] at e
              rw [List.getLast?_eq_some_getLast (by simp)] at e ⊢
              simpa using e
      rw [← List.append_assoc, ih q.length (by rw [← hn]; simp; omega) q rfl hq]
      rfl

theorem stripCr_iff (l m : Str) (h : stripCr l = m) : l = m ∨ l = m ++ ['\r'] := by
  unfold stripCr at h
  by_cases hl : l.getLast? = some '\r'
  · rw [if_pos hl] at h
    obtain ⟨ys, e⟩ := List.getLast?_eq_some_iff.1 hl
    rw [e] at h
    simp at h
    rw [e, h]
    exact .inr rfl
  · rw [if_neg hl] at h
    exact .inl h

theorem sectionOf_snoc (ls : List Str) (l : Str) : sectionOf (ls ++ [l]) = (Highlight.header l).or (sectionOf ls) := by
  unfold sectionOf
  rw [List.reverse_append]
  simp only [List.reverse_cons, List.reverse_nil, List.nil_append, List.cons_append, List.findSome?_cons]
  cases Highlight.header l <;> rfl

theorem header_eq (name : Str) : Highlight.header ('[' :: name ++ [']']) = some name := by
  rw [List.cons_append, Highlight.header, if_pos (by simp)]
  simp

theorem section_ends {p : Str} {s : Option Str} (h : SectionAt p s) : p = [] ∨ p.getLast? = some '\n' := by
  cases h with
  | start => exact .inl rfl
  | header => exact .inr List.getLast?_concat
  | line => exact .inr List.getLast?_concat

theorem section_eq {p : Str} {s : Option Str} (h : SectionAt p s) : sectionOf (lines p) = s := by
  induction h with
  | start => rfl
  | @header a name cr ha hn hc =>
    have hno : '\n' ∉ ('[' :: name ++ ']' :: cr) := by
      rcases hc with rfl | rfl <;> simp [hn]
    rw [lines_snoc ha hno, sectionOf_snoc]
    have : stripCr ('[' :: name ++ ']' :: cr) = '[' :: name ++ [']'] := by
      rcases hc with rfl | rfl
      · refine stripCr_of ?_
        rw [List.getLast?_concat]
        simp
      · unfold stripCr
        have e : '[' :: name ++ [']', '\r'] = ('[' :: name ++ [']']) ++ ['\r'] := by simp
        rw [e, if_pos List.getLast?_concat, List.dropLast_concat]
    rw [this, header_eq]
    rfl
  | @line a l s ha hl h1 h2 ih =>
    rw [lines_snoc (section_ends ha) hl, sectionOf_snoc, ih]
    cases hh : Highlight.header (stripCr l) with
    | none => rfl
    | some name =>
      have e := Highlight.header_some hh
      rcases stripCr_iff l _ e with e | e
      · exact absurd e (h1 name)
      · exact absurd (by rw [e]; simp) (h2 name)

/-- There is always a section, or none. -/
theorem section_exists (p : Str) (hp : p = [] ∨ p.getLast? = some '\n') : ∃ s, SectionAt p s := by
  suffices h : ∀ n (p : Str), p.length = n → (p = [] ∨ p.getLast? = some '\n') → ∃ s, SectionAt p s from h _ p rfl hp
  intro n
  induction n using Nat.strongRecOn with
  | _ n ih =>
    intro p hn hp
    by_cases hne : p = []
    · subst hne; exact ⟨none, .start⟩
    · have hl := hp.resolve_left hne
      obtain ⟨q, e⟩ := List.getLast?_eq_some_iff.1 hl
      subst e
      -- the last line
      have hcut : ∃ a l, q = a ++ l ∧ '\n' ∉ l ∧ (a = [] ∨ a.getLast? = some '\n') := by
        cases hr : rsplit '\n' q with
        | none => exact ⟨[], q, rfl, rsplit_none.1 hr, .inl rfl⟩
        | some ab =>
          obtain ⟨a, b⟩ := ab
          obtain ⟨e, hb⟩ := rsplit_some.1 hr
          exact ⟨a ++ ['\n'], b, by rw [e]; simp, hb, .inr (by simp)⟩
      obtain ⟨a, l, e, hnl, ha⟩ := hcut
      subst e
      by_cases h1 : ∃ name, l = '[' :: name ++ [']']
      · obtain ⟨name, e⟩ := h1
        refine ⟨some name, ?_⟩
        have := SectionAt.header (a := a) (name := name) (cr := []) ha (fun h => hnl (by rw [e]; simp [h])) (.inl rfl)
        rw [e]
        exact this
      · by_cases h2 : ∃ name, l = '[' :: name ++ [']', '\r']
        · obtain ⟨name, e⟩ := h2
          refine ⟨some name, ?_⟩
          have := SectionAt.header (a := a) (name := name) (cr := ['\r']) ha (fun h => hnl (by rw [e]; simp [h])) (.inr rfl)
          rw [e]
          exact this
        · obtain ⟨s, hs⟩ := ih a.length (by rw [← hn]; simp) a rfl ha
          exact ⟨s, .line hs hnl (fun name e => h1 ⟨name, e⟩) (fun name e => h2 ⟨name, e⟩)⟩

/-! ## The context -/

theorem takeWhile_line {la q : Str} (h1 : '\n' ∉ la) (h2 : ∀ c, q.head? = some c → c = '\n') :
    (la ++ q).takeWhile (fun c => c != '\n') = la := by
  induction la with
  | nil =>
    cases q with
    | nil => rfl
    | cons c q => rw [h2 c rfl]; rfl
  | cons c la ih =>
    have hc : c ≠ '\n' := fun e => h1 (by simp [e])
    rw [List.cons_append, List.takeWhile_cons, if_pos (by simpa using hc), ih (fun h => h1 (List.mem_cons_of_mem _ h))]

theorem context_eq {alnum : Char → Bool} {text p lb la q : Str} {s : Option Str} (h : Cut text p lb la q) (hs : SectionAt p s) :
    context alnum text (bytes (p ++ lb)) = .ok ⟨lb, la, s, inTag lb, tagAt alnum lb⟩ := by
  have e : text = (p ++ lb) ++ (la ++ q) := by rw [h.eq]; simp
  unfold context
  have hb : bytes (p ++ lb) = byteLen (p ++ lb) := rfl
  rw [hb, e, takeBytes_append, dropBytes_append]
  dsimp only
  rw [takeWhile_line h.after h.below]
  rcases h.above with rfl | hp
  · have hr : rsplit '\n' lb = none := rsplit_none.2 h.before
    rw [List.nil_append, hr]
    have := section_eq hs
    simp only [Option.getD_none, Option.isSome_none]
    rw [if_neg (by simp), this]
  · obtain ⟨a, rfl⟩ := List.getLast?_eq_some_iff.1 hp
    have hr : rsplit '\n' (a ++ ['\n'] ++ lb) = some (a, lb) := rsplit_some.2 ⟨by simp, h.before⟩
    rw [hr]
    have := section_eq hs
    simp only [Option.getD_some, Option.isSome_some, if_pos]
    rw [this]

theorem cut_exists (before after : Str) : ∃ p lb la q, Cut (before ++ after) p lb la q ∧ before = p ++ lb := by
  have h1 : ∃ p lb, before = p ++ lb ∧ '\n' ∉ lb ∧ (p = [] ∨ p.getLast? = some '\n') := by
    cases hr : rsplit '\n' before with
    | none => exact ⟨[], before, rfl, rsplit_none.1 hr, .inl rfl⟩
    | some ab =>
      obtain ⟨a, b⟩ := ab
      obtain ⟨e, hb⟩ := rsplit_some.1 hr
      exact ⟨a ++ ['\n'], b, by rw [e]; simp, hb, .inr (by simp)⟩
  obtain ⟨p, lb, e, h2, h3⟩ := h1
  obtain ⟨la, q, e2, ht, ha, hb⟩ := Highlight.takeWhile_split (fun c => c != '\n') after
  refine ⟨p, lb, la, q, ⟨by rw [e, e2]; simp, h2, fun hm => ?_, h3, fun c hc => ?_⟩, e⟩
  · have := ha _ hm
    simp at this
  · have := hb c hc
    simpa using this

/-! ## Items -/

theorem mem_number {l : List What} {w : What} : (∃ i ∈ number l, i.what = w) ↔ w ∈ l := by
  unfold number
  constructor
  · rintro ⟨i, hi, rfl⟩
    obtain ⟨⟨x, k⟩, h1, rfl⟩ := List.mem_map.1 hi
    exact List.fst_mem_of_mem_zipIdx h1
  · intro h
    obtain ⟨k, hk, e⟩ := List.mem_iff_getElem.1 h
    refine ⟨⟨w, k⟩, List.mem_map.2 ⟨(w, k), ?_, rfl⟩, rfl⟩
    rw [List.mem_zipIdx_iff_getElem?]
    rw [List.getElem?_eq_getElem hk, e]

theorem begins_iff {lower : Str → Str} {typed n : Str} :
    (decide (typed = []) || startsWith (lower typed) (lower n)) = true ↔ Begins lower typed n := by
  rw [Bool.or_eq_true, decide_eq_true_eq, startsWith_iff]
  rfl

theorem unindented_iff {line s : Str} : Unindented line s ↔ trimStart line = s := by
  obtain ⟨a, b, e, ht, ha, hb⟩ := Highlight.takeWhile_split isWs line
  have hd : trimStart line = b := by
    unfold trimStart
    have := List.takeWhile_append_dropWhile (p := isWs) (l := line)
    rw [ht] at this
    rw [e] at this
    rw [e]
    exact List.append_cancel_left this
  constructor
  · rintro ⟨w, e2, hw, hs⟩
    unfold trimStart
    rw [e2]
    have : ∀ (w : Str), (∀ c ∈ w, White c) → (w ++ s).dropWhile isWs = s := by
      intro w
      induction w with
      | nil =>
        intro _
        cases s with
        | nil => rfl
        | cons c s =>
          have : isWs c = false := Bool.eq_false_iff.2 fun h => hs c rfl ((SrtDoc.white_iff c).1 h)
          rw [List.nil_append, List.dropWhile_cons, if_neg (by simp [this])]
      | cons c w ih =>
        intro hw
        rw [List.cons_append, List.dropWhile_cons, if_pos ((SrtDoc.white_iff c).2 (hw c List.mem_cons_self))]
        exact ih fun x hx => hw x (List.mem_cons_of_mem _ hx)
    exact this w hw
  · intro h
    rw [hd] at h
    subst h
    refine ⟨a, e, fun c hc => (SrtDoc.white_iff c).1 (ha c hc), fun c hc hw => ?_⟩
    have := hb c hc
    rw [(SrtDoc.white_iff c).2 hw] at this
    cases this

/-- The items of the other groups. -/
def others (lower : Str → Str) (cfg : Config) (script : List Parser.Section) (c : Ctx) : List Item :=
  (match c.sec with
      | some sec => if c.inTag = false ∧ cfg.fields = true then fieldItems lower sec c else []
      | none => []) ++
    (if c.inTag = true ∧ cfg.tags = true then tagItems c else []) ++
    (if inStyleField c = true ∧ cfg.styles = true then styleItems (styleNames script) else [])

theorem gather_eq (lower : Str → Str) (cfg : Config) (script : List Parser.Section) (c : Ctx) :
    gather lower cfg script c = if c.line = [] ∨ c.line.head? = some '[' then
      (match sectionItems lower c with
        | .ok l => .ok (l ++ others lower cfg script c)
        | .err => .err
        | .panic => .panic) else .ok (others lower cfg script c) := rfl

theorem field_mem {lower : Str → Str} {s lb la : Str} {t : Bool} {g : Option Str} {so : Option Str} {w : What} :
    (∃ i ∈ fieldItems lower s ⟨lb, la, so, t, g⟩, i.what = w) ↔
      ∃ n ∈ fieldsOf s, (∃ typed, Unindented (lb ++ la) typed ∧ Begins lower typed n) ∧ w = ⟨n, n, .field⟩ := by
  unfold fieldItems
  dsimp only
  rw [mem_number, List.mem_map]
  constructor
  · rintro ⟨n, h, rfl⟩
    obtain ⟨h1, h2⟩ := List.mem_filter.1 h
    exact ⟨n, h1, ⟨_, unindented_iff.2 rfl, begins_iff.1 h2⟩, rfl⟩
  · rintro ⟨n, h1, ⟨typed, h2, h3⟩, rfl⟩
    refine ⟨n, List.mem_filter.2 ⟨h1, ?_⟩, rfl⟩
    have := unindented_iff.1 h2
    show (decide (trimStart (lb ++ la) = []) || startsWith (lower (trimStart (lb ++ la))) (lower n)) = true
    rw [this]
    exact begins_iff.2 h3

theorem style_iff {lb la : Str} {sec : Option Str} {t : Bool} {g : Option Str} :
    inStyleField ⟨lb, la, sec, t, g⟩ = true ↔ sec = some "Events".toList ∧ lb.count ',' = 3 ∧
      ∃ s, Unindented (lb ++ la) s ∧ ∃ r, s = "Dialogue:".toList ++ r ∨ s = "Comment:".toList ++ r := by
  unfold inStyleField
  rw [Bool.and_eq_true, Bool.and_eq_true, beq_iff_eq, beq_iff_eq, Bool.or_eq_true]
  constructor
  · rintro ⟨⟨h1, h2⟩, h3⟩
    refine ⟨h1, h3, _, unindented_iff.2 rfl, ?_⟩
    rcases h2 with h | h
    · obtain ⟨r, e⟩ := startsWith_iff.1 h
      exact ⟨r, .inl e⟩
    · obtain ⟨r, e⟩ := startsWith_iff.1 h
      exact ⟨r, .inr e⟩
  · rintro ⟨h1, h3, s, h4, r, h5⟩
    have := unindented_iff.1 h4
    refine ⟨⟨h1, ?_⟩, h3⟩
    show startsWith _ (trimStart (lb ++ la)) = true ∨ startsWith _ (trimStart (lb ++ la)) = true
    rw [this]
    rcases h5 with h | h
    · exact .inl (startsWith_iff.2 ⟨r, h⟩)
    · exact .inr (startsWith_iff.2 ⟨r, h⟩)

theorem tag_mem {c : Ctx} {w : What} : (∃ i ∈ tagItems c, i.what = w) ↔
    ∃ t e, (t, e) ∈ tags ∧ (∃ r, t = tagPrefix c ++ r) ∧ w = ⟨e, '\\' :: t, .tag⟩ := by
  unfold tagItems
  rw [mem_number, List.mem_map]
  constructor
  · rintro ⟨⟨t, e⟩, h, rfl⟩
    obtain ⟨h1, h2⟩ := List.mem_filter.1 h
    refine ⟨t, e, h1, ?_, rfl⟩
    rw [Bool.or_eq_true, decide_eq_true_eq] at h2
    rcases h2 with h2 | h2
    · rw [h2]; exact ⟨t, rfl⟩
    · exact startsWith_iff.1 h2
  · rintro ⟨t, e, h1, h2, rfl⟩
    refine ⟨(t, e), List.mem_filter.2 ⟨h1, ?_⟩, rfl⟩
    rw [Bool.or_eq_true]
    exact .inr (startsWith_iff.2 h2)

/-- What tags must begin with, in a block. -/
theorem prefix_block {alnum : Char → Bool} {lb la b : Str} {sec : Option Str} (hb : InBlock lb b)
    (hgood : '\\' ∉ b → '\\' ∉ lb) :
    ('\\' ∉ b → tagPrefix ⟨lb, la, sec, inTag lb, tagAt alnum lb⟩ = []) ∧
    (∀ c typed rest, b = c ++ '\\' :: typed ++ rest → '\\' ∉ typed ++ rest → (∀ x ∈ typed, alnum x = true) →
      (∀ x, rest.head? = some x → alnum x = false) → tagPrefix ⟨lb, la, sec, inTag lb, tagAt alnum lb⟩ = typed) := by
  obtain ⟨a, e, h1, h2⟩ := id hb
  have hr := rsplit_some.2 ⟨e, h1⟩
  have hin : inTag lb = true := inTag_iff.2 ⟨b, hb⟩
  constructor
  · intro hn
    have ht : tagAt alnum lb = none := by
      unfold tagAt
      rw [if_pos hin, hr, Option.bind_some, rsplit_none.2 hn]
      rfl
    unfold tagPrefix
    rw [ht]
    dsimp only
    rw [rsplit_none.2 (hgood hn)]
    rfl
  · intro c typed rest e2 hn ha hx
    have e3 : b = c ++ '\\' :: (typed ++ rest) := by rw [e2]; simp
    have ht : tagAt alnum lb = some ((typed ++ rest).takeWhile alnum) := by
      unfold tagAt
      rw [if_pos hin, hr, Option.bind_some, rsplit_some.2 ⟨e3, hn⟩]
      rfl
    unfold tagPrefix
    rw [ht]
    dsimp only
    clear ht e3 e2 hn
    induction typed with
    | nil =>
      cases rest with
      | nil => rfl
      | cons x rest => rw [List.nil_append, List.takeWhile_cons, if_neg (by simp [hx x rfl])]
    | cons y typed ih =>
      rw [List.cons_append, List.takeWhile_cons, if_pos (ha y List.mem_cons_self), ih fun x hx => ha x (List.mem_cons_of_mem _ hx)]

theorem section_mem {lower : Str → Str} {lb la : Str} {so : Option Str} {t : Bool} {g : Option Str} {l : List Item}
    (h : sectionItems lower ⟨lb, la, so, t, g⟩ = .ok l) (hc : lb ++ la = [] ∨ (lb ++ la).head? = some '[') {w : What} :
    (∃ i ∈ l, i.what = w) ↔ ∃ n ∈ sections, ((lb = [] ∧ la = []) ∨ ∃ typed, lb = '[' :: typed ∧ Begins lower typed n) ∧
      w = ⟨'[' :: n, '[' :: n, .header⟩ := by
  unfold sectionItems Ctx.line at h
  dsimp only at h
  cases lb with
  | nil =>
    cases la with
    | nil =>
      have hl : number (sections.map fun n => ⟨'[' :: n, '[' :: n, .header⟩) = l := by
        have : Outcome.ok (number (sections.map fun n => ⟨'[' :: n, '[' :: n, .header⟩)) = Outcome.ok l := h
        exact Outcome.ok.inj this
      rw [← hl, mem_number, List.mem_map]
      constructor
      · rintro ⟨n, h1, rfl⟩
        exact ⟨n, h1, .inl ⟨rfl, rfl⟩, rfl⟩
      · rintro ⟨n, h1, _, rfl⟩
        exact ⟨n, h1, rfl⟩
    | cons x la =>
      rcases hc with hc | hc
      · cases hc
      · cases hc
        cases h
  | cons x typed =>
    rcases hc with hc | hc
    · cases hc
    · cases hc
      have hl := Outcome.ok.inj h
      rw [← hl, mem_number, List.mem_map]
      constructor
      · rintro ⟨n, h1, rfl⟩
        obtain ⟨h2, h3⟩ := List.mem_filter.1 h1
        exact ⟨n, h2, .inr ⟨typed, rfl, begins_iff.1 h3⟩, rfl⟩
      · rintro ⟨n, h1, h2, rfl⟩
        rcases h2 with ⟨h2, _⟩ | ⟨ty, e, h3⟩
        · cases h2
        · cases e
          exact ⟨n, List.mem_filter.2 ⟨h1, begins_iff.2 h3⟩, rfl⟩

theorem section_panic {lower : Str → Str} {lb la : Str} {so : Option Str} {t : Bool} {g : Option Str} :
    (sectionItems lower ⟨lb, la, so, t, g⟩ = .panic ↔ lb = [] ∧ la.head? = some '[') ∧
    sectionItems lower ⟨lb, la, so, t, g⟩ ≠ .err := by
  unfold sectionItems Ctx.line
  dsimp only
  cases lb with
  | nil =>
    cases la with
    | nil => exact ⟨⟨fun h => (by cases h), fun h => (by cases h.2)⟩, (by intro h; cases h)⟩
    | cons x la =>
      by_cases hx : x = '['
      · subst hx
        exact ⟨⟨fun _ => ⟨rfl, rfl⟩, fun _ => rfl⟩, by intro h; cases h⟩
      · have : (match ([] : Str) ++ x :: la with
          | '[' :: _ => (Outcome.panic : Outcome (List Item))
          | _ => .ok (number (sections.map fun n => ⟨'[' :: n, '[' :: n, .header⟩))) =
            .ok (number (sections.map fun n => ⟨'[' :: n, '[' :: n, .header⟩)) := by
          simp only [List.nil_append]
          split
          · rename_i e
            cases e
            exact absurd rfl hx
          · rfl
        constructor
        · constructor
          · intro h
            exfalso
            have h' := this.symm.trans h
            cases h'
          · intro h
            exact absurd (Option.some.inj h.2) hx
        · intro h
          have h' := this.symm.trans h
          cases h'
  | cons y lb =>
    constructor
    · constructor
      · intro h
        exfalso
        simp only [List.cons_append] at h
        split at h
        · cases h
        · cases h
      · intro h; cases h.1
    · intro h
      simp only [List.cons_append] at h
      split at h
      · cases h
      · cases h

/-- What is gathered is what is to be offered. -/
theorem gathered {alnum : Char → Bool} {lower : Str → Str} {cfg : Config} {script : List Parser.Section} {lb la : Str} {sec : Option Str}
    (hgood : ∀ b, InBlock lb b → '\\' ∉ b → '\\' ∉ lb) {l : List Item}
    (h : gather lower cfg script ⟨lb, la, sec, inTag lb, tagAt alnum lb⟩ = .ok l) (w : What) :
    (∃ i ∈ l, i.what = w) ↔ Offered alnum lower cfg (styleNames script) sec lb la w := by
  rw [gather_eq] at h
  -- the other groups
  have ho : (∃ i ∈ others lower cfg script ⟨lb, la, sec, inTag lb, tagAt alnum lb⟩, i.what = w) ↔
      (∃ s, sec = some s ∧ (∀ b, ¬ InBlock lb b) ∧ cfg.fields = true ∧ ∃ n ∈ fieldsOf s,
        (∃ typed, Unindented (lb ++ la) typed ∧ Begins lower typed n) ∧ w = ⟨n, n, .field⟩) ∨
      ((∃ b, InBlock lb b) ∧ cfg.tags = true ∧ ∃ t e, (t, e) ∈ tags ∧
        (∃ r, t = tagPrefix ⟨lb, la, sec, inTag lb, tagAt alnum lb⟩ ++ r) ∧ w = ⟨e, '\\' :: t, .tag⟩) ∨
      (inStyleField ⟨lb, la, sec, inTag lb, tagAt alnum lb⟩ = true ∧ cfg.styles = true ∧
        ∃ n ∈ styleNames script, w = ⟨n, n, .styleRef⟩) := by
    unfold others
    dsimp only
    have hsplit : ∀ (A B C : List Item), (∃ i ∈ A ++ B ++ C, i.what = w) ↔
        (∃ i ∈ A, i.what = w) ∨ (∃ i ∈ B, i.what = w) ∨ (∃ i ∈ C, i.what = w) := by
      intro A B C
      constructor
      · rintro ⟨i, hi, e⟩
        rcases List.mem_append.1 hi with hi | hi
        · rcases List.mem_append.1 hi with hi | hi
          · exact .inl ⟨i, hi, e⟩
          · exact .inr (.inl ⟨i, hi, e⟩)
        · exact .inr (.inr ⟨i, hi, e⟩)
      · rintro (⟨i, hi, e⟩ | ⟨i, hi, e⟩ | ⟨i, hi, e⟩)
        · exact ⟨i, List.mem_append_left _ (List.mem_append_left _ hi), e⟩
        · exact ⟨i, List.mem_append_left _ (List.mem_append_right _ hi), e⟩
        · exact ⟨i, List.mem_append_right _ hi, e⟩
    rw [hsplit]
    have hA : (∃ i ∈ (match sec with
        | some sec' => if inTag lb = false ∧ cfg.fields = true then fieldItems lower sec' ⟨lb, la, sec, inTag lb, tagAt alnum lb⟩ else []
        | none => []), i.what = w) ↔ (∃ s, sec = some s ∧ (∀ b, ¬ InBlock lb b) ∧ cfg.fields = true ∧ ∃ n ∈ fieldsOf s,
        (∃ typed, Unindented (lb ++ la) typed ∧ Begins lower typed n) ∧ w = ⟨n, n, .field⟩) := by
      cases sec with
      | none =>
        constructor
        · rintro ⟨i, hi, _⟩; cases hi
        · rintro ⟨s, e, _⟩; cases e
      | some s =>
        dsimp only
        by_cases hc : inTag lb = false ∧ cfg.fields = true
        · rw [if_pos hc, field_mem]
          constructor
          · intro h; exact ⟨s, rfl, inTag_false.1 hc.1, hc.2, h⟩
          · rintro ⟨s', e, _, _, h⟩; cases e; exact h
        · rw [if_neg hc]
          constructor
          · rintro ⟨i, hi, _⟩; cases hi
          · rintro ⟨s', e, h1, h2, _⟩
            exact absurd ⟨inTag_false.2 h1, h2⟩ hc
    have hB : (∃ i ∈ (if inTag lb = true ∧ cfg.tags = true then tagItems ⟨lb, la, sec, inTag lb, tagAt alnum lb⟩ else []), i.what = w) ↔
        ((∃ b, InBlock lb b) ∧ cfg.tags = true ∧ ∃ t e, (t, e) ∈ tags ∧
        (∃ r, t = tagPrefix ⟨lb, la, sec, inTag lb, tagAt alnum lb⟩ ++ r) ∧ w = ⟨e, '\\' :: t, .tag⟩) := by
      by_cases hc : inTag lb = true ∧ cfg.tags = true
      · rw [if_pos hc, tag_mem]
        constructor
        · intro h; exact ⟨inTag_iff.1 hc.1, hc.2, h⟩
        · intro h; exact h.2.2
      · rw [if_neg hc]
        constructor
        · rintro ⟨i, hi, _⟩; cases hi
        · rintro ⟨h1, h2, _⟩
          exact absurd ⟨inTag_iff.2 h1, h2⟩ hc
    have hC : (∃ i ∈ (if inStyleField ⟨lb, la, sec, inTag lb, tagAt alnum lb⟩ = true ∧ cfg.styles = true
        then styleItems (styleNames script) else []), i.what = w) ↔
        (inStyleField ⟨lb, la, sec, inTag lb, tagAt alnum lb⟩ = true ∧ cfg.styles = true ∧
        ∃ n ∈ styleNames script, w = ⟨n, n, .styleRef⟩) := by
      by_cases hc : inStyleField ⟨lb, la, sec, inTag lb, tagAt alnum lb⟩ = true ∧ cfg.styles = true
      · rw [if_pos hc]
        unfold styleItems
        rw [mem_number, List.mem_map]
        constructor
        · rintro ⟨n, h1, rfl⟩; exact ⟨hc.1, hc.2, n, h1, rfl⟩
        · rintro ⟨_, _, n, h1, rfl⟩; exact ⟨n, h1, rfl⟩
      · rw [if_neg hc]
        constructor
        · rintro ⟨i, hi, _⟩; cases hi
        · rintro ⟨h1, h2, _⟩
          exact absurd ⟨h1, h2⟩ hc
    rw [hA, hB, hC]
  -- from the other groups to the specification
  have ho2 : (∃ i ∈ others lower cfg script ⟨lb, la, sec, inTag lb, tagAt alnum lb⟩, i.what = w) ↔
      (Offered alnum lower cfg (styleNames script) sec lb la w ∧ w.kind ≠ .header) := by
    rw [ho]
    constructor
    · rintro (⟨s, e, h1, h2, n, h3, ⟨typed, h4, h5⟩, rfl⟩ | ⟨⟨b, hb⟩, h2, t, e, h3, ⟨r, h4⟩, rfl⟩ | ⟨h1, h2, n, h3, rfl⟩)
      · exact ⟨.field e h1 h2 h3 h4 h5, by intro h; cases h⟩
      · refine ⟨?_, by intro h; cases h⟩
        obtain ⟨p1, p2⟩ := prefix_block (alnum := alnum) (la := la) (sec := sec) hb (hgood b hb)
        by_cases hn : '\\' ∈ b
        · obtain ⟨c, d, e2, hd⟩ : ∃ c d, b = c ++ '\\' :: d ∧ '\\' ∉ d := by
            cases hr : rsplit '\\' b with
            | none => exact absurd hn (rsplit_none.1 hr)
            | some cd => exact ⟨cd.1, cd.2, rsplit_some.1 hr⟩
          obtain ⟨ty, rest, e3, _, ha, hx⟩ := Highlight.takeWhile_split alnum d
          have hp := p2 c ty rest (by rw [e2, e3]; simp) (by rw [← e3]; exact hd) ha hx
          rw [hp] at h4
          subst h4
          refine .tag (c := c) (rest := rest) ?_ (by rw [← e3]; exact hd) ha hx h2 h3
          have : b = c ++ '\\' :: ty ++ rest := by rw [e2, e3]; simp
          rw [← this]
          exact hb
        · exact .tags hb hn h2 h3
      · obtain ⟨g1, g2, s, g3, g4⟩ := style_iff.1 h1
        exact ⟨.style g1 g2 g3 g4 h2 h3, by intro h; cases h⟩
    · rintro ⟨hof, hk⟩
      cases hof with
      | sections => exact absurd rfl hk
      | section_ => exact absurd rfl hk
      | @field s n typed h1 h2 h3 h4 h5 h6 => exact .inl ⟨s, h1, h2, h3, n, h4, ⟨typed, h5, h6⟩, rfl⟩
      | @tags b t e h1 h2 h3 h4 =>
        refine .inr (.inl ⟨⟨b, h1⟩, h3, t, e, h4, ?_, rfl⟩)
        rw [(prefix_block (alnum := alnum) (la := la) (sec := sec) h1 (hgood b h1)).1 h2]
        exact ⟨t, rfl⟩
      | @tag c typed rest r e h1 h2 h3 h4 h5 h6 =>
        refine .inr (.inl ⟨⟨_, h1⟩, h5, _, e, h6, ?_, rfl⟩)
        rw [(prefix_block (alnum := alnum) (la := la) (sec := sec) h1 (hgood _ h1)).2 c typed rest rfl h2 h3 h4]
        exact ⟨r, rfl⟩
      | @style n s h1 h2 h3 h4 h5 h6 => exact .inr (.inr ⟨style_iff.2 ⟨h1, h2, s, h3, h4⟩, h5, n, h6, rfl⟩)
  have hhead : (∃ n ∈ sections, ((lb = [] ∧ la = []) ∨ ∃ typed, lb = '[' :: typed ∧ Begins lower typed n) ∧
      w = ⟨'[' :: n, '[' :: n, .header⟩) ↔ (Offered alnum lower cfg (styleNames script) sec lb la w ∧ w.kind = .header) := by
    constructor
    · rintro ⟨n, h1, h2 | ⟨typed, h2, h3⟩, rfl⟩
      · exact ⟨.sections h2.1 h2.2 h1, rfl⟩
      · exact ⟨.section_ h2 h1 h3, rfl⟩
    · rintro ⟨hof, hk⟩
      cases hof with
      | @sections n h1 h2 h3 => exact ⟨n, h3, .inl ⟨h1, h2⟩, rfl⟩
      | @section_ n typed h1 h2 h3 => exact ⟨n, h2, .inr ⟨typed, h1, h3⟩, rfl⟩
      | field => cases hk
      | tags => cases hk
      | tag => cases hk
      | style => cases hk
  by_cases hc : lb ++ la = [] ∨ (lb ++ la).head? = some '['
  · have hc' : (⟨lb, la, sec, inTag lb, tagAt alnum lb⟩ : Ctx).line = [] ∨
        (⟨lb, la, sec, inTag lb, tagAt alnum lb⟩ : Ctx).line.head? = some '[' := hc
    rw [if_pos hc'] at h
    cases hs : sectionItems lower ⟨lb, la, sec, inTag lb, tagAt alnum lb⟩ with
    | err => rw [hs] at h; cases h
    | panic => rw [hs] at h; cases h
    | ok l1 =>
      rw [hs] at h
      have hl := Outcome.ok.inj h
      rw [← hl]
      have : (∃ i ∈ l1 ++ others lower cfg script ⟨lb, la, sec, inTag lb, tagAt alnum lb⟩, i.what = w) ↔
          (∃ i ∈ l1, i.what = w) ∨ (∃ i ∈ others lower cfg script ⟨lb, la, sec, inTag lb, tagAt alnum lb⟩, i.what = w) := by
        constructor
        · rintro ⟨i, hi, e⟩
          rcases List.mem_append.1 hi with hi | hi
          · exact .inl ⟨i, hi, e⟩
          · exact .inr ⟨i, hi, e⟩
        · rintro (⟨i, hi, e⟩ | ⟨i, hi, e⟩)
          · exact ⟨i, List.mem_append_left _ hi, e⟩
          · exact ⟨i, List.mem_append_right _ hi, e⟩
      rw [this, section_mem hs hc, hhead, ho2]
      constructor
      · rintro (h | h) <;> exact h.1
      · intro h
        by_cases hk : w.kind = .header
        · exact .inl ⟨h, hk⟩
        · exact .inr ⟨h, hk⟩
  · have hc' : ¬ ((⟨lb, la, sec, inTag lb, tagAt alnum lb⟩ : Ctx).line = [] ∨
        (⟨lb, la, sec, inTag lb, tagAt alnum lb⟩ : Ctx).line.head? = some '[') := hc
    rw [if_neg hc'] at h
    have hl := Outcome.ok.inj h
    rw [← hl, ho2]
    constructor
    · intro h; exact h.1
    · intro h
      refine ⟨h, fun hk => ?_⟩
      have hno : ∀ typed, lb ≠ '[' :: typed := by
        intro typed e
        exact hc (.inr (by rw [e]; rfl))
      have hno2 : ¬ (lb = [] ∧ la = []) := by
        rintro ⟨e1, e2⟩
        exact hc (.inl (by rw [e1, e2]; rfl))
      obtain ⟨n, _, h2, _⟩ := hhead.2 ⟨h, hk⟩
      rcases h2 with h2 | ⟨typed, e, _⟩
      · exact hno2 h2
      · exact hno typed e

end Verif.Complete
