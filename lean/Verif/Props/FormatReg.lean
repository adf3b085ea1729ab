import Verif.Spec.FormatReg
import Verif.Lemmas.Converter
import Verif.Lemmas.Resolved
/-!
# C147 — the registry of formats
-/
namespace Verif.Props.FormatReg
open Verif Verif.FormatReg
open Verif.Parser (Script parse toAss)
open Verif.Spec.Converter (Spelled capitals)
open Verif.Spec.FormatReg
open Verif.Spec.Resolved (InfoFields FirstField)
open Verif.Spec.FormatDoc (RawLine Eol file)

/-! ## Registered -/

theorem lower_lower (c : Char) : c.toLower.toLower = c.toLower := by
  rcases Converter.lower_cases c with h | h
  · rw [h, h]
  · have : ∀ p ∈ capitals, p.2.toLower = p.2 := by decide +kernel
    exact this _ h

theorem spelled_lower {x w : Str} (h : Spelled x w) : x.map Char.toLower = w.map Char.toLower := by
  induction h with
  | nil => rfl
  | same _ ih => rw [List.map_cons, List.map_cons, ih]
  | capital h _ ih =>
    rw [List.map_cons, List.map_cons, ih]
    have := Converter.lower_capital h
    have : _ = _ := congrArg Char.toLower this
    rw [lower_lower] at this
    rw [this]

theorem lists_iff (exts : List Str) (ext : Str) : lists exts ext = true ↔ Among ext exts := by
  unfold lists Among
  rw [List.any_eq_true]
  constructor
  · rintro ⟨e, he, h⟩
    have h := eq_of_beq h
    have idem : ∀ x : Str, (x.map Char.toLower).map Char.toLower = x.map Char.toLower := by
      intro x
      rw [List.map_map]
      exact List.map_congr_left fun c _ => lower_lower c
    exact ⟨e, he, e.map Char.toLower, (Converter.spelled_iff (idem e) e).2 rfl, (Converter.spelled_iff (idem e) ext).2 h.symm⟩
  · rintro ⟨e, he, w, h1, h2⟩
    exact ⟨e, he, by rw [beq_iff_eq, spelled_lower h1, spelled_lower h2]⟩

/-- The items of a kind. -/
def Reg.of (r : Reg) : Cls → List Item
  | .importer => r.importers
  | .exporter => r.exporters
  | .format => r.formats

theorem mem_register (r : Reg) (c d : Cls) (x y : Item) :
    x ∈ Reg.of (r.register (d, y)) c ↔ (c = d ∧ x = y) ∨ (x ∈ Reg.of r c ∧ (c = d → y.name ≠ x.name)) := by
  have key : ∀ m : List Item, x ∈ put m y ↔ x = y ∨ (x ∈ m ∧ y.name ≠ x.name) := by
    intro m
    unfold put
    rw [List.mem_cons, List.mem_filter]
    constructor
    · rintro (h | ⟨h1, h2⟩)
      · exact .inl h
      · exact .inr ⟨h1, fun e => of_decide_eq_true h2 e.symm⟩
    · rintro (h | ⟨h1, h2⟩)
      · exact .inl h
      · exact .inr ⟨h1, decide_eq_true fun e => h2 e.symm⟩
  cases c <;> cases d <;> simp [Reg.register, Reg.of, key]

theorem build_iff (c : Cls) (x : Item) : ∀ (l : List (Cls × Item)) (r : Reg), x ∈ Reg.of (l.foldl Reg.register r) c ↔
    Registered l c x ∨ (x ∈ Reg.of r c ∧ ∀ y, (c, y) ∈ l → y.name ≠ x.name)
  | [], r => by
    rw [List.foldl_nil]
    constructor
    · exact fun h => .inr ⟨h, nofun⟩
    · rintro (⟨a, b, h, _⟩ | h)
      · simp at h
      · exact h.1
  | (d, y) :: l, r => by
    rw [List.foldl_cons, build_iff c x l, mem_register]
    constructor
    · rintro (⟨a, b, h1, h2⟩ | ⟨⟨rfl, rfl⟩ | ⟨h1, h2⟩, h3⟩)
      · exact .inl ⟨(d, y) :: a, b, by rw [h1]; rfl, h2⟩
      · exact .inl ⟨[], l, rfl, h3⟩
      · refine .inr ⟨h1, fun z hz => ?_⟩
        rcases List.mem_cons.1 hz with e | hz
        · cases e; exact h2 rfl
        · exact h3 z hz
    · rintro (⟨a, b, h1, h2⟩ | ⟨h1, h2⟩)
      · cases a with
        | nil =>
          rw [List.nil_append, List.cons.injEq] at h1
          obtain ⟨e1, e2⟩ := h1
          cases e1
          subst e2
          exact .inr ⟨.inl ⟨rfl, rfl⟩, h2⟩
        | cons z a =>
          rw [List.cons_append, List.cons.injEq] at h1
          exact .inl ⟨a, b, h1.2, h2⟩
      · exact .inr ⟨.inr ⟨h1, fun e => h2 y (by rw [e]; simp)⟩, fun z hz => h2 z (List.mem_cons_of_mem _ hz)⟩

theorem registered_iff (l : List (Cls × Item)) (c : Cls) (x : Item) : x ∈ Reg.of (build l) c ↔ Registered l c x := by
  unfold build
  rw [build_iff]
  constructor
  · rintro (h | ⟨h, _⟩)
    · exact h
    · cases c <;> cases h
  · exact .inl

/-! ## Finding -/

theorem find_iff {ord : List Item → List Item} (ho : Order ord) (m : List Item) (p : Item → Bool) :
    ((ord m).find? p = none ↔ ∀ x ∈ m, p x = false) ∧ (∀ x, (ord m).find? p = some x → x ∈ m ∧ p x = true) := by
  constructor
  · rw [List.find?_eq_none]
    constructor
    · intro h x hx
      exact Bool.eq_false_iff.2 (h x ((ho m).mem_iff.2 hx))
    · intro h x hx
      rw [h x ((ho m).mem_iff.1 hx)]
      decide
  · intro x h
    exact ⟨(ho m).mem_iff.1 (List.mem_of_find?_eq_some h), List.find?_some h⟩

theorem find_core {ord : List Item → List Item} (ho : Order ord) (l : List (Cls × Item)) (c : Cls) (f : Item → List Str) (ext : Str)
    (r : Option Item) (hr : r = ((ord (Reg.of (build l) .format)).find? fun x => lists (f x) ext).or
      ((ord (Reg.of (build l) c)).find? fun x => lists (f x) ext)) :
    (r = none ↔ ∀ x, Registered l .format x ∨ Registered l c x → ¬ Among ext (f x)) ∧
    (∀ x, r = some x → Among ext (f x) ∧ (Registered l .format x ∨
      Registered l c x ∧ ∀ y, Registered l .format y → ¬ Among ext (f y))) := by
  obtain ⟨a1, a2⟩ := find_iff ho (Reg.of (build l) .format) fun x => lists (f x) ext
  obtain ⟨b1, b2⟩ := find_iff ho (Reg.of (build l) c) fun x => lists (f x) ext
  have nl : ∀ x, lists (f x) ext = false ↔ ¬ Among ext (f x) := fun x => by
    rw [← lists_iff, Bool.not_eq_true]
  subst hr
  constructor
  · rw [Option.or_eq_none_iff, a1, b1]
    constructor
    · rintro ⟨h1, h2⟩ x (hx | hx)
      · exact (nl x).1 (h1 x ((registered_iff l _ x).2 hx))
      · exact (nl x).1 (h2 x ((registered_iff l _ x).2 hx))
    · intro h
      exact ⟨fun x hx => (nl x).2 (h x (.inl ((registered_iff l _ x).1 hx))), fun x hx => (nl x).2 (h x (.inr ((registered_iff l _ x).1 hx)))⟩
  · intro x hx
    rcases Option.or_eq_some_iff.1 hx with h | ⟨h1, h2⟩
    · obtain ⟨m1, m2⟩ := a2 x h
      exact ⟨(lists_iff _ _).1 m2, .inl ((registered_iff l _ x).1 m1)⟩
    · obtain ⟨m1, m2⟩ := b2 x h2
      exact ⟨(lists_iff _ _).1 m2, .inr ⟨(registered_iff l _ x).1 m1, fun y hy => (nl y).1 (a1.1 h1 y ((registered_iff l _ y).2 hy))⟩⟩

/-- **C147, importers.** In whatever order the maps give their values: an importer is found for an extension exactly if one that is registered
lists it, capitals or not; the one found lists it; and a combined format goes before importers. -/
theorem C147_importer {ord : List Item → List Item} (ho : Order ord) (l : List (Cls × Item)) (ext : Str) :
    (findImporter ord (build l) ext = none ↔ ∀ x, Registered l .format x ∨ Registered l .importer x → ¬ Among ext x.imports) ∧
    (∀ x, findImporter ord (build l) ext = some x → Among ext x.imports ∧ (Registered l .format x ∨
      Registered l .importer x ∧ ∀ y, Registered l .format y → ¬ Among ext y.imports)) :=
  find_core ho l .importer (·.imports) ext _ rfl

/-- **C147, exporters.** The same for exporters. -/
theorem C147_exporter {ord : List Item → List Item} (ho : Order ord) (l : List (Cls × Item)) (ext : Str) :
    (findExporter ord (build l) ext = none ↔ ∀ x, Registered l .format x ∨ Registered l .exporter x → ¬ Among ext x.exports) ∧
    (∀ x, findExporter ord (build l) ext = some x → Among ext x.exports ∧ (Registered l .format x ∨
      Registered l .exporter x ∧ ∀ y, Registered l .format y → ¬ Among ext y.exports)) :=
  find_core ho l .exporter (·.exports) ext _ rfl

/-- The usual formats. -/
def usual : List (Cls × Item) :=
  [(.format, ⟨0, "ASS".toList, ["ass".toList], ["ass".toList]⟩), (.format, ⟨1, "SRT".toList, ["srt".toList], ["srt".toList]⟩),
   (.importer, ⟨2, "Mine".toList, ["txt".toList, "srt".toList], []⟩), (.format, ⟨3, "SRT".toList, ["srt".toList], ["srt".toList]⟩)]

example : (findImporter id (build usual) "Srt".toList).map (·.id) = some 3 ∧ (findImporter id (build usual) "TXT".toList).map (·.id) = some 2 ∧
    findExporter id (build usual) "txt".toList = none := by decide +kernel
example : Registered usual .format ⟨3, "SRT".toList, ["srt".toList], ["srt".toList]⟩ ∧ Among "SRT".toList ["srt".toList] :=
  ⟨⟨usual.take 3, [], rfl, nofun⟩, "srt".toList, by simp, "srt".toList, .same (.same (.same .nil)),
    .capital (by decide) (.capital (by decide) (.capital (by decide) .nil))⟩

/-- **C147, disagreement.** With two combined formats for an extension, which one is used depends on the order in which the hash map happens to give
them, which differs from run to run. -/
theorem C147_order_violated : ∃ l ext ord ord', Order ord ∧ Order ord' ∧
    findImporter ord (build l) ext ≠ findImporter ord' (build l) ext :=
  ⟨[(.format, ⟨0, "A".toList, ["srt".toList], []⟩), (.format, ⟨1, "B".toList, ["srt".toList], []⟩)], "srt".toList, id, List.reverse,
    fun l => List.Perm.refl l, fun l => List.reverse_perm l, by decide +kernel⟩

/-- **C147, one format.** If only one combined format lists the extension, it is used, whatever the order. -/
theorem C147_unique {ord : List Item → List Item} (ho : Order ord) (l : List (Cls × Item)) (ext : Str) (x : Item)
    (hx : Registered l .format x) (hl : Among ext x.imports) (hu : ∀ y, Registered l .format y → Among ext y.imports → y = x) :
    findImporter ord (build l) ext = some x := by
  obtain ⟨h1, h2⟩ := C147_importer ho l ext
  cases h : findImporter ord (build l) ext with
  | none => exact absurd hl (h1.1 h x (.inl hx))
  | some y =>
    obtain ⟨k1, k2 | ⟨_, k2⟩⟩ := h2 y h
    · rw [hu y k2 k1]
    · exact absurd hl (k2 x hx)

/-! ## Extensions -/

theorem mem_dedup (x : Str) : ∀ l : List Str, x ∈ dedup l ↔ x ∈ l
  | [] => Iff.rfl
  | [a] => Iff.rfl
  | a :: b :: l => by
    rw [dedup]
    by_cases h : a = b
    · rw [if_pos h, mem_dedup x (b :: l), h]
      simp
    · rw [if_neg h, List.mem_cons, mem_dedup x (b :: l), List.mem_cons (a := x) (b := a)]

theorem dedup_sorted : ∀ l : List Str, l.Pairwise (· ≤ ·) → (dedup l).Pairwise (· < ·)
  | [], _ => .nil
  | [a], _ => by simp [dedup]
  | a :: b :: l, h => by
    rw [List.pairwise_cons] at h
    have ih := dedup_sorted (b :: l) h.2
    rw [dedup]
    by_cases e : a = b
    · rw [if_pos e]; exact ih
    · rw [if_neg e, List.pairwise_cons]
      refine ⟨fun x hx => ?_, ih⟩
      have hx : x ∈ b :: l := (mem_dedup x _).1 hx
      have ab : a < b :=
        Std.lt_of_le_of_ne (h.1 b (by simp)) e
      rcases List.mem_cons.1 hx with rfl | hx
      · exact ab
      · exact Std.lt_of_lt_of_le ab ((List.pairwise_cons.1 h.2).1 x hx)

theorem sort_sorted (l : List Str) : (sortStr l).Pairwise (· ≤ ·) := by
  have := List.pairwise_mergeSort (le := fun a b : Str => decide (a ≤ b)) (fun a b c h1 h2 => by
      exact decide_eq_true (Std.le_trans (of_decide_eq_true h1) (of_decide_eq_true h2)))
    (fun a b => by
      rcases Std.le_total (a := a) (b := b) with h | h
      · simp [h]
      · simp [h]) l
  exact this.imp fun h => of_decide_eq_true h

theorem exts_core {ord : List Item → List Item} (ho : Order ord) (l : List (Cls × Item)) (c : Cls) (f : Item → List Str) (e : Str) :
    e ∈ dedup (sortStr ((ord (Reg.of (build l) .format)).flatMap f ++ (ord (Reg.of (build l) c)).flatMap f)) ↔
      ∃ x, (Registered l .format x ∨ Registered l c x) ∧ e ∈ f x := by
  rw [mem_dedup, sortStr, List.mem_mergeSort, List.mem_append, List.mem_flatMap, List.mem_flatMap]
  constructor
  · rintro (⟨x, h1, h2⟩ | ⟨x, h1, h2⟩)
    · exact ⟨x, .inl ((registered_iff l _ x).1 ((ho _).mem_iff.1 h1)), h2⟩
    · exact ⟨x, .inr ((registered_iff l _ x).1 ((ho _).mem_iff.1 h1)), h2⟩
  · rintro ⟨x, h1 | h1, h2⟩
    · exact .inl ⟨x, (ho _).mem_iff.2 ((registered_iff l _ x).2 h1), h2⟩
    · exact .inr ⟨x, (ho _).mem_iff.2 ((registered_iff l _ x).2 h1), h2⟩

/-- **C147, extensions.** The extensions reported are those of what is registered, each once, in alphabetical order; so the report does not depend on
the order of the maps. -/
theorem C147_extensions {ord : List Item → List Item} (ho : Order ord) (l : List (Cls × Item)) :
    (importExts ord (build l)).Pairwise (· < ·) ∧
    (∀ e, e ∈ importExts ord (build l) ↔ ∃ x, (Registered l .format x ∨ Registered l .importer x) ∧ e ∈ x.imports) ∧
    (exportExts ord (build l)).Pairwise (· < ·) ∧
    (∀ e, e ∈ exportExts ord (build l) ↔ ∃ x, (Registered l .format x ∨ Registered l .exporter x) ∧ e ∈ x.exports) :=
  ⟨dedup_sorted _ (sort_sorted _), exts_core ho l .importer (·.imports), dedup_sorted _ (sort_sorted _), exts_core ho l .exporter (·.exports)⟩

/-- **C147, extensions.** What is reported can be used, and what can be used is reported, but for capitals. -/
theorem C147_supported {ord : List Item → List Item} (ho : Order ord) (l : List (Cls × Item)) (ext : Str) :
    ((findImporter ord (build l) ext).isSome ↔ Among ext (importExts ord (build l))) ∧
    ((findExporter ord (build l) ext).isSome ↔ Among ext (exportExts ord (build l))) := by
  obtain ⟨_, h1, _, h2⟩ := C147_extensions ho l
  constructor
  · rw [← Option.ne_none_iff_isSome, Ne, (C147_importer ho l ext).1]
    constructor
    · intro h
      rw [Classical.not_forall] at h
      obtain ⟨x, hx⟩ := h
      rw [Classical.not_imp, Classical.not_not] at hx
      obtain ⟨hr, e, he, w, hw⟩ := hx
      exact ⟨e, (h1 e).2 ⟨x, hr, he⟩, w, hw⟩
    · rintro ⟨e, he, w, hw⟩ hall
      obtain ⟨x, hr, hx⟩ := (h1 e).1 he
      exact hall x hr ⟨e, hx, w, hw⟩
  · rw [← Option.ne_none_iff_isSome, Ne, (C147_exporter ho l ext).1]
    constructor
    · intro h
      rw [Classical.not_forall] at h
      obtain ⟨x, hx⟩ := h
      rw [Classical.not_imp, Classical.not_not] at hx
      obtain ⟨hr, e, he, w, hw⟩ := hx
      exact ⟨e, (h2 e).2 ⟨x, hr, he⟩, w, hw⟩
    · rintro ⟨e, he, w, hw⟩ hall
      obtain ⟨x, hr, hx⟩ := (h2 e).1 he
      exact hall x hr ⟨e, hx, w, hw⟩

/-! ## Files -/

/-- **C147, files.** Reading a file takes the importer found for its extension; writing one puts there what the exporter found for its extension
writes; a path without an extension, or with one that nothing lists, is refused, and the file stays as it was. -/
theorem C147_files {α : Type} (ord : List Item → List Item) (r : Reg) (ext : Option Str) (run : Item → Option α) (write : Item → Option Str)
    (file : Option Str) :
    (∀ a, importFile ord r ext run = .ok a ↔ ∃ e x, ext = some e ∧ findImporter ord r e = some x ∧ run x = some a) ∧
    (ext = none → importFile ord r ext run = .noExtension ∧ exportFile ord r ext write file = (.noExtension, file)) ∧
    (∀ e, ext = some e → findImporter ord r e = none → importFile ord r ext run = .unsupported) ∧
    (∀ e, ext = some e → findExporter ord r e = none → exportFile ord r ext write file = (.unsupported, file)) ∧
    (∀ e x s, ext = some e → findExporter ord r e = some x → write x = some s → exportFile ord r ext write file = (.ok (), some s)) := by
  refine ⟨fun a => ?_, ?_, ?_, ?_, ?_⟩
  · unfold importFile
    cases ext with
    | none => simp
    | some e =>
      simp only
      cases h : findImporter ord r e with
      | none => simp [h]
      | some x =>
        simp only
        cases h' : run x with
        | none => simp [h, h']
        | some b => simp [h, h']
  · rintro rfl; exact ⟨rfl, rfl⟩
  · rintro e rfl h; unfold importFile; simp only [h]
  · rintro e rfl h; unfold exportFile; simp only [h]
  · rintro e x s rfl h1 h2; unfold exportFile exportToPath; simp only [h1, h2]

/-- **C147, disagreement.** A file is emptied before its new contents are made: when the exporter fails, an error is reported and what the file held
is lost. -/
theorem C147_lost_violated (ord : List Item → List Item) (r : Reg) (e : Str) (x : Item) (h : findExporter ord r e = some x) (write : Item → Option Str)
    (hw : write x = none) (old : Str) : exportFile ord r (some e) write (some old) = (.failed, some []) := by
  unfold exportFile exportToPath
  simp only [h, hw]

/-! ## ASS -/

/-- **C147, ASS.** Importing a script keeps its text, and reports its lines, sections, title and type; exporting it with its formatting gives the text. -/
theorem C147_ass {eol : Str} (he : Eol eol) {ls : List Str} (h : ∀ l ∈ ls, RawLine l) (enc : Str) :
    (∀ m, importAss (file eol ls) = some m → m.text = file eol ls ∧ m.lines = ls.length ∧
      ∃ s, parse (file eol ls) = some s ∧ m.sections = s.sections.length ∧
        ∀ fields, InfoFields s.sections fields →
          (∀ v, m.title = some v ↔ FirstField fields "Title".toList v) ∧ ∀ v, m.scriptType = some v ↔ FirstField fields "ScriptType".toList v) ∧
    (importAss (file eol ls) = none ↔ parse (file eol ls) = none) ∧
    (∃ w, exportAss (file eol ls) true enc = some (file eol ls, ls.length, w) ∧ (w = false ↔ Spelled enc "utf-8".toList)) := by
  have hl : (lines (file eol ls)).length = ls.length := by rw [FormatDoc.lines_file he h]
  refine ⟨fun m hm => ?_, ?_, ?_⟩
  · unfold importAss at hm
    obtain ⟨s, h1, h2⟩ := Option.map_eq_some_iff.1 hm
    subst h2
    exact ⟨rfl, hl, s, h1, rfl, fun fields hf => by
      rw [← Resolved.firstInfo_of hf]; exact ⟨fun v => Resolved.field_iff, fun v => Resolved.field_iff⟩⟩
  · unfold importAss
    rw [Option.map_eq_none_iff]
  · refine ⟨!(enc.map Char.toLower == "utf-8".toList), ?_, ?_⟩
    · unfold exportAss
      rw [if_pos rfl, Option.map_some, hl]
    · rw [Converter.spelled_iff (by decide), Bool.not_eq_false', beq_iff_eq]

/-- **C147, ASS, normalized.** Without its formatting, the script is written as the parser understood it (what comes back from that is C75). -/
theorem C147_ass_normal (s enc : Str) : (exportAss s false enc).map (·.1) = (parse s).map toAss := by
  unfold exportAss
  rw [if_neg (by decide)]
  cases parse s <;> rfl

example : (exportAss "[Script Info]\nTitle: a\n\n; x\n".toList false "utf-8".toList).map (fun x => (x.2.1, x.2.2)) = some (2, false) := by
  decide +kernel

end Verif.Props.FormatReg
