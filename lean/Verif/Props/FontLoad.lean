import Verif.Spec.FontLoad
import Verif.Lemmas.StrX
import Verif.Lemmas.Ast
import Verif.Lemmas.Converter
/-! Property C155: the fonts a script brings. -/
namespace Verif.Props.FontLoad
open Verif
open Verif.Parser
open Verif.FontLoad
open Verif.Spec.FontLoad

theorem named_iff (key : Str) : named key = true ↔ SaysFont key := by
  unfold named
  rw [containsStr_iff]
  have cap : ∀ (c x y : Char), (x, y) ∈ [('f', 'F'), ('o', 'O'), ('n', 'N'), ('t', 'T')] → (Ast.lower c = x ↔ c = x ∨ c = y) := by
    intro c x y hxy
    rw [Ast.lower_eq]
    constructor
    · intro h
      rcases Converter.lower_cases c with h' | h'
      · exact .inl (h'.symm.trans h)
      · right
        rw [h] at h'
        simp only [List.mem_cons, Prod.mk.injEq, List.not_mem_nil, or_false] at hxy
        rcases hxy with ⟨rfl, rfl⟩ | ⟨rfl, rfl⟩ | ⟨rfl, rfl⟩ | ⟨rfl, rfl⟩ <;> simpa [Spec.Converter.capitals] using h'
    · simp only [List.mem_cons, Prod.mk.injEq, List.not_mem_nil, or_false] at hxy
      rcases hxy with ⟨rfl, rfl⟩ | ⟨rfl, rfl⟩ | ⟨rfl, rfl⟩ | ⟨rfl, rfl⟩ <;> rintro (rfl | rfl) <;> decide
  constructor
  · rintro ⟨a, b, h⟩
    have h := h.symm
    rw [show a ++ "font".toList ++ b = a ++ ('f' :: 'o' :: 'n' :: 't' :: b) by simp] at h
    obtain ⟨a', r, h1, h2, h3⟩ := List.append_eq_map_iff.1 h
    obtain ⟨f, r1, rfl, hf, h4⟩ := List.map_eq_cons_iff.1 h3
    obtain ⟨o, r2, rfl, ho, h5⟩ := List.map_eq_cons_iff.1 h4
    obtain ⟨n, r3, rfl, hn, h6⟩ := List.map_eq_cons_iff.1 h5
    obtain ⟨t, r4, rfl, ht, h7⟩ := List.map_eq_cons_iff.1 h6
    exact ⟨a', f, o, n, t, r4, by rw [h1]; simp, (cap f 'f' 'F' (by simp)).1 hf, (cap o 'o' 'O' (by simp)).1 ho,
      (cap n 'n' 'N' (by simp)).1 hn, (cap t 't' 'T' (by simp)).1 ht⟩
  · rintro ⟨a, f, o, n, t, b, rfl, hf, ho, hn, ht⟩
    refine ⟨a.map Ast.lower, b.map Ast.lower, ?_⟩
    simp only [List.map_append, List.map_cons, List.map_nil]
    rw [(cap f 'f' 'F' (by simp)).2 hf, (cap o 'o' 'O' (by simp)).2 ho, (cap n 'n' 'N' (by simp)).2 hn, (cap t 't' 'T' (by simp)).2 ht]
    rfl

theorem fonts_all {secs : List Section} (h : (secs.filter IsFonts).length ≤ 1) :
    (fontsOf secs).getD [] = allFonts secs := by
  induction secs with
  | nil => rfl
  | cons s l ih =>
    cases s with
    | fonts f =>
      have : l.filter IsFonts = [] := by
        apply List.length_eq_zero_iff.1
        rw [List.filter_cons_of_pos (by rfl), List.length_cons] at h
        omega
      have hn : allFonts l = [] := by
        unfold allFonts
        rw [List.flatMap_eq_nil_iff]
        intro x hx
        cases x with
        | fonts g => exact absurd (List.mem_filter.2 ⟨hx, rfl⟩) (by rw [this]; simp)
        | _ => rfl
      show f = f ++ allFonts l
      rw [hn, List.append_nil]
    | info f sp => exact ih h
    | styles f => exact ih h
    | events f => exact ih h
    | graphics f => exact ih h

theorem info_all {secs : List Section} (h : (secs.filter IsInfo).length ≤ 1) :
    (infoOf secs).getD [] = allFields secs := by
  induction secs with
  | nil => rfl
  | cons s l ih =>
    cases s with
    | info f sp =>
      have : l.filter IsInfo = [] := by
        apply List.length_eq_zero_iff.1
        rw [List.filter_cons_of_pos (by rfl), List.length_cons] at h
        omega
      have hn : allFields l = [] := by
        unfold allFields
        rw [List.flatMap_eq_nil_iff]
        intro x hx
        cases x with
        | info g sp => exact absurd (List.mem_filter.2 ⟨hx, rfl⟩) (by rw [this]; simp)
        | _ => rfl
      show f = f ++ allFields l
      rw [hn, List.append_nil]
    | fonts f => exact ih h
    | styles f => exact ih h
    | events f => exact ih h
    | graphics f => exact ih h

theorem load_eq (isFile : Str → Bool) (secs : List Section) (db : List Item) :
    load isFile secs db = db ++ ((fontsOf secs).getD []).map (fun m => .data (Media.decodeData m)) ++
      ((infoOf secs).getD []).filterMap (fun kv => if named kv.1 ∧ isFile (trim kv.2) then some (.file (trim kv.2)) else none) := by
  unfold load files embedded
  cases fontsOf secs <;> cases infoOf secs <;> simp

theorem inOrder_filterMap {α β : Type} {R : α → β → Prop} {f : α → Option β} (l : List α)
    (h : ∀ x ∈ l, ∀ y, f x = some y ↔ R x y) : InOrder R l (l.filterMap f) := by
  induction l with
  | nil => exact .nil
  | cons x l ih =>
    have ih := ih (fun y hy => h y (List.mem_cons_of_mem _ hy))
    rw [List.filterMap_cons]
    cases hf : f x with
    | none =>
      refine .skip (fun y hy => ?_) ih
      rw [(h x List.mem_cons_self y).2 hy] at hf
      exact absurd hf (by simp)
    | some y => exact .take ((h x List.mem_cons_self y).1 hf) ih

/-- **C155 (loaded), partial.** For a script with at most one section of fonts and one of script information: after the fonts of a
script have been loaded, the database holds what it held before; then for every embedded font, in order, the data it decodes to;
then every file whose path is the (trimmed) value of a field of the script information whose name contains `font`, in small letters
or capitals; and nothing else.  Missing: several such sections (`C155_second_violated`; for these see `C155_first_partial`). -/
theorem C155_loaded_partial (isFile : Str → Bool) (secs : List Section) (db : List Item)
    (h1 : (secs.filter IsFonts).length ≤ 1) (h2 : (secs.filter IsInfo).length ≤ 1) :
    ∃ paths, load isFile secs db = db ++ (allFonts secs).map (fun m => .data (UU.decode m.data)) ++ paths ∧
      InOrder (fun kv p => SaysFont kv.1 ∧ p = Item.file (trim kv.2) ∧ isFile (trim kv.2) = true) (allFields secs) paths := by
  refine ⟨((infoOf secs).getD []).filterMap
    (fun kv => if named kv.1 ∧ isFile (trim kv.2) then some (.file (trim kv.2)) else none), ?_, ?_⟩
  · rw [load_eq, fonts_all h1]; rfl
  rw [info_all h2]
  apply inOrder_filterMap
  intro kv _ p
  rw [← named_iff]
  by_cases hc : named kv.1 = true ∧ isFile (trim kv.2) = true
  · rw [if_pos hc]
    constructor
    · intro h; injection h with h; exact ⟨hc.1, h.symm, hc.2⟩
    · rintro ⟨_, h, _⟩; rw [h]
  · rw [if_neg hc]
    exact ⟨fun h => absurd h (by simp), fun h => absurd ⟨h.1, h.2.2⟩ hc⟩

theorem first_fonts {secs : List Section} {v : List Parser.Media} (h : First IsFonts secs (fun s => s = .fonts v) (v = [])) :
    (fontsOf secs).getD [] = v := by
  rcases h with ⟨a, s, b, rfl, ha, rfl⟩ | ⟨hn, rfl⟩
  · induction a with
    | nil => rfl
    | cons x a ih =>
      have := ha x (by simp)
      have ih := ih (fun y hy => ha y (by simp [hy]))
      cases x with
      | fonts l => exact absurd this (by simp [IsFonts])
      | _ => exact ih
  · induction secs with
    | nil => rfl
    | cons x a ih =>
      have := hn x (by simp)
      have ih := ih (fun y hy => hn y (by simp [hy]))
      cases x with
      | fonts l => exact absurd this (by simp [IsFonts])
      | _ => exact ih

theorem first_fields {secs : List Section} {v : List (Str × Str)} (h : First IsInfo secs (fun s => ∃ sp, s = .info v sp) (v = [])) :
    (infoOf secs).getD [] = v := by
  rcases h with ⟨a, s, b, rfl, ha, sp, rfl⟩ | ⟨hn, rfl⟩
  · induction a with
    | nil => rfl
    | cons x a ih =>
      have := ha x (by simp)
      have ih := ih (fun y hy => ha y (by simp [hy]))
      cases x with
      | info l y => exact absurd this (by simp [IsInfo])
      | _ => exact ih
  · induction secs with
    | nil => rfl
    | cons x a ih =>
      have := hn x (by simp)
      have ih := ih (fun y hy => hn y (by simp [hy]))
      cases x with
      | info l y => exact absurd this (by simp [IsInfo])
      | _ => exact ih

/-- **C155 (loaded), partial.** For any script: it is the first section of fonts and the first of script information that count.
Missing: further sections of these kinds, which are passed over (`C155_second_violated`). -/
theorem C155_first_partial (isFile : Str → Bool) (secs : List Section) (db : List Item)
    (fonts : List Parser.Media) (fields : List (Str × Str))
    (h1 : First IsFonts secs (fun s => s = .fonts fonts) (fonts = [])) (h2 : First IsInfo secs (fun s => ∃ sp, s = .info fields sp) (fields = [])) :
    ∃ paths, load isFile secs db = db ++ fonts.map (fun m => .data (UU.decode m.data)) ++ paths ∧
      InOrder (fun kv p => SaysFont kv.1 ∧ p = Item.file (trim kv.2) ∧ isFile (trim kv.2) = true) fields paths := by
  have e1 := first_fonts h1
  have e2 := first_fields h2
  refine ⟨((infoOf secs).getD []).filterMap
    (fun kv => if named kv.1 ∧ isFile (trim kv.2) then some (.file (trim kv.2)) else none), ?_, ?_⟩
  · rw [load_eq, e1]; rfl
  rw [e2]
  apply inOrder_filterMap
  intro kv _ p
  rw [← named_iff]
  by_cases hc : named kv.1 = true ∧ isFile (trim kv.2) = true
  · rw [if_pos hc]
    constructor
    · intro h; injection h with h; exact ⟨hc.1, h.symm, hc.2⟩
    · rintro ⟨_, h, _⟩; rw [h]
  · rw [if_neg hc]
    exact ⟨fun h => absurd h (by simp), fun h => absurd ⟨h.1, h.2.2⟩ hc⟩

/-- A script with a font and two fields. -/
def sample : List Section :=
  [.info [("Title".toList, "a.ttf".toList), ("Extra Fonts".toList, " a.ttf ".toList), ("font".toList, "b.ttf".toList)] ⟨0, 0, 0, 0⟩,
   .fonts [⟨"c.ttf".toList, ["#86)C".toList], ⟨0, 0, 0, 0⟩⟩]]

set_option maxRecDepth 20000 in
example : load (fun p => decide (p = "a.ttf".toList)) sample [] = [.data (UU.decode ["#86)C".toList]), .file "a.ttf".toList] ∧
    (sample.filter IsFonts).length ≤ 1 ∧ (sample.filter IsInfo).length ≤ 1 := by decide +kernel

example : First IsFonts sample (fun s => s = .fonts [⟨"c.ttf".toList, ["#86)C".toList], ⟨0, 0, 0, 0⟩⟩]) False :=
  Or.inl ⟨[_], _, [], rfl, by simp [IsFonts], rfl⟩

/-- **C155 violated (second section).** Of several sections of fonts only the first is loaded. -/
theorem C155_second_violated (isFile : Str → Bool) (a b : Parser.Media) :
    load isFile [.fonts [a], .fonts [b]] [] = [.data (Media.decodeData a)] := rfl

/-- **C155 violated (history).** The fonts of a script stay when another script is prepared: what a script without any fonts is
drawn with depends on the scripts prepared before it. -/
theorem C155_history_violated (isFile : Str → Bool) (a : Parser.Media) :
    load isFile [] (load isFile [.fonts [a]] []) = [.data (Media.decodeData a)] ∧ load isFile [] [] = [] := ⟨rfl, rfl⟩

set_option maxRecDepth 20000 in
/-- **C155 violated (any file).** Any field whose name contains `font` has a file read, wherever the path leads. -/
theorem C155_path_violated : load (fun p => decide (p = "/etc/shadow".toList)) [.info [("Fontmaker".toList, "/etc/shadow".toList)] ⟨0, 0, 0, 0⟩] [] =
    [.file "/etc/shadow".toList] := by decide +kernel

/-- **C155 (again).** Preparing a script keeps what was loaded before, in the same order, and what it adds does not depend on it. -/
theorem C155_adds (isFile : Str → Bool) (secs : List Section) (db : List Item) :
    load isFile secs db = db ++ load isFile secs [] := by
  rw [load_eq, load_eq]; simp

example : load (fun _ => true) sample [.file []] = .file [] :: load (fun _ => true) sample [] := by decide +kernel

end Verif.Props.FontLoad
