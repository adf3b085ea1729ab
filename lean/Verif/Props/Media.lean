import Verif.Lemmas.Media
import Verif.Props.Script
import Verif.Props.UU
/-! Property C76: embedded files. -/
namespace Verif
open Verif.Parser
open Verif.Media
open Verif.Spec.Script
open Verif.Spec.Media
open Verif.Spec.LineNo (Closed)
open Verif.Spec.InfoCmd (Stripped)

private theorem media_of {l : List Parser.Media} {n : Str} {d : List Str}
    (h : (n, d) ∈ l.map (fun m => (m.filename, m.data))) : ∃ m ∈ l, m.filename = n ∧ m.data = d := by
  obtain ⟨m, hm, e⟩ := List.mem_map.1 h
  exact ⟨m, hm, (Prod.mk.inj e).1, (Prod.mk.inj e).2⟩

private theorem files_mem {key : Str} (hk : GoodKey key) {body A B : List Str} {l name : Str} {data : List Nat}
    {fs : List (Str × List Str)} (h : FilesOf key body fs) (hbody : body = A ++ l :: (UU.encode name data ++ B)) {n : Str}
    (hl : Names1 key l n) (hA : A = [] ∨ ∃ m, A.getLast? = some m ∧ EndsData m) (hB : ∀ m, B.head? = some m → EndsData m)
    (hd : ∀ b ∈ data, b < 256) (hs : Survives data) : (n, UU.encode name data) ∈ fs := by
  obtain ⟨f1, f2, e, h2⟩ := files_skip hk h hbody hA
  obtain ⟨rest, e2⟩ := files_head h2 hl (encode_plain hs hd) hB
  rw [e, e2]; simp

/-- **C76 (embedded fonts), partial.** In every source of at most 50 MB whose headers are closed: a font written in a fonts
section as its name and the encoder's lines, after nothing or a blank line, and followed by nothing or a blank line, is
found by the parser under its name, and its data decode to the original bytes — if the length of the data is not one of
those lost (`Survives`).

Missing: the other lengths (`C76_length_violated`), several fonts in a row (`C76_second_violated`). -/
theorem C76_fonts_partial {src : Str} {segs : List Seg} (hsize : size src ≤ 50 * 1024 * 1024) (h : Document src segs)
    {g : Seg} (hg : g ∈ segs) (hr : Stripped g.raw "Fonts".toList) {A B : List Str} {l n name : Str} {data : List Nat}
    (hbody : g.body = A ++ l :: (UU.encode name data ++ B)) (hl : Names1 "fontname".toList l n)
    (hA : A = [] ∨ ∃ m, A.getLast? = some m ∧ EndsData m) (hB : ∀ m, B.head? = some m → EndsData m)
    (hd : ∀ b ∈ data, b < 256) (hs : Survives data) :
    ∃ s fonts m, parse src = some s ∧ Section.fonts fonts ∈ s.sections ∧ m ∈ fonts ∧ m.filename = n ∧ decodeData m = data := by
  obtain ⟨s, ss, us, h1, h2, h3, -⟩ := C09_sections_partial hsize h
  obtain ⟨fs, h4, h5⟩ := fonts_of h2 hg hr
  have hm := files_mem fontname_good h5 hbody hl hA hB hd hs
  rw [← h3] at h4
  obtain ⟨x, hx, ex⟩ := List.mem_map.1 h4
  cases x with
  | fonts fonts =>
    have ex' : fonts.map (fun m => (m.filename, m.data)) = fs := by simpa [said] using ex
    rw [← ex'] at hm
    obtain ⟨m, k1, k2, k3⟩ := media_of hm
    exact ⟨s, fonts, m, h1, hx, k1, k2, by unfold decodeData; rw [k3]; exact Props.C04_uu_roundtrip name data hd⟩
  | info | styles | events | graphics => simp [said] at ex

/-- **C76 (embedded graphics), partial.** The same for graphics.
Missing: lengths at which the last line looks like a remark (`C76_length_violated`) and a second file in the section
(`C76_second_violated`). -/
theorem C76_graphics_partial {src : Str} {segs : List Seg} (hsize : size src ≤ 50 * 1024 * 1024) (h : Document src segs)
    {g : Seg} (hg : g ∈ segs) (hr : Stripped g.raw "Graphics".toList) {A B : List Str} {l n name : Str} {data : List Nat}
    (hbody : g.body = A ++ l :: (UU.encode name data ++ B)) (hl : Names1 "filename".toList l n)
    (hA : A = [] ∨ ∃ m, A.getLast? = some m ∧ EndsData m) (hB : ∀ m, B.head? = some m → EndsData m)
    (hd : ∀ b ∈ data, b < 256) (hs : Survives data) :
    ∃ s files m, parse src = some s ∧ Section.graphics files ∈ s.sections ∧ m ∈ files ∧ m.filename = n ∧
      decodeData m = data := by
  obtain ⟨s, ss, us, h1, h2, h3, -⟩ := C09_sections_partial hsize h
  obtain ⟨fs, h4, h5⟩ := graphics_of h2 hg hr
  have hm := files_mem filename_good h5 hbody hl hA hB hd hs
  rw [← h3] at h4
  obtain ⟨x, hx, ex⟩ := List.mem_map.1 h4
  cases x with
  | graphics fonts =>
    have ex' : fonts.map (fun m => (m.filename, m.data)) = fs := by simpa [said] using ex
    rw [← ex'] at hm
    obtain ⟨m, k1, k2, k3⟩ := media_of hm
    exact ⟨s, fonts, m, h1, hx, k1, k2, by unfold decodeData; rw [k3]; exact Props.C04_uu_roundtrip name data hd⟩
  | info | styles | events | fonts => simp [said] at ex

private theorem entry_lines (key name : Str) (ls : List Str) :
    entry key name ls = unlines ((key ++ ": ".toList ++ name) :: (ls ++ [[]])) := by
  have aux : ∀ ls : List Str, ls.flatMap (fun l => l ++ ['\n']) = unlines (ls ++ [[]]) := by
    intro ls
    induction ls with
    | nil => rfl
    | cons l ls ih => rw [List.flatMap_cons, ih, List.cons_append, unlines_cons (by simp)]; simp
  rw [entry, aux, unlines_cons (by simp)]; simp

private theorem encode_no_nl {name : Str} {data : List Nat} (hn : '\n' ∉ name) (hd : ∀ b ∈ data, b < 256) :
    ∀ l ∈ UU.encode name data, '\n' ∉ l ∧ ¬ Opens l := by
  intro l hl
  have p : ∀ {c : Char} {x : Str}, ¬ isWs c = true → c ≠ '[' → ¬ Opens (c :: x) := by
    rintro c x h1 h2 ⟨w, r, e, hw⟩
    cases w with
    | nil => exact h2 (List.cons.inj e).1
    | cons d w => exact h1 ((SrtDoc.white_iff _).2 ((List.cons.inj e).1 ▸ hw d (by simp)))
  unfold UU.encode at hl
  simp only [List.cons_append, List.mem_cons, List.mem_append, List.mem_map, List.not_mem_nil, or_false] at hl
  rcases hl with rfl | ⟨c, hc, rfl⟩ | rfl | rfl
  · refine ⟨?_, p (by decide) (by decide)⟩
    have : '\n' ∉ "begin 644 ".toList := by decide
    simp only [List.mem_append, not_or]
    exact ⟨this, hn⟩
  · have hr := Props.C04_encoded_line_charset data hd c hc
    obtain ⟨h1, h2⟩ := mem_chunks (by decide) hc
    refine ⟨fun h => absurd (hr _ h).1 (by decide), ?_⟩
    unfold UU.encodeLine
    refine p (fun h => small_not_white (by omega) (by omega) ((SrtDoc.white_iff _).1 h)) ?_
    exact ofNat_ne (m := 91) (by omega) (by decide) (by omega)
  · exact ⟨by decide, p (by decide) (by decide)⟩
  · exact ⟨by decide, p (by decide) (by decide)⟩

/-- **C76 (adding a font), partial.** In every document without a fonts section whose headers are closed, after adding a font
(with data of a length that survives) the parser finds it under its name and its data decode to the bytes given.

Missing: documents that have a fonts section (`C76_second_violated`), the other lengths (`C76_length_violated`). -/
theorem C76_add_partial {c name : Str} {data : List Nat} (hc : Closed c) (hno : Lacks "[Fonts]".toList c)
    (hn : '\n' ∉ name) (hstr : Stripped name name) (hd : ∀ b ∈ data, b < 256) (hs : Survives data)
    (hsize : size (addBinary "[Fonts]".toList "fontname".toList name data c) ≤ 50 * 1024 * 1024) :
    ∃ s fonts m, parse (addBinary "[Fonts]".toList "fontname".toList name data c) = some s ∧
      Section.fonts fonts ∈ s.sections ∧ m ∈ fonts ∧ m.filename = name ∧ decodeData m = data := by
  have hp : parts "[Fonts]".toList c = none := by unfold parts; rw [splitOnceStr_none.2 hno]
  have hnl : ∀ l ∈ "[Fonts]".toList :: (("fontname".toList ++ ": ".toList ++ name) :: (UU.encode name data ++ [[]])), '\n' ∉ l := by
    intro l hl
    simp only [List.mem_cons, List.mem_append, List.not_mem_nil, or_false] at hl
    rcases hl with rfl | rfl | hl | rfl
    · decide
    · simp only [List.mem_append, not_or]
      exact ⟨⟨by decide, by decide⟩, hn⟩
    · exact (encode_no_nl hn hd l hl).1
    · decide
  have hop : ∀ l ∈ ("fontname".toList ++ ": ".toList ++ name) :: (UU.encode name data ++ [[]]), ¬ Opens l := by
    intro l hl
    simp only [List.mem_cons, List.mem_append, List.not_mem_nil, or_false] at hl
    rcases hl with rfl | hl | rfl
    · rintro ⟨w, r, e, hw⟩
      cases w with
      | nil => exact absurd (List.cons.inj e).1 (by decide)
      | cons d w => exact absurd ((SrtDoc.white_iff _).2 ((List.cons.inj e).1 ▸ hw d (by simp))) (by decide)
    · exact (encode_no_nl hn hd l hl).2
    · rintro ⟨w, r, e, -⟩; simp at e
  have hh : Header "[Fonts]".toList "Fonts".toList := ⟨[], [], rfl, by simp, by decide⟩
  obtain ⟨segs, o, hdoc⟩ := document_append hc hh hop hnl
  have e : addBinary "[Fonts]".toList "fontname".toList name data c =
      c ++ (if endsWith ['\n'] c then [] else ['\n']) ++
        unlines ("[Fonts]".toList :: (("fontname".toList ++ ": ".toList ++ name) :: (UU.encode name data ++ [[]]))) := by
    rw [addBinary, add, hp]
    simp only
    rw [unlines_cons (by simp), ← entry_lines]; simp
  rw [e] at hsize ⊢
  refine C76_fonts_partial (g := ⟨"Fonts".toList, o, _⟩) hsize hdoc (by simp)
    ((by decide : trim "Fonts".toList = "Fonts".toList) ▸ InfoCmd.stripped_trim "Fonts".toList)
    (A := []) (B := [[]]) (l := "fontname".toList ++ ": ".toList ++ name) (name := name) rfl ?_ (Or.inl rfl) ?_ hd hs
  · refine ⟨"fontname".toList, ' ' :: name, rfl, by decide,
      (by decide : trim "fontname".toList = "fontname".toList) ▸ InfoCmd.stripped_trim "fontname".toList, hstr.1, [' '], [], by simp, ?_, by simp⟩
    intro x hx
    rw [List.mem_singleton.1 hx]; exact (SrtDoc.white_iff _).1 (by decide)
  · intro m hm
    rw [← Option.some.inj hm]
    exact ⟨[], ⟨⟨by simp, by simp⟩, [], [], rfl, by simp, by simp⟩, Or.inl rfl⟩

example : Survives [0, 1, 0, 0] := by unfold Survives; decide

/-- The whole way on a small document. -/
example : (parse (addBinary "[Fonts]".toList "fontname".toList "a.ttf".toList [0, 1, 0, 0] "[Events]\n".toList)).map
    (fun s => s.sections.map (fun x => match x with | .fonts [m] => some (m.filename, decodeData m) | _ => none)) =
    some [none, some ("a.ttf".toList, [0, 1, 0, 0])] := by decide

/-- **C76 is violated (lengths)**: a font of 46 bytes comes back without its last byte; one of 27 bytes comes back empty. -/
theorem C76_length_violated : ∃ (data : List Nat) (b : Nat), data ≠ [] ∧
    (parse (addBinary "[Fonts]".toList "fontname".toList "a".toList (data ++ [b]) [])).map
      (fun s => s.sections.map (fun x => match x with | .fonts l => l.map decodeData | _ => [])) = some [[data]] :=
  ⟨List.replicate 45 7, 9, by decide, by decide⟩

/-- **C76 is violated (a second font)**: adding two fonts yields a single one when parsed, with the name of the first. -/
theorem C76_second_violated : ∃ (a b : Str) (x y : List Nat), Survives x ∧ Survives y ∧
    (parse (addBinary "[Fonts]".toList "fontname".toList b y (addBinary "[Fonts]".toList "fontname".toList a x []))).map
      (fun s => s.sections.map (fun x => match x with | .fonts l => l.map (·.filename) | _ => [])) = some [[a]] :=
  ⟨"a".toList, "b".toList, [1, 2, 3, 4], [5, 6], by unfold Survives; decide, by unfold Survives; decide, by decide⟩

end Verif
