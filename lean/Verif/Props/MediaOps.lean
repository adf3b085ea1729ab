import Verif.Model.MediaOps
import Verif.Props.MediaHistory
import Verif.Lemmas.Handlers
/-!
# C77 — asking for embedded files
-/
namespace Verif.Props.MediaOps
open Verif Verif.Media Verif.MediaOps
open Verif.Spec.Script (unlines)
open Verif.Spec.Media
open Verif.Spec.MediaHistory
open Verif.Spec.InfoCmd (Stripped)

/-- The lines of the section that name a file. -/
inductive Naming (key : Str) : List Str → Nat → Prop
  | nil : Naming key [] 0
  | name {n ls k} : Naming key ls k → Naming key ((key ++ ": ".toList ++ n) :: ls) (k + 1)
  | other {l ls k} : (∀ n, l ≠ key ++ ": ".toList ++ n) → Naming key ls k → Naming key (l :: ls) k

theorem named_naming {key : Str} {L ns : List Str} (h : Named key L ns) : Naming key L ns.length := by
  induction h with
  | nil => exact .nil
  | name _ _ ih => exact .name ih
  | other h _ ih => exact .other h ih

theorem named_mem {key n : Str} {L ns : List Str} (h : Named key L ns) (hu : ∀ x y y', Stripped x y → Stripped x y' → y = y') :
    n ∈ ns ↔ ∃ x, (key ++ ": ".toList ++ x) ∈ L ∧ Stripped x n := by
  induction h with
  | nil => simp
  | @name m m' ls ns hs _ ih =>
    rw [List.mem_cons, ih]
    constructor
    · rintro (rfl | ⟨x, h1, h2⟩)
      · exact ⟨m, List.mem_cons_self, hs⟩
      · exact ⟨x, List.mem_cons_of_mem _ h1, h2⟩
    · rintro ⟨x, h1, h2⟩
      rcases List.mem_cons.1 h1 with h1 | h1
      · have : x = m := List.append_cancel_left h1
        subst this
        exact .inl (hu _ _ _ h2 hs)
      · exact .inr ⟨x, h1, h2⟩
  | @other l ls ns hl _ ih =>
    rw [ih]
    constructor
    · rintro ⟨x, h1, h2⟩
      exact ⟨x, List.mem_cons_of_mem _ h1, h2⟩
    · rintro ⟨x, h1, h2⟩
      rcases List.mem_cons.1 h1 with h1 | h1
      · exact absurd h1.symm (hl x)
      · exact ⟨x, h1, h2⟩

/-- **C77 (asking).** A file exists exactly if a line of the section is `key: name`, but for blanks around the name; the count is the number
of lines that name a file. -/
theorem C77_exists {hd key c pre sec post name : Str} {L : List Str} (h : Place hd c pre sec post) (hL : sec = unlines L)
    (hnl : ∀ l ∈ L, '\n' ∉ l) :
    (present hd key name c = true ↔ ∃ x, (key ++ ": ".toList ++ x) ∈ L ∧ Stripped x name) ∧ Naming key L (count hd key c) := by
  have hn := C77_list (key := key) h hL hnl
  refine ⟨?_, named_naming hn⟩
  unfold present
  rw [List.contains_iff_mem]
  exact named_mem hn (fun x y y' h1 h2 => (Verif.Handlers.stripped_eq h1).symm.trans (Verif.Handlers.stripped_eq h2))

example : present "[Fonts]".toList "fontname".toList "b".toList "[Fonts]\nfontname:  b \nx\n".toList = true ∧
    count "[Fonts]".toList "fontname".toList "[Fonts]\nfontname: b\nx\nfontname: b\n".toList = 2 := by decide +kernel

/-- **C77 (asking after changes, part).** Through any history of adding, removing and clearing, a file exists exactly if it is among those
that the history leaves, and the count is their number.

Missing: as for `C77_history_partial`. -/
theorem C77_asking_partial {hd key pre post : Str} {names : List Str} (hk : Kind hd key)
    (hpost : Lacks ("\n".toList ++ key ++ ":".toList) post) (ops : List Op) (hops : ∀ op ∈ ops, op.Fine key names)
    (c : Str) (L : List Str) (files : List File) (h : Place hd c pre (unlines (hd :: (L ++ [[]]))) post) (hs : Sheet key L files)
    (hf : ∀ f ∈ files, Fine key names f) :
    ∃ c', MediaHistory.run hd key ops c = some c' ∧ count hd key c' = (after files ops).length ∧
      ∀ name, present hd key name c' = true ↔ ∃ f ∈ after files ops, f.1 = name := by
  obtain ⟨c', L', e, -, -, hl⟩ := MediaHistory.C77_history_partial hk hpost ops hops c L files h hs hf
  refine ⟨c', e, by unfold count; rw [hl, List.length_map], fun name => ?_⟩
  unfold present
  rw [List.contains_iff_mem, hl, List.mem_map]

/-- The conditions hold of the history in `MediaHistory`, and this is what it gives. -/
example : (MediaHistory.run "[Fonts]".toList "fontname".toList MediaHistory.sampleOps "[Fonts]\nfontname: a.ttf\nq\n\n[Events]\n".toList).map
    (fun c => (present "[Fonts]".toList "fontname".toList "c.ttf".toList c, present "[Fonts]".toList "fontname".toList "a.ttf".toList c,
      count "[Fonts]".toList "fontname".toList c)) = some (true, false, 1) := by decide +kernel

/-- **C77 is violated (asking)**: a file added under a name with a blank at its end does not exist afterwards under this name. -/
theorem C77_exists_violated : present "[Fonts]".toList "fontname".toList "a ".toList
      (add "[Fonts]".toList "fontname".toList "a ".toList ["x".toList] "[Events]\n".toList) = false ∧
    present "[Fonts]".toList "fontname".toList "a".toList
      (add "[Fonts]".toList "fontname".toList "a ".toList ["x".toList] "[Events]\n".toList) = true := by decide +kernel

end Verif.Props.MediaOps
