import Verif.Spec.MediaHistory
import Verif.Props.MediaCmd
/-!
# C77 — a history of changes to the embedded files
-/
namespace Verif.Props.MediaHistory
open Verif Verif.Media
open Verif.Parser (unlines_cons)
open Verif.Spec.Script (unlines)
open Verif.Spec.Media
open Verif.Spec.MediaHistory
open Verif.Spec.InfoCmd (Stripped)
open Verif.Spec.EventCmd (Trimmed)

/-- One change through the command for it; `none`: the command fails. -/
def apply (hd key : Str) (op : Op) (c : Str) : Option Str :=
  match op with
  | .add n d => some (add hd key n d c)
  | .remove n => remove hd key n c
  | .clear => some (clear hd c)

/-- One change after another, as long as they succeed. -/
def run (hd key : Str) : List Op → Str → Option Str
  | [], c => some c
  | op :: ops, c =>
    match apply hd key op c with
    | some c' => run hd key ops c'
    | none => none

theorem place_lines {hd c pre x post : Str} {L : List Str} (h : Place hd c pre (hd ++ x) post) (hh : '\n' ∉ hd) (hL : L ≠ [])
    (h1 : ∀ l ∈ L, '\n' ∉ l ∧ l.head? ≠ some '[') : Place hd (pre ++ unlines (hd :: L) ++ post) pre (unlines (hd :: L)) post := by
  refine ⟨rfl, ⟨'\n' :: unlines L, unlines_cons hL⟩, ?_, ?_, h.after⟩
  · have hf := h.first
    rw [h.text] at hf
    have e1 : pre ++ unlines (hd :: L) ++ post = pre ++ hd ++ ('\n' :: unlines L ++ post) := by
      rw [unlines_cons hL]; simp
    rw [e1]
    refine first_stays (x := x ++ post) ?_
    intro a b e
    exact hf a b (by rw [← e]; simp)
  · rw [lacks_iff, Parser.split_unlines (by simp) (by
      intro l hl
      rcases List.mem_cons.1 hl with rfl | hl
      · exact hh
      · exact (h1 l hl).1)]
    exact fun l hl => (h1 l hl).2

/-- The lines of a sheet. -/
theorem sheet_lines {key : Str} {names : List Str} {L : List Str} {files : List File} (hkey : '\n' ∉ key ∧ key.head? = some 'f')
    (hs : Sheet key L files) (hf : ∀ f ∈ files, Fine key names f) : ∀ l ∈ L ++ [[]], '\n' ∉ l ∧ l.head? ≠ some '[' := by
  obtain ⟨k, fs, rfl, rfl⟩ := hs
  intro l hl
  simp only [List.mem_append, List.mem_replicate, List.mem_flatMap, List.mem_singleton] at hl
  rcases hl with (⟨_, rfl⟩ | ⟨f, hfm, hl⟩) | rfl
  · simp
  · have hf := hf (f.1, f.2.1) (List.mem_map.2 ⟨f, hfm, rfl⟩)
    unfold written at hl
    simp only [List.mem_cons, List.mem_append, List.mem_replicate] at hl
    rcases hl with rfl | hl | ⟨_, rfl⟩
    · unfold nameLine
      refine ⟨?_, ?_⟩
      · simp only [List.mem_append, not_or]
        exact ⟨⟨hkey.1, by decide⟩, hf.name.1⟩
      · cases key with
        | nil => simp at hkey
        | cons c key => simp at hkey; simp [hkey.2]
    · exact ⟨(hf.data l hl).1, (hf.data l hl).2.1⟩
    · simp
  · simp

theorem kind_key {hd key : Str} (hk : Kind hd key) : '\n' ∉ key ∧ key.head? = some 'f' := by
  obtain ⟨_, h, _, y, e⟩ := kind_ok hk
  exact ⟨h, by rw [e]; rfl⟩

/-- The names listed. -/
theorem sheet_named {key : Str} {names : List Str} {L : List Str} {files : List File}
    (hs : Sheet key L files) (hf : ∀ f ∈ files, Fine key names f) : (L ++ [[]]).filterMap (named key) = files.map (·.1) := by
  obtain ⟨k, fs, rfl, rfl⟩ := hs
  have hrep : ∀ k, (List.replicate k ([] : Str)).filterMap (named key) = [] := by
    intro k
    rw [List.filterMap_eq_nil_iff]
    intro l hl
    rw [(List.mem_replicate.1 hl).2]
    exact named_nil _
  have h1 : ∀ fs : List (Str × List Str × Nat), (∀ f ∈ fs, Fine key names (f.1, f.2.1)) →
      (fs.flatMap (written key)).filterMap (named key) = fs.map (·.1) := by
    intro fs
    induction fs with
    | nil => intro _; rfl
    | cons f fs ih =>
      intro h
      obtain ⟨g1, g2, _⟩ := h f (by simp)
      rw [List.flatMap_cons, List.filterMap_append, ih (fun g hg => h g (by simp [hg])), List.map_cons]
      have hn : named key (nameLine key f.1) = some f.1 := by
        unfold named nameLine
        rw [stripPrefix_append]
        simp [EventCmd.trimmed_trim g1.2]
      have hd : f.2.1.filterMap (named key) = [] := by
        rw [List.filterMap_eq_nil_iff]
        intro l hl
        unfold named
        cases e : stripPrefix (key ++ ": ".toList) l with
        | none => rfl
        | some x =>
          rw [stripPrefix_iff] at e
          exact absurd (show l = [] ++ (key ++ ":".toList) ++ (' ' :: x) by rw [e]; simp) ((g2 l hl).2.2 _ _)
      unfold written
      rw [List.filterMap_cons, hn, List.filterMap_append, hd, hrep]
      rfl
  rw [List.filterMap_append, List.filterMap_append, hrep, h1 fs (fun f hm => hf _ (List.mem_map.2 ⟨f, hm, rfl⟩))]
  simp [named_nil]

/-- One more empty line at the end. -/
theorem sheet_bump {key : Str} (k : Nat) (fs : List (Str × List Str × Nat)) :
    ∃ (k' : Nat) (fs' : List (Str × List Str × Nat)), List.replicate k [] ++ fs.flatMap (written key) ++ [[]] = List.replicate k' [] ++ fs'.flatMap (written key) ∧
      fs'.map (fun f => (f.1, f.2.1)) = fs.map (fun f => (f.1, f.2.1)) := by
  rcases List.eq_nil_or_concat fs with rfl | ⟨fs, f, rfl⟩
  · refine ⟨k + 1, [], ?_, rfl⟩
    simp [List.replicate_succ']
  · refine ⟨k, fs ++ [(f.1, f.2.1, f.2.2 + 1)], ?_, by simp⟩
    simp [written, List.replicate_succ', List.flatMap_append]

theorem key_colon {key n l : Str} (h : Lacks (key ++ ":".toList) l) : Lacks (nameLine key n) l := by
  intro a b e
  exact h a (' ' :: n ++ b) (by rw [e]; unfold nameLine; simp)

/-- One change. -/
theorem step {hd key c pre post : Str} {L : List Str} {files : List File} {names : List Str} {op : Op} (hk : Kind hd key)
    (h : Place hd c pre (unlines (hd :: (L ++ [[]]))) post) (hs : Sheet key L files) (hf : ∀ f ∈ files, Fine key names f)
    (hpost : Lacks ("\n".toList ++ key ++ ":".toList) post) (hop : op.Fine key names) :
    ∃ c' L', apply hd key op c = some c' ∧ Place hd c' pre (unlines (hd :: (L' ++ [[]]))) post ∧ Sheet key L' (change files op) ∧
      ∀ f ∈ change files op, Fine key names f := by
  obtain ⟨k1, k2, ⟨hx, k3⟩, _⟩ := kind_ok hk
  have hkk := kind_key hk
  have hsplit : unlines (hd :: (L ++ [[]])) = hd ++ ('\n' :: unlines (L ++ [[]])) := unlines_cons (by simp)
  have hpl := h
  rw [hsplit] at hpl
  cases op with
  | add n d =>
    have hf' : ∀ f ∈ files ++ [(n, d)], Fine key names f := by
      intro f hm
      rcases List.mem_append.1 hm with hm | hm
      · exact hf f hm
      · rw [List.mem_singleton.1 hm]; exact hop
    have hs' : Sheet key (L ++ nameLine key n :: d) (files ++ [(n, d)]) := by
      obtain ⟨k, fs, rfl, rfl⟩ := hs
      exact ⟨k, fs ++ [(n, d, 0)], by simp [written, List.flatMap_append], by simp⟩
    refine ⟨_, L ++ nameLine key n :: d, rfl, ?_, hs', hf'⟩
    have e : add hd key n d c = pre ++ unlines (hd :: (L ++ nameLine key n :: d ++ [[]])) ++ post := by
      rw [add, place_parts h]
      simp only
      rw [entry_lines']
      have : unlines (hd :: (L ++ [[]])) = unlines (hd :: L) ++ ['\n'] := by
        rw [show hd :: (L ++ [[]]) = (hd :: L) ++ [[]] by simp, unlines_snoc_append (by simp) (by simp)]
        rfl
      rw [this]
      have : unlines (hd :: (L ++ nameLine key n :: d ++ [[]])) = unlines (hd :: L) ++ '\n' :: unlines (nameLine key n :: (d ++ [[]])) := by
        rw [show hd :: (L ++ nameLine key n :: d ++ [[]]) = (hd :: L) ++ (nameLine key n :: (d ++ [[]])) by simp,
          unlines_snoc_append (by simp) (by simp)]
      rw [this]
      unfold nameLine
      simp
    rw [e]
    exact place_lines hpl k1 (by simp) (sheet_lines hkk hs' hf')
  | clear =>
    refine ⟨_, [], rfl, ?_, ⟨0, [], rfl, rfl⟩, by intro f hm; cases hm⟩
    have e : clear hd c = pre ++ unlines (hd :: ([] ++ [[]])) ++ post := by
      rw [clear, place_parts h]
      simp only
      have : splitOnce '\n' (unlines (hd :: (L ++ [[]])) ++ post) = some (hd, unlines (L ++ [[]]) ++ post) := by
        rw [hsplit]
        simpa using splitOnce_append (unlines (L ++ [[]]) ++ post) k1
      rw [this]
      simp only
      by_cases hlen : (unlines (hd :: (L ++ [[]]))).length > hd.length + 1
      · rw [if_pos hlen]
        simp [unlines]
      · rw [if_neg hlen, h.text]
        have : unlines (L ++ [[]]) = [] := by
          rw [hsplit] at hlen
          apply List.length_eq_zero_iff.1
          rw [List.length_append, List.length_cons] at hlen
          omega
        rw [hsplit, this]
        simp [unlines]
    rw [e]
    exact place_lines hpl k1 (by simp) (by intro l hl; rw [List.nil_append, List.mem_singleton] at hl; rw [hl]; simp)
  | remove n =>
    obtain ⟨hn, hnl⟩ := hop
    have hnolines : ∀ f ∈ files, f.1 ≠ n → ∀ l ∈ nameLine key f.1 :: f.2, Lacks (nameLine key n) l := by
      intro f hm hne l hl
      rcases List.mem_cons.1 hl with rfl | hl
      · exact (hf f hm).apart n hn (fun e => hne e.symm)
      · exact key_colon ((hf f hm).data l hl).2.2
    have hblank : Lacks (nameLine key n) [] := by
      intro a b e
      have := congrArg List.length e
      simp [nameLine] at this
    have hhd : Lacks (nameLine key n) hd := by
      intro a b e
      have : ':' ∈ hd := by rw [e]; simp [nameLine]
      revert this
      rcases hk with ⟨rfl, _⟩ | ⟨rfl, _⟩ <;> decide
    by_cases hin : ∃ f ∈ files, f.1 = n
    · -- the first file of that name
      obtain ⟨k, fs, rfl, rfl⟩ := hs
      have hfs : ∃ fs1 f fs2, fs = fs1 ++ f :: fs2 ∧ f.1 = n ∧ ∀ g ∈ fs1, g.1 ≠ n := by
        clear h hsplit hpl hf hnolines
        induction fs with
        | nil => obtain ⟨f, hm, _⟩ := hin; cases hm
        | cons f fs ih =>
          by_cases hfn : f.1 = n
          · exact ⟨[], f, fs, rfl, hfn, by simp⟩
          · obtain ⟨a, g, b, e1, e2, e3⟩ := ih (by
              obtain ⟨x, hm, hx⟩ := hin
              rw [List.map_cons] at hm
              rcases List.mem_cons.1 hm with rfl | hm
              · exact absurd hx hfn
              · exact ⟨x, hm, hx⟩)
            refine ⟨f :: a, g, b, by rw [e1]; rfl, e2, ?_⟩
            intro x hm
            rcases List.mem_cons.1 hm with rfl | hm
            · exact hfn
            · exact e3 x hm
      obtain ⟨fs1, f, fs2, rfl, rfl, hfirst⟩ := hfs
      have herase : change ((fs1 ++ f :: fs2).map (fun f => (f.1, f.2.1))) (.remove f.1) = (fs1 ++ fs2).map (fun f => (f.1, f.2.1)) := by
        show List.eraseP _ _ = _
        rw [List.map_append, List.eraseP_append_right]
        · simp
        · intro g hg
          obtain ⟨g', hg', rfl⟩ := List.mem_map.1 hg
          simpa using hfirst g' hg'
      have hfine : ∀ g ∈ (fs1 ++ fs2).map (fun f => (f.1, f.2.1)), Fine key names g := by
        intro g hg
        apply hf g
        simp only [List.map_append, List.map_cons, List.mem_append, List.mem_cons] at hg ⊢
        rcases hg with hg | hg
        · exact .inl hg
        · exact .inr (.inr hg)
      have hall := sheet_lines hkk ⟨k, fs1 ++ f :: fs2, rfl, rfl⟩ hf
      have hffine := hf (f.1, f.2.1) (by simp)
      have hA : ∀ l ∈ hd :: (List.replicate k [] ++ fs1.flatMap (written key)), Lacks (nameLine key f.1) l := by
        intro l hl
        simp only [List.mem_cons, List.mem_append, List.mem_replicate, List.mem_flatMap] at hl
        rcases hl with rfl | ⟨_, rfl⟩ | ⟨g, hg, hl⟩
        · exact hhd
        · exact hblank
        · unfold written at hl
          simp only [List.mem_cons, List.mem_append, List.mem_replicate] at hl
          have := hnolines (g.1, g.2.1) (by rw [List.map_append]; exact List.mem_append_left _ (List.mem_map.2 ⟨g, hg, rfl⟩)) (hfirst g hg) l
          rcases hl with rfl | hl | ⟨_, rfl⟩
          · exact this (by simp)
          · exact this (by simp [hl])
          · exact hblank
      have hD : ∀ l ∈ f.2.1 ++ List.replicate f.2.2 [] ++ [[]], ∀ r, l ≠ key ++ ":".toList ++ r := by
        intro l hl r e
        simp only [List.mem_append, List.mem_replicate, List.mem_singleton] at hl
        rcases hl with (hl | ⟨_, rfl⟩) | rfl
        · exact (hffine.data l hl).2.2 [] r (by rw [e]; simp)
        · have := congrArg List.length e; simp at this
        · have := congrArg List.length e; simp at this
      rw [herase]
      by_cases hlast : fs2 = []
      · subst hlast
        have hr := C77_remove_partial (name := f.1) (A := hd :: (List.replicate k [] ++ fs1.flatMap (written key)))
          (D := f.2.1 ++ List.replicate f.2.2 [] ++ [[]]) (B := []) hk h
          (by congr 1; simp [List.flatMap_append, written, nameLine]) (by simp)
          (by
            intro l hl
            simp only [List.cons_append, List.mem_cons] at hl
            rcases hl with rfl | hl
            · exact k1
            · refine (hall l ?_).1
              simpa [List.flatMap_append, written, nameLine] using hl)
          hA hD (.inr ⟨rfl, hpost⟩)
        refine ⟨_, List.replicate k [] ++ fs1.flatMap (written key), hr, ?_, ⟨k, fs1, rfl, by simp⟩, hfine⟩
        refine place_lines hpl k1 (by simp) ?_
        exact sheet_lines hkk ⟨k, fs1, rfl, rfl⟩ (by simpa using hfine)
      · obtain ⟨g, fs3, rfl⟩ : ∃ g fs3, fs2 = g :: fs3 := by
          cases fs2 with
          | nil => exact absurd rfl hlast
          | cons g fs3 => exact ⟨g, fs3, rfl⟩
        have hr := C77_remove_partial (name := f.1) (A := hd :: (List.replicate k [] ++ fs1.flatMap (written key)))
          (D := f.2.1 ++ List.replicate f.2.2 []) (B := (g :: fs3).flatMap (written key) ++ [[]]) hk h
          (by congr 1; simp [List.flatMap_append, written, nameLine]) (by simp)
          (by
            intro l hl
            simp only [List.cons_append, List.mem_cons] at hl
            rcases hl with rfl | hl
            · exact k1
            · refine (hall l ?_).1
              simpa [List.flatMap_append, written, nameLine] using hl)
          hA (fun l hl => hD l (List.mem_append_left _ hl))
          (.inl ⟨' ' :: g.1, _, by simp [written, nameLine]; rfl⟩)
        obtain ⟨k', fs', e1, e2⟩ := sheet_bump (key := key) k fs1
        have e3 : hd :: (List.replicate k [] ++ fs1.flatMap (written key)) ++ [] :: ((g :: fs3).flatMap (written key) ++ [[]]) =
            hd :: ((List.replicate k' [] ++ (fs' ++ g :: fs3).flatMap (written key)) ++ [[]]) := by
          have := congrArg (fun z => hd :: (z ++ ((g :: fs3).flatMap (written key) ++ [[]]))) e1
          simpa [List.flatMap_append] using this
        rw [e3] at hr
        have e4 : (fs1 ++ g :: fs3).map (fun f => (f.1, f.2.1)) = (fs' ++ g :: fs3).map (fun f => (f.1, f.2.1)) := by
          rw [List.map_append, ← e2, ← List.map_append]
        have hsheet : Sheet key (List.replicate k' [] ++ (fs' ++ g :: fs3).flatMap (written key))
            ((fs1 ++ g :: fs3).map (fun f => (f.1, f.2.1))) := ⟨k', fs' ++ g :: fs3, rfl, e4⟩
        exact ⟨_, _, hr, place_lines hpl k1 (by simp) (sheet_lines hkk hsheet hfine), hsheet, hfine⟩
    · -- no file of that name
      have hno : ∀ f ∈ files, f.1 ≠ n := fun f hm e => hin ⟨f, hm, e⟩
      have hch : change files (.remove n) = files := by
        unfold change
        apply List.eraseP_of_forall_not
        intro f hm
        simpa using hno f hm
      rw [hch]
      refine ⟨c, L, ?_, h, hs, hf⟩
      show remove hd key n c = some c
      rw [remove, place_parts h]
      simp only
      have : splitOnceStr (key ++ ": ".toList ++ n) (unlines (hd :: (L ++ [[]]))) = none := by
        rw [splitOnceStr_none]
        have hPn : '\n' ∉ nameLine key n := by
          unfold nameLine
          simp only [List.mem_append, not_or]
          exact ⟨⟨k2, by decide⟩, hnl⟩
        have hall : ∀ l ∈ hd :: (L ++ [[]]), Lacks (nameLine key n) l := by
          obtain ⟨k, fs, rfl, rfl⟩ := hs
          intro l hl
          simp only [List.mem_cons, List.mem_append, List.mem_replicate, List.mem_flatMap, List.not_mem_nil, or_false] at hl
          rcases hl with rfl | (⟨_, rfl⟩ | ⟨g, hg, hl⟩) | rfl
          · exact hhd
          · exact hblank
          · unfold written at hl
            simp only [List.mem_cons, List.mem_append, List.mem_replicate] at hl
            have := hnolines (g.1, g.2.1) (List.mem_map.2 ⟨g, hg, rfl⟩) (hno _ (List.mem_map.2 ⟨g, hg, rfl⟩)) l
            rcases hl with rfl | hl | ⟨_, rfl⟩
            · exact this (by simp)
            · exact this (by simp [hl])
            · exact hblank
          · exact hblank
        have key2 : ∀ M : List Str, (∀ l ∈ M, Lacks (nameLine key n) l) → Lacks (nameLine key n) (unlines M) := by
          intro M
          induction M with
          | nil => intro _; exact hblank
          | cons l M ih =>
            intro hM
            by_cases hne : M = []
            · subst hne; exact hM l (by simp)
            · rw [unlines_cons hne]
              exact InfoCmd.lacks_nl hPn (by simp [nameLine]) (hM l (by simp)) (ih (fun x hx => hM x (by simp [hx])))
        exact key2 _ hall
      rw [this]

/-- **C77 (histories, part).** Through any history of adding, removing and clearing, the embedded files of a document behave as
a list of files: every change succeeds, nothing outside the section is ever changed, and afterwards the section holds exactly the
files that adding to the end, taking out the first of that name, and taking out all leave, in that order and with the lines of
data they were added with; listing gives their names.

Missing: names that begin others or stand in data (`C77_remove_prefix_violated`), later sections of the kind
(`C77_remove_extent_violated`), sections that do not end with a line end (`C77_add_violated`). -/
theorem C77_history_partial {hd key pre post : Str} {names : List Str} (hk : Kind hd key)
    (hpost : Lacks ("\n".toList ++ key ++ ":".toList) post) (ops : List Op) (hops : ∀ op ∈ ops, op.Fine key names) :
    ∀ (c : Str) (L : List Str) (files : List File), Place hd c pre (unlines (hd :: (L ++ [[]]))) post → Sheet key L files →
      (∀ f ∈ files, Fine key names f) →
      ∃ c' L', run hd key ops c = some c' ∧ Place hd c' pre (unlines (hd :: (L' ++ [[]]))) post ∧ Sheet key L' (after files ops) ∧
        list hd key c' = (after files ops).map (·.1) := by
  induction ops with
  | nil =>
    intro c L files h hs hf
    refine ⟨c, L, rfl, h, hs, ?_⟩
    rw [list_eq h, Parser.split_unlines (by simp) (by
      intro l hl
      rcases List.mem_cons.1 hl with rfl | hl
      · exact (kind_ok hk).1
      · exact (sheet_lines (kind_key hk) hs hf l hl).1), List.filterMap_cons]
    have : named key hd = none := by
      obtain ⟨-, -, ⟨x, k3⟩, y, k4⟩ := kind_ok hk
      unfold named
      cases e : stripPrefix (key ++ ": ".toList) hd with
      | none => rfl
      | some z =>
        rw [stripPrefix_iff, k3, k4] at e
        exact absurd (List.cons.inj e).1 (by decide)
    rw [this]
    exact sheet_named hs hf
  | cons op ops ih =>
    intro c L files h hs hf
    obtain ⟨c1, L1, e1, h1, s1, f1⟩ := step hk h hs hf hpost (hops op (by simp))
    obtain ⟨c2, L2, e2, h2⟩ := ih (fun o ho => hops o (by simp [ho])) c1 L1 _ h1 s1 f1
    refine ⟨c2, L2, ?_, h2⟩
    unfold run
    rw [e1]
    exact e2

/-- A history. -/
def sampleOps : List Op :=
  [.add "b.ttf".toList ["x".toList], .remove "a.ttf".toList, .clear, .add "c.ttf".toList ["y".toList], .remove "zz".toList]

example : run "[Fonts]".toList "fontname".toList sampleOps "[Fonts]\nfontname: a.ttf\nq\n\n[Events]\n".toList =
    some "[Fonts]\nfontname: c.ttf\ny\n\n[Events]\n".toList ∧
    after [("a.ttf".toList, ["q".toList])] sampleOps = [("c.ttf".toList, ["y".toList])] := by decide +kernel

theorem sample_fine (n d : Char) (hn : n = 'a' ∨ n = 'b' ∨ n = 'c') (hd : d = 'q' ∨ d = 'x' ∨ d = 'y') :
    Fine "fontname".toList ["a.ttf".toList, "b.ttf".toList, "c.ttf".toList, "zz".toList] (n :: ".ttf".toList, [[d]]) := by
  refine ⟨⟨?_, ?_⟩, ?_, ?_⟩
  · rcases hn with rfl | rfl | rfl <;> (dsimp only; decide)
  · rcases hn with rfl | rfl | rfl <;> (unfold Trimmed Verif.Spec.EventCmd.White; simp)
  · intro l hl
    rw [List.mem_singleton.1 hl]
    refine ⟨?_, ?_, InfoCmd.lacks_len (by simp)⟩ <;> rcases hd with rfl | rfl | rfl <;> decide
  · intro m hm hne
    clear hd
    simp only [List.mem_cons, List.not_mem_nil, or_false] at hm
    rcases hm with rfl | rfl | rfl | rfl <;> rcases hn with rfl | rfl | rfl <;>
      first | exact absurd rfl hne | exact splitOnceStr_none.1 (by dsimp only; decide)

/-- The conditions hold of it. -/
example : Place "[Fonts]".toList "[Fonts]\nfontname: a.ttf\nq\n\n[Events]\n".toList []
      (unlines ("[Fonts]".toList :: (["fontname: a.ttf".toList, "q".toList] ++ [[]]))) "\n[Events]\n".toList ∧
    Sheet "fontname".toList ["fontname: a.ttf".toList, "q".toList] [("a.ttf".toList, ["q".toList])] ∧
    ∀ op ∈ sampleOps, op.Fine "fontname".toList ["a.ttf".toList, "b.ttf".toList, "c.ttf".toList, "zz".toList] := by
  refine ⟨parts_place (by decide) (by decide), ⟨0, [("a.ttf".toList, ["q".toList], 0)], by decide, by decide⟩, ?_⟩
  intro op hop
  simp only [sampleOps, List.mem_cons, List.not_mem_nil, or_false] at hop
  rcases hop with rfl | rfl | rfl | rfl | rfl
  · exact sample_fine 'b' 'x' (by simp) (by simp)
  · exact ⟨by simp, by decide⟩
  · exact True.intro
  · exact sample_fine 'c' 'y' (by simp) (by simp)
  · exact ⟨by simp, by decide⟩

end Verif.Props.MediaHistory
