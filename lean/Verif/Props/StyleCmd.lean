import Verif.Lemmas.StyleCmd
/-!
# C39, C67 — commands on styles
-/
namespace Verif.Props
open Verif Verif.Doc Verif.Pos Verif.StyleCmd Verif.InfoCmd
open Verif.Spec.EventCmd (Lacks csv)
open Verif.Spec.StyleCmd

theorem style_eq (name fields : Str) : style name fields = pattern name ++ ',' :: fields := by
  unfold style pattern; rfl

/-! ## Deleting -/

/-- **C39 (deleting, part).** Deleting a style removes exactly its line.  `x` is the text before the line,
`y` the text after it.  Missing: `Unseen` — an earlier place that reads `Style: ` followed by a longer name
is deleted instead (`C39_prefix_violated`). -/
theorem C39_delete_partial (d : Doc) (x y name fields : Str) (hx : Lead x) (hu : Unseen name x)
    (hn : '\n' ∉ name) (hf : '\n' ∉ fields) (hd : d.text = x ++ style name fields ++ '\n' :: y) :
    ∃ d', StyleCmd.delete name d = (.ok (), d') ∧ d'.text = x ++ y := by
  rw [style_eq] at hd
  have hfl := findLine_at (y := '\n' :: y) hx hu hn (rest := ',' :: fields) (by simp [hf]) (Or.inr rfl)
  obtain ⟨d', h1, h2⟩ := EventCmd.delete_at d (a := x) (m := pattern name ++ ',' :: fields ++ ['\n']) (b := y) (by rw [hd]; simp)
  refine ⟨d', ?_, h2⟩
  unfold StyleCmd.delete
  rw [hd, hfl]
  exact h1

/-- **C39.** The last line of a file may lack its line feed.
Missing: documents in which the name is found earlier, as part of another name or in a comment (`C39_prefix_violated`,
`C39_comment_violated`). -/
theorem C39_delete_last_partial (d : Doc) (x name fields : Str) (hx : Lead x) (hu : Unseen name x)
    (hn : '\n' ∉ name) (hf : '\n' ∉ fields) (hd : d.text = x ++ style name fields) :
    ∃ d', StyleCmd.delete name d = (.ok (), d') ∧ d'.text = x := by
  rw [style_eq] at hd
  have hfl := findLine_at (y := []) hx hu hn (rest := ',' :: fields) (by simp [hf]) (Or.inl rfl)
  obtain ⟨d', h1, h2⟩ := EventCmd.delete_at d (a := x) (m := pattern name ++ ',' :: fields) (b := []) (by rw [hd]; simp)
  refine ⟨d', ?_, by simpa using h2⟩
  unfold StyleCmd.delete
  rw [List.append_nil] at hfl
  rw [hd, hfl]
  simp only [nl, List.append_nil]
  exact h1

/-- **C39.** Deleting, cloning or editing a style that is not there is refused and changes nothing. -/
theorem C39_missing (d : Doc) (name target : Str) (us : List (Str × Str)) (h : Unseen name d.text) :
    StyleCmd.delete name d = (.err, d) ∧ StyleCmd.edit name us d = (.err, d) ∧ clone name target d = (.err, d) := by
  have hf : findLine (pattern name) d.text = none := by
    have h' : splitOnceStr (pattern name) d.text = none := splitOnceStr_none.2 h
    unfold findLine; rw [h']
  refine ⟨?_, ?_, ?_⟩
  · unfold StyleCmd.delete; rw [hf]
  · unfold StyleCmd.edit; rw [hf]
  · unfold clone; rw [hf]; split <;> rfl

def exStyles : Str := "[V4+ Styles]\nFormat: Name, Fontname, Fontsize\n".toList

example : ∃ d', StyleCmd.delete "B".toList ⟨(exStyles ++ "Style: A,Arial,20\n".toList) ++ style "B".toList "Arial,30".toList ++ '\n' :: "Style: C,x,1\n".toList,
      Stack.new ⟨50, 0, 100⟩⟩ = (.ok (), d') ∧
    d'.text = (exStyles ++ "Style: A,Arial,20\n".toList) ++ "Style: C,x,1\n".toList :=
  C39_delete_partial _ _ _ _ _ (Or.inr (by decide)) (splitOnceStr_none.1 (by decide)) (by decide) (by decide) rfl

example : ∃ d', StyleCmd.delete "B".toList ⟨exStyles ++ style "B".toList "Arial,30".toList, Stack.new ⟨50, 0, 100⟩⟩ = (.ok (), d') ∧
    d'.text = exStyles :=
  C39_delete_last_partial _ _ _ _ (Or.inr (by decide)) (splitOnceStr_none.1 (by decide)) (by decide) (by decide) rfl

example : StyleCmd.delete "B".toList ⟨exStyles, Stack.new ⟨50, 0, 100⟩⟩ = (.err, ⟨exStyles, Stack.new ⟨50, 0, 100⟩⟩) :=
  (C39_missing ⟨exStyles, Stack.new ⟨50, 0, 100⟩⟩ _ [] [] (splitOnceStr_none.1 (by decide))).1

/-- **C39 fails** when the name of an earlier style begins with the given name: deleting `Def` deletes the
style `Default` and leaves `Def`. -/
theorem C39_prefix_violated :
    ∃ d', StyleCmd.delete "Def".toList ⟨"[V4+ Styles]\nStyle: Default,a\nStyle: Def,b\n".toList, Stack.new ⟨50, 0, 100⟩⟩ = (.ok (), d') ∧
      d'.text = "[V4+ Styles]\nStyle: Def,b\n".toList :=
  ⟨_, rfl, by decide⟩

/-- **C39 fails** for a name mentioned anywhere before: a comment that mentions the style is deleted. -/
theorem C39_comment_violated :
    ∃ d', StyleCmd.delete "A".toList ⟨"; Style: A is for signs\n[V4+ Styles]\nStyle: A,b\n".toList, Stack.new ⟨50, 0, 100⟩⟩ = (.ok (), d') ∧
      d'.text = "[V4+ Styles]\nStyle: A,b\n".toList :=
  ⟨_, rfl, by decide⟩

/-! ## Cloning -/

/-- **C39 (cloning, part).** Cloning a style adds one line after it, the same line with the new name, and
changes nothing else.  Missing: `Unseen` for the source, as above; a new name that is the beginning of an
existing one (`C39_clone_refused_violated`). -/
theorem C39_clone_partial (d : Doc) (x y source target fields : Str) (hx : Lead x) (hu : Unseen source x)
    (hn : '\n' ∉ source) (hf : '\n' ∉ fields) (hy : Tail y) (hrep : Unseen source fields)
    (hd : d.text = x ++ style source fields ++ y) (ht : Unseen target d.text) :
    ∃ d', clone source target d = (.ok (), d') ∧
      d'.text = x ++ style source fields ++ '\n' :: style target fields ++ y := by
  rw [style_eq] at hd
  have hfl := findLine_at (y := y) hx hu hn (rest := ',' :: fields) (by simp [hf]) hy
  have hlk : Lacks (pattern source) (',' :: fields) := by
    have h1 : ∀ a b, (',' :: fields) ≠ a ++ pattern source ++ b := by
      intro a b e
      cases a with
      | nil => unfold pattern at e; simp at e
      | cons c a =>
        simp only [List.cons_append, List.cons.injEq] at e
        exact hrep a b e.2
    exact h1
  have hr : replaceAll (pattern source) (pattern target) (pattern source ++ ',' :: fields) = pattern target ++ ',' :: fields := by
    rw [replaceAll_prefix _ (pattern_ne source), replaceAll_lacks hlk]
  obtain ⟨d', h1, h2⟩ := insert_at d (a := x ++ (pattern source ++ ',' :: fields)) (b := y) hd
    ('\n' :: (pattern target ++ ',' :: fields))
  refine ⟨d', ?_, by rw [h2, style_eq, style_eq]⟩
  unfold clone
  rw [if_neg (by rw [Bool.not_eq_true]; exact containsStr_false.2 ht), hd, hfl]
  simp only
  rw [hr, ← byteLen_append]
  exact h1

example : ∃ d', clone "A".toList "Z".toList ⟨exStyles ++ style "A".toList "Arial,30".toList ++ "\n[Events]".toList, Stack.new ⟨50, 0, 100⟩⟩ = (.ok (), d') ∧
    d'.text = exStyles ++ style "A".toList "Arial,30".toList ++ '\n' :: style "Z".toList "Arial,30".toList ++ "\n[Events]".toList :=
  C39_clone_partial _ _ _ _ _ _ (Or.inr (by decide)) (splitOnceStr_none.1 (by decide)) (by decide) (by decide) (Or.inr (by decide))
    (splitOnceStr_none.1 (by decide)) rfl (splitOnceStr_none.1 (by decide))

/-- **C39.** A name in use is refused. -/
theorem C39_clone_existing (d : Doc) (x y source target fields : Str) (hd : d.text = x ++ style target fields ++ y) :
    clone source target d = (.err, d) := by
  unfold clone
  rw [if_pos]
  rw [containsStr_iff]
  exact ⟨x, ',' :: fields ++ y, by rw [hd, style_eq]; simp⟩

example : clone "B".toList "A".toList ⟨exStyles ++ style "A".toList "Arial,30".toList ++ "\n".toList, Stack.new ⟨50, 0, 100⟩⟩ =
    (.err, ⟨exStyles ++ style "A".toList "Arial,30".toList ++ "\n".toList, Stack.new ⟨50, 0, 100⟩⟩) :=
  C39_clone_existing _ _ _ _ _ _ rfl

/-- **C39 fails** for a new name that is the beginning of an existing one: `Def` is said to exist. -/
theorem C39_clone_refused_violated :
    (clone "Default".toList "Def".toList ⟨"[V4+ Styles]\nStyle: Default,a\n".toList, Stack.new ⟨50, 0, 100⟩⟩).1 = .err := by
  decide

/-! ## Editing -/

theorem stylesSection_at {h p s : Str} (hh : Header h (p ++ h ++ '\n' :: s)) (hl : Lacks h s) :
    stylesSection (p ++ h ++ '\n' :: s) = some (h ++ '\n' :: s) := by
  have key : ∀ (c : Char) (pt : Str), Lacks (c :: pt) s → '\n' ∉ c :: pt →
      fromLast (c :: pt) (p ++ (c :: pt) ++ '\n' :: s) = some ((c :: pt) ++ '\n' :: s) := by
    intro c pt h1 h2
    exact fromLast_at p (lacks_nl h2 (by simp) (lacks_len (by simp)) h1)
  unfold stylesSection
  rcases hh with rfl | ⟨rfl, h1⟩ | ⟨rfl, h1, h2⟩
  · have := key '[' "V4+ Styles]".toList hl (by decide)
    rw [show "[V4+ Styles]".toList = '[' :: "V4+ Styles]".toList from rfl, this]
  · have := key '[' "V4 Styles]".toList hl (by decide)
    rw [fromLast_none h1, show "[V4 Styles]".toList = '[' :: "V4 Styles]".toList from rfl, this]
  · have := key '[' "Styles]".toList hl (by decide)
    rw [fromLast_none h1, fromLast_none h2, show "[Styles]".toList = '[' :: "Styles]".toList from rfl, this]

/-- **C39 (editing, part).** Editing a style changes exactly the named fields of its line, as the format line
of its section names them.  `h` is the header of the section, `n0 :: names` are the names in the format line,
`f0 :: fs` the fields after the name.  Missing: `Unseen`, as above; a format line that does not follow the
header at once; a format line without blanks after its commas (`C39_edit_ignored_violated`); the name itself
(`C39_rename_violated`). -/
theorem C39_edit_partial (d : Doc) (p h s y name n0 : Str) (names fs : List Str) (us : List (Str × Str))
    (hdr : Header h (p ++ h ++ '\n' :: ("Format: ".toList ++ spaced (n0 :: names) ++ '\n' :: s)))
    (hlast : Lacks h ("Format: ".toList ++ spaced (n0 :: names) ++ '\n' :: s))
    (hn : '\n' ∉ name) (hc : ',' ∉ name) (hfs : fs ≠ []) (hfc : ∀ f ∈ fs, ',' ∉ f ∧ '\n' ∉ f)
    (hnc : ∀ x ∈ n0 :: names, ',' ∉ x ∧ '\n' ∉ x) (hnd : (n0 :: names).Nodup)
    (hx : Lead s) (hu : Unseen name (p ++ h ++ '\n' :: ("Format: ".toList ++ spaced (n0 :: names) ++ '\n' :: s)))
    (h0 : ∀ u ∈ us, u.1 ≠ n0) (hy : Tail y)
    (hd : d.text = p ++ h ++ '\n' :: ("Format: ".toList ++ spaced (n0 :: names) ++ '\n' :: s) ++ style name (csv fs) ++ y) :
    ∃ d' fs', StyleCmd.edit name us d = (.ok (), d') ∧ Updated names us fs fs' ∧
      d'.text = p ++ h ++ '\n' :: ("Format: ".toList ++ spaced (n0 :: names) ++ '\n' :: s) ++ style name (csv fs') ++ y := by
  rw [style_eq] at hd
  have hcsvnl : ∀ l : List Str, (∀ f ∈ l, '\n' ∉ f) → '\n' ∉ csv l := by
    intro l
    induction l with
    | nil => intro _; simp [csv]
    | cons a l ih =>
      intro hl
      cases l with
      | nil => simpa [csv] using hl a (by simp)
      | cons b l =>
        rw [csv]
        simp only [List.mem_append, List.mem_cons, not_or]
        exact ⟨hl a (by simp), by decide, ih (fun f hf => hl f (by simp [hf]))⟩
  have hspnl : ∀ l : List Str, (∀ f ∈ l, '\n' ∉ f) → '\n' ∉ spaced l := by
    intro l
    induction l with
    | nil => intro _; simp [spaced]
    | cons a l ih =>
      intro hl
      cases l with
      | nil => simpa [spaced] using hl a (by simp)
      | cons b l =>
        rw [spaced]
        simp only [List.mem_append, not_or]
        exact ⟨⟨hl a (by simp), by decide⟩, ih (fun f hf => hl f (by simp [hf]))⟩
  generalize hX : p ++ h ++ '\n' :: ("Format: ".toList ++ spaced (n0 :: names) ++ '\n' :: s) = X at *
  have hlead : Lead X := by
    rw [← hX]
    right
    rcases hx with rfl | hx
    · rw [show p ++ h ++ '\n' :: ("Format: ".toList ++ spaced (n0 :: names) ++ ['\n']) =
        (p ++ h ++ '\n' :: ("Format: ".toList ++ spaced (n0 :: names))) ++ ['\n'] by simp, List.getLast?_concat]
    · rw [show p ++ h ++ '\n' :: ("Format: ".toList ++ spaced (n0 :: names) ++ '\n' :: s) =
        (p ++ h ++ '\n' :: ("Format: ".toList ++ spaced (n0 :: names) ++ ['\n'])) ++ s by simp, List.getLast?_append, hx]
      rfl
  have hfl := findLine_at (y := y) hlead hu hn (rest := ',' :: csv fs)
    (by simp only [List.mem_cons, not_or]; exact ⟨by decide, hcsvnl fs (fun f hf => (hfc f hf).2)⟩) hy
  -- the line
  have hline : ∀ l : List Str, l ≠ [] → pattern name ++ ',' :: csv l = csv (pattern name :: l) := by
    intro l hl
    cases l with
    | nil => exact absurd rfl hl
    | cons a l => rw [csv]
  have hpc : ',' ∉ pattern name := by unfold pattern; simp [hc]
  have hsplit : splitOn ',' (pattern name ++ ',' :: csv fs) = pattern name :: fs := by
    rw [hline fs hfs]
    refine splitOn_csv (by simp) ?_
    intro z hz
    rcases List.mem_cons.1 hz with rfl | hz
    · exact hpc
    · exact (hfc z hz).1
  -- the updates
  have hupd := updated_foldl (names := n0 :: names) hnd us (pattern name :: fs)
  obtain ⟨hlen, hget⟩ := hupd
  cases hres : us.foldl (update (n0 :: names)) (pattern name :: fs) with
  | nil => rw [hres] at hlen; simp at hlen
  | cons g fs' =>
    rw [hres] at hlen hget
    have hg : g = pattern name := by
      rcases hget 0 (by simp) with ⟨u, hu1, hu2, _⟩ | ⟨_, h2⟩
      · simp at hu2; exact absurd hu2.symm (h0 u hu1)
      · simpa using h2
    have hup : Updated names us fs fs' := by
      refine ⟨by simpa using hlen, ?_⟩
      intro i hi
      have := hget (i + 1) (by simpa using hi)
      simpa using this
    have hfs' : fs' ≠ [] := by
      intro e; rw [e] at hup; have := hup.1; simp only [List.length_nil] at this; exact hfs (List.length_eq_zero_iff.1 this.symm)
    have hd2 : d.text = X ++ (pattern name ++ ',' :: csv fs) ++ y := hd
    obtain ⟨d', h1, h2⟩ := EventCmd.replace_at d hd2 (csv (g :: fs'))
    refine ⟨d', fs', ?_, hup, by rw [h2, style_eq, hg, hline fs' hfs']⟩
    unfold StyleCmd.edit
    rw [hd, hfl]
    simp only
    rw [hsplit, if_neg (by
      cases fs with
      | nil => exact absurd rfl hfs
      | cons a l => simp), ← hX, stylesSection_at (by rw [hX]; exact hdr) hlast]
    simp only
    have hfmt : splitOnceStr "Format:".toList (h ++ '\n' :: ("Format: ".toList ++ spaced (n0 :: names) ++ '\n' :: s) ++
        (pattern name ++ ',' :: csv fs) ++ y) =
        some (h ++ ['\n'], ' ' :: (spaced (n0 :: names) ++ '\n' :: (s ++ (pattern name ++ ',' :: csv fs) ++ y))) := by
      have hlk : Lacks "Format:".toList (h ++ ['\n']) := by
        rcases hdr with rfl | ⟨rfl, _⟩ | ⟨rfl, _, _⟩ <;> exact splitOnceStr_none.1 (by decide)
      have := first_of_lead (pat := "Format:".toList) (x := h ++ ['\n'])
        (' ' :: (spaced (n0 :: names) ++ '\n' :: (s ++ (pattern name ++ ',' :: csv fs) ++ y))) (by decide) (by decide)
        (Or.inr (by simp)) hlk
      rw [← this]
      congr 1
      simp
    rw [hfmt]
    simp only
    have htw : (' ' :: (spaced (n0 :: names) ++ '\n' :: (s ++ (pattern name ++ ',' :: csv fs) ++ y))).takeWhile (· ≠ '\n') =
        ' ' :: spaced (n0 :: names) := by
      rw [← List.cons_append]
      exact EventCmd.takeWhile_row (by
        simp only [List.mem_cons, not_or]
        exact ⟨by decide, hspnl _ (fun f hf => (hnc f hf).2)⟩) (Or.inr rfl)
    rw [htw]
    have hnames : formatNames ("Format:".toList ++ ' ' :: spaced (n0 :: names)) = n0 :: names := by
      unfold formatNames
      rw [show "Format:".toList ++ ' ' :: spaced (n0 :: names) = "Format: ".toList ++ spaced (n0 :: names) by simp,
        stripPrefix_append]
      exact splitStr_spaced (by simp) (fun z hz => (hnc z hz).1)
    rw [hnames, hres, joinStr_csv, hX]
    exact h1

example : ∃ d' fs', StyleCmd.edit "A".toList [("Fontsize".toList, "30".toList)]
      ⟨[] ++ "[V4+ Styles]".toList ++ '\n' :: ("Format: ".toList ++ spaced ["Name".toList, "Fontname".toList, "Fontsize".toList] ++ '\n' :: []) ++
        style "A".toList (csv ["Arial".toList, "20".toList]) ++ "\n[Events]".toList, Stack.new ⟨50, 0, 100⟩⟩ = (.ok (), d') ∧
    Updated ["Fontname".toList, "Fontsize".toList] [("Fontsize".toList, "30".toList)] ["Arial".toList, "20".toList] fs' ∧
    d'.text = [] ++ "[V4+ Styles]".toList ++ '\n' :: ("Format: ".toList ++ spaced ["Name".toList, "Fontname".toList, "Fontsize".toList] ++ '\n' :: []) ++
        style "A".toList (csv fs') ++ "\n[Events]".toList :=
  C39_edit_partial _ [] _ [] _ _ _ _ _ _ (Or.inl rfl) (splitOnceStr_none.1 (by decide)) (by decide) (by decide) (by decide)
    (by decide) (by decide) (by decide) (Or.inl rfl) (splitOnceStr_none.1 (by decide)) (by decide) (Or.inr rfl) rfl

/-- **C39 fails** for the name field: renaming a style through its name field drops `Style: ` from the line. -/
theorem C39_rename_violated :
    ∃ d', StyleCmd.edit "A".toList [("Name".toList, "B".toList)]
      ⟨"[V4+ Styles]\nFormat: Name, Fontname\nStyle: A,Arial\n".toList, Stack.new ⟨50, 0, 100⟩⟩ = (.ok (), d') ∧
      d'.text = "[V4+ Styles]\nFormat: Name, Fontname\nB,Arial\n".toList :=
  ⟨_, rfl, by decide⟩

/-- **C39 fails** for a format line without blanks after the commas (which the parser accepts): the edit is
reported as done, but nothing changes. -/
theorem C39_edit_ignored_violated :
    ∃ d', StyleCmd.edit "A".toList [("Fontname".toList, "Times".toList)]
      ⟨"[V4+ Styles]\nFormat: Name,Fontname\nStyle: A,Arial\n".toList, Stack.new ⟨50, 0, 100⟩⟩ = (.ok (), d') ∧
      d'.text = "[V4+ Styles]\nFormat: Name,Fontname\nStyle: A,Arial\n".toList :=
  ⟨_, rfl, by decide⟩

/-! ## Creating -/

theorem firstSection_at {h a b : Str} (hh : Header h (a ++ h ++ b)) (ha : Lead a) (hl : Lacks h a) :
    firstSection (a ++ h ++ b) = some (a, h ++ b) := by
  unfold firstSection
  rcases hh with rfl | ⟨rfl, h1⟩ | ⟨rfl, h1, h2⟩
  · rw [first_of_lead b (by decide) (by decide) ha hl]
  · rw [splitOnceStr_none.2 h1, first_of_lead b (by decide) (by decide) ha hl]
  · rw [splitOnceStr_none.2 h1, splitOnceStr_none.2 h2, first_of_lead b (by decide) (by decide) ha hl]

/-- **C67 (part).** Creating a style adds exactly its line, after the line that follows the header of the
styles section (which is where the format line should be).  Missing: a blank line or a comment between header
and format line (`C67_before_format_violated`), and a name already in use (`C67_duplicate_violated`). -/
theorem C67_create_partial (d : Doc) (a h f rest line : Str) (ha : Lead a) (hl : Lacks h a) (hf : '\n' ∉ f)
    (hh : Header h d.text) (hd : d.text = a ++ h ++ '\n' :: (f ++ '\n' :: rest)) :
    ∃ d', create line d = (.ok (), d') ∧ d'.text = a ++ h ++ '\n' :: (f ++ '\n' :: (line ++ '\n' :: rest)) := by
  have hn : '\n' ∉ h := by rcases hh with rfl | ⟨rfl, _⟩ | ⟨rfl, _, _⟩ <;> decide
  obtain ⟨d', h1, h2⟩ := insert_at d (a := a ++ h ++ '\n' :: (f ++ ['\n'])) (b := rest) (by rw [hd]; simp) (line ++ ['\n'])
  refine ⟨d', ?_, by rw [h2]; simp⟩
  unfold create
  rw [hd] at hh
  rw [hd, firstSection_at hh ha hl]
  simp only
  rw [splitOnce_append _ hn]
  simp only
  rw [splitOnce_append _ hf]
  simp only
  have hb : byteLen a + byteLen h + 1 + byteLen f + 1 = byteLen (a ++ h ++ '\n' :: (f ++ ['\n'])) := by
    simp only [byteLen_append, byteLen_cons, byteLen_nil]
    have : '\n'.utf8Size = 1 := by decide
    omega
  rw [hb]
  exact h1

example : ∃ d', create "Style: B,Arial,30".toList ⟨"[Script Info]\n\n".toList ++ "[V4+ Styles]".toList ++ '\n' :: ("Format: Name, Fontname, Fontsize".toList ++ '\n' :: "Style: A,x,1\n".toList),
      Stack.new ⟨50, 0, 100⟩⟩ = (.ok (), d') ∧
    d'.text = "[Script Info]\n\n".toList ++ "[V4+ Styles]".toList ++ '\n' :: ("Format: Name, Fontname, Fontsize".toList ++ '\n' :: ("Style: B,Arial,30".toList ++ '\n' :: "Style: A,x,1\n".toList)) :=
  C67_create_partial _ _ _ _ _ _ (Or.inr (by decide)) (splitOnceStr_none.1 (by decide)) (by decide) (Or.inl rfl) rfl

set_option maxRecDepth 20000 in
/-- **C67 (no section).** In a script without styles section, a new section with this one style is put before
the events section, or at the end if there is none. -/
theorem C67_create_section (d : Doc) (line : Str) (h1 : Lacks "[V4+ Styles]".toList d.text)
    (h2 : Lacks "[V4 Styles]".toList d.text) (h3 : Lacks "[Styles]".toList d.text) :
    ∃ d' a b fmt, create line d = (.ok (), d') ∧ d.text = a ++ b ∧
      d'.text = a ++ "\n[V4+ Styles]\nFormat: ".toList ++ fmt ++ '\n' :: (line ++ '\n' :: b) ∧ '\n' ∉ fmt ∧
      ((b = [] ∧ Lacks "[Events]".toList d.text) ∨ ∃ e, b = "[Events]".toList ++ e) := by
  have hfs : firstSection d.text = none := by
    unfold firstSection; rw [splitOnceStr_none.2 h1, splitOnceStr_none.2 h2, splitOnceStr_none.2 h3]
  have hnf : newFormat = "Format: ".toList ++ newFormat.drop 8 := by decide
  have hnl : '\n' ∉ newFormat.drop 8 := by decide
  generalize newFormat.drop 8 = nf at hnf hnl
  cases hs : splitOnceStr "[Events]".toList d.text with
  | none =>
    obtain ⟨d', k1, k2⟩ := insert_at d (a := d.text) (b := []) (by simp) ("\n[V4+ Styles]\n".toList ++ newFormat ++ ['\n'] ++ line ++ ['\n'])
    refine ⟨d', d.text, [], nf, ?_, by simp, ?_, hnl, Or.inl ⟨rfl, splitOnceStr_none.1 hs⟩⟩
    · unfold create; rw [hfs]; simp only; unfold createSection; rw [hs]; exact k1
    · rw [k2, hnf]; simp
  | some ab =>
    obtain ⟨a, b⟩ := ab
    have e := (splitOnceStr_some hs).1
    obtain ⟨d', k1, k2⟩ := insert_at d (a := a) (b := "[Events]".toList ++ b) (by rw [e]; simp) ("\n[V4+ Styles]\n".toList ++ newFormat ++ ['\n'] ++ line ++ ['\n'])
    refine ⟨d', a, "[Events]".toList ++ b, nf, ?_, by rw [e, List.append_assoc], ?_, hnl, Or.inr ⟨b, rfl⟩⟩
    · unfold create; rw [hfs]; simp only; unfold createSection; rw [hs]; exact k1
    · rw [k2, hnf]; simp

example : ∃ d' a b fmt, create "Style: B,Arial,30".toList ⟨"[Script Info]\n\n[Events]\n".toList, Stack.new ⟨50, 0, 100⟩⟩ = (.ok (), d') ∧
      "[Script Info]\n\n[Events]\n".toList = a ++ b ∧
      d'.text = a ++ "\n[V4+ Styles]\nFormat: ".toList ++ fmt ++ '\n' :: ("Style: B,Arial,30".toList ++ '\n' :: b) ∧ '\n' ∉ fmt ∧
      ((b = [] ∧ Lacks "[Events]".toList "[Script Info]\n\n[Events]\n".toList) ∨ ∃ e, b = "[Events]".toList ++ e) :=
  C67_create_section ⟨"[Script Info]\n\n[Events]\n".toList, Stack.new ⟨50, 0, 100⟩⟩ _
    (splitOnceStr_none.1 (by decide)) (splitOnceStr_none.1 (by decide)) (splitOnceStr_none.1 (by decide))

/-- **C67 fails** when a comment stands between header and format line: the style is put before the format
line. -/
theorem C67_before_format_violated :
    ∃ d', create "Style: B,x".toList ⟨"[V4+ Styles]\n; mine\nFormat: Name, Fontname\n".toList, Stack.new ⟨50, 0, 100⟩⟩ = (.ok (), d') ∧
      d'.text = "[V4+ Styles]\n; mine\nStyle: B,x\nFormat: Name, Fontname\n".toList :=
  ⟨_, rfl, by decide⟩

/-- **C67 fails** for a name in use: the script then has two styles of that name. -/
theorem C67_duplicate_violated :
    ∃ d', create "Style: A,x".toList ⟨"[V4+ Styles]\nFormat: Name, Fontname\nStyle: A,y\n".toList, Stack.new ⟨50, 0, 100⟩⟩ = (.ok (), d') ∧
      d'.text = "[V4+ Styles]\nFormat: Name, Fontname\nStyle: A,x\nStyle: A,y\n".toList :=
  ⟨_, rfl, by decide⟩

end Verif.Props
