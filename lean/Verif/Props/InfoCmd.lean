import Verif.Lemmas.InfoCmd
/-!
# C38 — script properties
-/
namespace Verif.Props
open Verif Verif.Doc Verif.Pos Verif.InfoCmd
open Verif.Spec.EventCmd (Lacks Trimmed White)
open Verif.Spec.InfoCmd

/-! ## Set, then get -/

theorem section_value {pre a p old v r post : Str} (hs : Section pre (a ++ key p ++ (old ++ r)) post)
    (hv : '\n' ∉ v) (hr : r = [] ∨ r.head? = some '\n') : Section pre (a ++ key p ++ (v ++ r)) post := by
  refine ⟨hs.first, ?_, ?_, hs.after⟩
  · obtain ⟨x, hx⟩ := hs.header
    have h1 : ∃ y, a ++ key p = "[Script Info]".toList ++ y := by
      rcases List.append_eq_append_iff.1 hx with ⟨z, e1, e2⟩ | ⟨z, e1, e2⟩
      · have hc : ':' ∈ "[Script Info]".toList := by
          rw [e1]
          simp only [List.mem_append]
          exact Or.inl (Or.inr (colon_key p))
        exact absurd hc (by decide)
      · exact ⟨z, e1⟩
    obtain ⟨y, hy⟩ := h1
    exact ⟨y ++ (v ++ r), by rw [hy, List.append_assoc]⟩
  · have h1 : Lacks ['\n', '['] (a ++ key p) := lacks_left hs.inside
    have h2 : Lacks ['\n', '['] r := lacks_right (lacks_right hs.inside)
    have hlast : (a ++ key p).getLast? ≠ some '\n' := by
      rw [List.getLast?_append, last_key]; simp
    show Lacks ['\n', '['] _
    refine lacks_two h1 (lacks_two (lacks_mem (c := '\n') (by simp) hv) h2 (Or.inl ?_)) (Or.inl hlast)
    intro e
    exact hv (List.mem_of_getLast? e)

/-- **C38 (set, then get).** In every script with an information section, after a property has been given a
value, reading it gives that value (without surrounding white space).  A name has no line feed and does not
begin with `[`; a value has no line feed. -/
theorem C38_set_get (d : Doc) (pre sec post p v : Str) (hs : Section pre sec post)
    (hd : d.text = pre ++ sec ++ post) (hp : '\n' ∉ p) (hb : p.head? ≠ some '[') (hv : '\n' ∉ v) :
    ∃ d' w, InfoCmd.set p v d = (.ok (), d') ∧ InfoCmd.get p d' = .ok (some w) ∧ Stripped v w := by
  cases hf : splitOnceStr (key p) sec with
  | some ab =>
    obtain ⟨a, b⟩ := ab
    have e := (splitOnceStr_some hf).1
    obtain ⟨r, hr, hr1, hr2⟩ := toEol_split b
    rw [e, hr] at hs hd hf
    have hb' : b = toEol b ++ r := hr
    have hf' : splitOnceStr (key p) (a ++ key p ++ (toEol b ++ r)) = some (a, toEol b ++ r) := by rw [hf, ← hb']
    obtain ⟨d', h1, h2⟩ := set_found (v := v) hs hd hp hr2 hr1 hf'
    refine ⟨d', trim v, h1, ?_, stripped_trim v⟩
    have hs' := section_value (v := v) hs hv hr1
    have hlen := (splitOnceStr_some hf').2
    have hfirst : splitOnceStr (key p) (a ++ key p ++ (v ++ r)) = some (a, v ++ r) := by
      apply splitOnceStr_first
      intro a' b' e'
      by_cases hl : a.length ≤ a'.length
      · exact hl
      · exfalso
        -- an earlier occurrence would lie before the value, hence in the old text too
        have : ∃ z, a ++ key p = a' ++ key p ++ z := by
          rcases List.append_eq_append_iff.1 e' with ⟨z, e1, e2⟩ | ⟨z, e1, e2⟩
          · have := congrArg List.length e1; simp at this; omega
          · exact ⟨z, e1⟩
        obtain ⟨z, hz⟩ := this
        have := hlen a' (z ++ (toEol b ++ r)) (by rw [hz]; simp)
        omega
    rw [get_first hs' h2 hfirst, toEol_append hv hr1]
  | none =>
    have hlack := splitOnceStr_none.1 hf
    obtain ⟨x, hx⟩ := hs.header
    cases hsp : splitOnce '\n' (sec ++ post) with
    | some lr =>
      obtain ⟨l, r⟩ := lr
      obtain ⟨h1, h2⟩ := splitOnce_some hsp
      refine ⟨_, trim v, set_new hs hd hlack h1 h2, ?_, stripped_trim v⟩
      -- the line is in the section or the section is the line
      have hsec : (∃ r1, sec = l ++ '\n' :: r1 ∧ r = r1 ++ post) ∨ (sec = l ∧ post = '\n' :: r) := by
        rcases List.append_eq_append_iff.1 h1 with ⟨z, e1, e2⟩ | ⟨z, e1, e2⟩
        · right
          cases z with
          | nil => simp at e1 e2; exact ⟨e1.symm, e2⟩
          | cons y z =>
            exfalso
            rcases hs.after with hpo | ⟨w, hpo⟩
            · rw [hpo] at e2; simp at e2
            · rw [hpo] at e2; simp at e2; apply h2; rw [e1, ← e2.1]; simp
        · cases z with
          | nil => simp at e1 e2; right; exact ⟨e1, e2.symm⟩
          | cons y z => simp at e2; left; exact ⟨z, by rw [e1, e2.1], e2.2⟩
      have hkl : Lacks (key p) l := by
        rcases hsec with ⟨r1, e, _⟩ | ⟨e, _⟩
        · rw [e] at hlack; exact lacks_left hlack
        · rw [e] at hlack; exact hlack
      have hhead : ∃ y, l = "[Script Info]".toList ++ y := by
        rcases hsec with ⟨r1, e, _⟩ | ⟨e, _⟩
        · rw [hx] at e
          rcases List.append_eq_append_iff.1 e with ⟨z, e1, e2⟩ | ⟨z, e1, e2⟩
          · exact ⟨z, e1⟩
          · cases z with
            | nil => exact ⟨[], by rw [List.append_nil] at e1 ⊢; exact e1.symm⟩
            | cons y z =>
              simp at e2
              have : '\n' ∈ "[Script Info]".toList := by rw [e1, ← e2.1]; simp
              exact absurd this (by decide)
        · exact ⟨x, by rw [← e, hx]⟩
      have hkey : (key p ++ v).head? ≠ some '[' := by
        unfold key
        cases p with
        | nil => simp
        | cons c cs => simpa using hb
      have hnk : '\n' ∉ key p ++ v := by simp [nl_key hp, hv]
      have hline : Lacks ['\n', '['] (l ++ '\n' :: (key p ++ v)) := by
        rw [show l ++ '\n' :: (key p ++ v) = (l ++ ['\n']) ++ (key p ++ v) by simp]
        refine lacks_two (lacks_two (lacks_mem (c := '\n') (by simp) h2) (lacks_len (by simp)) (by simp))
          (lacks_mem (c := '\n') (by simp) hnk) (Or.inr hkey)
      obtain ⟨y, hy⟩ := hhead
      rcases hsec with ⟨r1, e, er⟩ | ⟨e, er⟩
      · have hs' : Section pre (l ++ '\n' :: (key p ++ (v ++ '\n' :: r1))) post := by
          refine ⟨hs.first, ⟨y ++ '\n' :: (key p ++ (v ++ '\n' :: r1)), by rw [hy, List.append_assoc]⟩, ?_, hs.after⟩
          have h3 : Lacks ['\n', '['] ('\n' :: r1) := by
            have := hs.inside; rw [e] at this; exact lacks_right this
          rw [show l ++ '\n' :: (key p ++ (v ++ '\n' :: r1)) = (l ++ '\n' :: (key p ++ v)) ++ '\n' :: r1 by simp]
          exact lacks_two (x := '\n') (y := '[') hline h3 (by simp)
        have hfirst : splitOnceStr (key p) (l ++ '\n' :: (key p ++ (v ++ '\n' :: r1))) = some (l ++ ['\n'], v ++ '\n' :: r1) := by
          have := first_of_line (v ++ '\n' :: r1) (nl_key hp) (key_ne p) hkl
          rw [show l ++ '\n' :: (key p ++ (v ++ '\n' :: r1)) = l ++ ['\n'] ++ key p ++ (v ++ '\n' :: r1) by simp, this]
        rw [get_first hs' (by rw [er]; simp) hfirst, toEol_append hv (by simp)]
      · have hs' : Section pre (l ++ '\n' :: (key p ++ v)) post :=
          ⟨hs.first, ⟨y ++ '\n' :: (key p ++ v), by rw [hy, List.append_assoc]⟩, hline, hs.after⟩
        have hfirst : splitOnceStr (key p) (l ++ '\n' :: (key p ++ v)) = some (l ++ ['\n'], v) := by
          have := first_of_line v (nl_key hp) (key_ne p) hkl
          rw [show l ++ '\n' :: (key p ++ v) = l ++ ['\n'] ++ key p ++ v by simp, this]
        rw [get_first hs' (by rw [er]; simp) hfirst]
        have := toEol_append (r := []) hv (by simp)
        rw [List.append_nil] at this
        rw [this]
    | none =>
      have hno := splitOnce_eq_none hsp
      have hpost : post = [] := by
        rcases hs.after with h | ⟨w, h⟩
        · exact h
        · exfalso; apply hno; rw [h]; simp
      subst hpost hx
      rw [List.append_nil] at hno
      have hd' : d.text = pre ++ (header ++ x) := by rw [hd, List.append_nil]; rfl
      refine ⟨_, trim v, set_new_bare hs hd' hlack hno, ?_, stripped_trim v⟩
      have hfirst : ∀ b, splitOnceStr (key p) (header ++ key p ++ b) = some (header, b) :=
        fun b => first_of_mem b (colon_key p) (by decide)
      have hnk : '\n' ∉ header ++ key p ++ v := by
        simp only [List.mem_append, not_or]
        exact ⟨⟨by decide, nl_key hp⟩, hv⟩
      by_cases hxh : x.head? = some '['
      · have hs' : Section pre (header ++ key p ++ v) ('\n' :: x) := by
          refine ⟨hs.first, ⟨key p ++ v, by rw [List.append_assoc]; rfl⟩, lacks_mem (c := '\n') (by simp) hnk, Or.inr ?_⟩
          cases x with
          | nil => simp at hxh
          | cons c cs => simp at hxh; subst hxh; exact ⟨cs, rfl⟩
        rw [get_first hs' (by simp) (hfirst v)]
        have := toEol_append (r := []) hv (by simp)
        rw [List.append_nil] at this
        rw [this]
      · have hs' : Section pre (header ++ key p ++ (v ++ '\n' :: x)) [] := by
          refine ⟨hs.first, ⟨key p ++ (v ++ '\n' :: x), by rw [List.append_assoc]; rfl⟩, ?_, Or.inl rfl⟩
          rw [show header ++ key p ++ (v ++ '\n' :: x) = (header ++ key p ++ v ++ ['\n']) ++ x by simp]
          show Lacks ['\n', '['] _
          refine lacks_two (lacks_two (lacks_mem (c := '\n') (by simp) hnk) (lacks_len (by simp)) (by simp))
            (lacks_mem (c := '\n') (by simp) (fun h => hno (by simp [h]))) (Or.inr hxh)
        rw [get_first hs' (by simp) (hfirst _), toEol_append hv (by simp)]

example : ∃ d' w, InfoCmd.set "Title".toList " New ".toList ⟨"[Script Info]\nTitle: Old\n\n[Events]".toList, Stack.new ⟨50, 0, 100⟩⟩ = (.ok (), d') ∧
    InfoCmd.get "Title".toList d' = .ok (some w) ∧ Stripped " New ".toList w :=
  C38_set_get _ [] "[Script Info]\nTitle: Old\n".toList "\n[Events]".toList _ _
    ⟨splitOnceStr_none.1 (by decide), ⟨"\nTitle: Old\n".toList, rfl⟩, splitOnceStr_none.1 (by decide), Or.inr ⟨"Events]".toList, rfl⟩⟩
    (by decide) (by decide) (by decide) (by decide)

/-- **C38.** Without an information section every command is refused and the document is unchanged. -/
theorem C38_missing (d : Doc) (p v : Str) (h : Lacks "[Script Info]".toList d.text) :
    InfoCmd.set p v d = (.err, d) ∧ InfoCmd.delete p d = (.err, d) ∧ InfoCmd.get p d = .err ∧ getAll d = .err := by
  have hn : parts d.text = none := by
    unfold parts header; rw [splitOnceStr_none.2 h]
  refine ⟨?_, ?_, ?_, ?_⟩
  · unfold InfoCmd.set; rw [hn]
  · unfold InfoCmd.delete; rw [hn]
  · unfold InfoCmd.get; rw [hn]
  · unfold getAll; rw [hn]

example : InfoCmd.set "Title".toList "x".toList ⟨"[Events]\n".toList, Stack.new ⟨50, 0, 100⟩⟩ =
    (.err, ⟨"[Events]\n".toList, Stack.new ⟨50, 0, 100⟩⟩) :=
  (C38_missing ⟨"[Events]\n".toList, Stack.new ⟨50, 0, 100⟩⟩ _ _ (splitOnceStr_none.1 (by decide))).1

/-! ## All the properties -/

/-- **C38 (reading, part).** A property reads as the value on its (first) line, and as nothing if it has no
line.  Missing: `Tidy` — another line containing the name followed by `: ` is taken for the property
(`C38_substring_violated`). -/
theorem C38_get_partial (d : Doc) (pre post q extra : Str) (es : List Item) (r : Option Str)
    (hs : Section pre (info es extra) post) (hd : d.text = pre ++ info es extra ++ post) (hl : Lines es extra)
    (hq : '\n' ∉ q) (ht : Tidy q es extra) (hv : Value q es r) (htrim : ∀ v, r = some v → Trimmed v) :
    InfoCmd.get q d = .ok r := by
  rcases value_split hv with ⟨rfl, h⟩ | ⟨v, es1, es2, rfl, rfl, h⟩
  · exact get_lacks hs hd (info_absent hq hl ht h)
  · have hno : '\n' ∉ v := by
      have := hl.one (q, v) (by simp)
      unfold line at this
      simp at this
      exact this.2
    rw [get_first hs hd (info_present hq ht h), toEol_append hno (props_head es2 hl.extra),
      EventCmd.trimmed_trim (htrim v rfl)]

theorem section_of {pre post extra : Str} {es : List Item} (hf : Lacks "[Script Info]".toList (pre ++ "[Script Info".toList))
    (hl : Lines es extra) (hb : ∀ e ∈ es, (line e).head? ≠ some '[') (he : Lacks "\n[".toList extra)
    (ha : post = [] ∨ ∃ y, post = "\n[".toList ++ y) : Section pre (info es extra) post := by
  refine ⟨hf, ⟨es.flatMap (fun e => '\n' :: line e) ++ extra, by unfold info; rw [List.append_assoc]⟩, ?_, ha⟩
  unfold info
  show Lacks ['\n', '['] _
  have key : ∀ (es : List Item) (s : Str), Lacks ['\n', '['] s → (∀ e ∈ es, '\n' ∉ line e) → (∀ e ∈ es, (line e).head? ≠ some '[') →
      Lacks ['\n', '['] (s ++ es.flatMap (fun e => '\n' :: line e)) := by
    intro es
    induction es with
    | nil => intro s h _ _; simpa using h
    | cons e es ih =>
      intro s h h1 h2
      rw [List.flatMap_cons, ← List.append_assoc]
      refine ih _ ?_ (fun e' he' => h1 e' (by simp [he'])) (fun e' he' => h2 e' (by simp [he']))
      rw [show s ++ '\n' :: line e = (s ++ ['\n']) ++ line e by simp]
      exact lacks_two (lacks_two h (lacks_len (by simp)) (by simp)) (lacks_mem (c := '\n') (by simp) (h1 e (by simp)))
        (Or.inr (h2 e (by simp)))
  refine lacks_two (key es _ (lacks_mem (c := '\n') (by simp) (by decide)) hl.one hb) he (Or.inr ?_)
  rcases hl.extra with h | h
  · rw [h]; simp
  · rw [h]; simp

/-- Properties that stay lines. -/
theorem head_of_section {pre post extra : Str} {es : List Item} (hs : Section pre (info es extra) post) :
    ∀ e ∈ es, (line e).head? ≠ some '[' := by
  intro e he h
  obtain ⟨es1, es2, rfl⟩ := List.append_of_mem he
  cases hl : line e with
  | nil => rw [hl] at h; simp at h
  | cons c cs =>
    rw [hl] at h; simp at h; subst h
    apply hs.inside ("[Script Info]".toList ++ es1.flatMap (fun e => '\n' :: line e))
      (cs ++ es2.flatMap (fun e => '\n' :: line e) ++ extra)
    unfold info
    simp only [List.flatMap_append, List.flatMap_cons, hl, List.append_assoc, List.cons_append]
    rfl

/-- **C38 (writing, part).** Setting a property changes exactly its line, or adds a line at the top of the
section if there was none; every other byte stays.  The new section is again one whose properties are
these lines.  Missing: `Tidy`, as above. -/
theorem C38_set_partial (d : Doc) (pre post p v extra : Str) (es es' : List Item)
    (hs : Section pre (info es extra) post) (hd : d.text = pre ++ info es extra ++ post) (hl : Lines es extra)
    (hp : '\n' ∉ p) (hb : p.head? ≠ some '[') (hv : '\n' ∉ v) (ht : Tidy p es extra) (hput : Put p v es es')
    (hend : es ≠ [] ∨ extra ≠ [] ∨ post ≠ []) :
    ∃ d', InfoCmd.set p v d = (.ok (), d') ∧ d'.text = pre ++ info es' extra ++ post ∧
      Section pre (info es' extra) post ∧ Lines es' extra := by
  have hline : '\n' ∉ line (p, v) := by unfold line; simp [hp, hv]
  have hhead : (line (p, v)).head? ≠ some '[' := by
    unfold line
    cases p with
    | nil => simp
    | cons c cs => simpa using hb
  have hh := head_of_section hs
  have hex : Lacks "\n[".toList extra := by
    have := hs.inside; unfold info at this; exact lacks_right this
  rcases hput with h | ⟨h, rfl⟩
  · obtain ⟨w, es1, es2, rfl, rfl, h1⟩ := changed_split h
    have hl' : Lines (es1 ++ (p, v) :: es2) extra := by
      refine ⟨?_, hl.extra⟩
      intro e he
      simp only [List.mem_append, List.mem_cons] at he
      rcases he with he | rfl | he
      · exact hl.one e (by simp [he])
      · exact hline
      · exact hl.one e (by simp [he])
    have hno : '\n' ∉ w := by
      have := hl.one (p, w) (by simp)
      unfold line at this
      simp at this
      exact this.2
    have hf := info_present hp ht h1
    have hs0 := hs
    have hd0 := hd
    rw [info_split] at hs0 hd0 hf
    obtain ⟨d', h2, h3⟩ := set_found (v := v) hs0 hd0 hp hno (props_head es2 hl.extra) hf
    refine ⟨d', h2, by rw [h3, info_split], ?_, hl'⟩
    refine section_of hs.first hl' ?_ hex hs.after
    intro e he
    simp only [List.mem_append, List.mem_cons] at he
    rcases he with he | rfl | he
    · exact hh e (by simp [he])
    · exact hhead
    · exact hh e (by simp [he])
  · have hl' : Lines ((p, v) :: es) extra := by
      refine ⟨?_, hl.extra⟩
      intro e he
      rcases List.mem_cons.1 he with rfl | he
      · exact hline
      · exact hl.one e he
    have hrest : ∃ r, info es extra ++ post = "[Script Info]".toList ++ '\n' :: r := by
      unfold info
      cases es with
      | cons e es => exact ⟨line e ++ es.flatMap (fun e => '\n' :: line e) ++ extra ++ post, by simp⟩
      | nil =>
        cases extra with
        | cons c cs =>
          have := hl.extra; simp at this; subst this
          exact ⟨cs ++ post, by simp⟩
        | nil =>
          rcases hs.after with h | ⟨y, h⟩
          · simp [h] at hend
          · exact ⟨'[' :: y, by rw [h]; simp⟩
    obtain ⟨r, hr⟩ := hrest
    refine ⟨_, set_new hs hd (info_absent hp hl ht h) hr (by decide), ?_, ?_, hl'⟩
    · show pre ++ "[Script Info]".toList ++ '\n' :: (key p ++ v ++ '\n' :: r) = pre ++ info ((p, v) :: es) extra ++ post
      have e2 : info ((p, v) :: es) extra ++ post = "[Script Info]".toList ++ '\n' :: (key p ++ v ++ '\n' :: r) := by
        unfold info at hr ⊢
        simp only [List.append_assoc] at hr
        have hr' := List.append_cancel_left hr
        simp only [List.flatMap_cons, List.append_assoc, List.cons_append, hr']
        unfold line key
        simp only [List.append_assoc]
      rw [List.append_assoc pre, List.append_assoc pre, e2]
    · refine section_of hs.first hl' ?_ hex hs.after
      intro e he
      rcases List.mem_cons.1 he with rfl | he
      · exact hhead
      · exact hh e he

/-- Reading another property from the changed list. -/
theorem value_put {p v q : Str} {es es' : List Item} {r : Option Str} (h : Put p v es es') (hq : q ≠ p)
    (hv : Value q es r) : Value q es' r := by
  rcases h with h | ⟨_, rfl⟩
  · induction h generalizing r with
    | here =>
      cases hv with
      | here => exact absurd rfl hq
      | later h1 h2 => exact .later (fun e => hq e.symm) h2
    | later h1 _ ih =>
      cases hv with
      | here => exact .here
      | later h2 h3 => exact .later h2 (ih h3)
  · exact .later (fun e => hq e.symm) hv

theorem tidy_put {p v q extra : Str} {es es' : List Item} (h : Put p v es es') (ht : Tidy q es extra)
    (hn : Lacks (q ++ ": ".toList) (line (p, v))) : Tidy q es' extra := by
  refine ⟨?_, ht.2⟩
  intro e he hne
  rcases h with h | ⟨_, rfl⟩
  · obtain ⟨w, es1, es2, rfl, rfl, _⟩ := changed_split h
    simp only [List.mem_append, List.mem_cons] at he
    rcases he with he | rfl | he
    · exact ht.1 e (by simp [he]) hne
    · exact hn
    · exact ht.1 e (by simp [he]) hne
  · rcases List.mem_cons.1 he with rfl | he
    · exact hn
    · exact ht.1 e he hne

/-- **C38 (the other properties, part).** Setting a property leaves what is read for any other property
unchanged.  Missing: `Tidy`, as above; and a new line that itself contains the other name followed by `: `. -/
theorem C38_others_partial (d : Doc) (pre post p v q extra : Str) (es es' : List Item) (r : Option Str)
    (hs : Section pre (info es extra) post) (hd : d.text = pre ++ info es extra ++ post) (hl : Lines es extra)
    (hp : '\n' ∉ p) (hb : p.head? ≠ some '[') (hv : '\n' ∉ v) (ht : Tidy p es extra) (hput : Put p v es es')
    (hend : es ≠ [] ∨ extra ≠ [] ∨ post ≠ []) (hqp : q ≠ p) (hq : '\n' ∉ q) (htq : Tidy q es extra)
    (hnew : Lacks (q ++ ": ".toList) (line (p, v))) (hval : Value q es r) (htrim : ∀ v, r = some v → Trimmed v) :
    ∃ d', InfoCmd.set p v d = (.ok (), d') ∧ InfoCmd.get q d = .ok r ∧ InfoCmd.get q d' = .ok r := by
  obtain ⟨d', h1, h2, h3, h4⟩ := C38_set_partial d pre post p v extra es es' hs hd hl hp hb hv ht hput hend
  refine ⟨d', h1, C38_get_partial d pre post q extra es r hs hd hl hq htq hval htrim, ?_⟩
  exact C38_get_partial d' pre post q extra es' r h3 h2 h4 hq (tidy_put hput htq hnew) (value_put hput hqp hval) htrim

/-- **C38 (deleting, part).** Deleting a property removes exactly its line, or nothing if it has none.
Missing: `Tidy`, as above; and a line at the very end of the file that is not ended by a line feed. -/
theorem C38_delete_partial (d : Doc) (pre post p extra : Str) (es es' : List Item)
    (hs : Section pre (info es extra) post) (hd : d.text = pre ++ info es extra ++ post) (hl : Lines es extra)
    (hp : '\n' ∉ p) (ht : Tidy p es extra) (hdrop : Dropped p es es') (hend : extra ≠ [] ∨ post ≠ []) :
    ∃ d', InfoCmd.delete p d = (.ok (), d') ∧ d'.text = pre ++ info es' extra ++ post := by
  rcases dropped_split hdrop with ⟨rfl, h⟩ | ⟨w, es1, es2, rfl, rfl, h⟩
  · refine ⟨d, ?_, hd⟩
    unfold InfoCmd.delete
    rw [hd, parts_section hs]
    simp only
    rw [splitOnceStr_none.2 (info_absent hp hl ht h)]
  · have hno : '\n' ∉ key p ++ w := by
      have := hl.one (p, w) (by simp)
      exact this
    have hf := info_present hp ht h
    rw [info_split] at hs hd hf
    have hrest : ∃ r, es2.flatMap (fun e => '\n' :: line e) ++ extra ++ post = '\n' :: r := by
      cases es2 with
      | cons e es => exact ⟨line e ++ es.flatMap (fun e => '\n' :: line e) ++ extra ++ post, by simp⟩
      | nil =>
        cases extra with
        | cons c cs => have := hl.extra; simp at this; subst this; exact ⟨cs ++ post, by simp⟩
        | nil =>
          rcases hs.after with h | ⟨y, h⟩
          · simp [h] at hend
          · exact ⟨'[' :: y, by rw [h]; simp⟩
    obtain ⟨r, hr⟩ := hrest
    obtain ⟨d', h1, h2⟩ := delete_found (l := key p ++ w) (r := r) hs hd
      (by simp only [List.append_assoc] at hr ⊢; rw [hr]) hno hf
    refine ⟨d', h1, ?_⟩
    rw [h2]
    unfold info
    simp only [List.append_assoc, List.flatMap_append] at hr ⊢
    rw [hr]
    rfl

theorem lines_blanks (n : Nat) : (lines (List.replicate n '\n')).filterMap pair = [] := by
  induction n with
  | zero => decide
  | succ n ih =>
    have := lines_append [] (by simp) (List.replicate n '\n')
    rw [List.replicate_succ]
    simp only [List.nil_append] at this
    rw [this, List.filterMap_cons, show pair (stripCr []) = none by decide]
    exact ih

theorem pair_line {e : Item} (hn : Trimmed e.1) (hc : ':' ∉ e.1) (hv : Trimmed e.2) (hb : (line e).head? ≠ some '[') :
    pair (stripCr (line e)) = some e ∧ pair (line e) = some e := by
  have h1 : stripCr (line e) = line e := by
    apply stripCr_of
    unfold line
    rw [show e.1 ++ ": ".toList ++ e.2 = (e.1 ++ [':']) ++ ' ' :: e.2 by simp, List.getLast?_append]
    cases h : e.2.getLast? with
    | none => rw [List.getLast?_eq_none_iff] at h; rw [h]; simp
    | some c =>
      rw [List.getLast?_cons, h]
      simp
      intro e'
      exact hv.2 c h (by subst e'; unfold White; decide)
  have h2 : pair (line e) = some e := by
    unfold pair
    rw [if_neg]
    · unfold line
      rw [show e.1 ++ ": ".toList ++ e.2 = e.1 ++ ':' :: (' ' :: e.2) by simp, splitOnce_append _ hc]
      simp only
      rw [EventCmd.trimmed_trim hn]
      have : trim (' ' :: e.2) = e.2 := by
        cases h : e.2 with
        | nil => decide
        | cons c cs =>
          have := Color.trim_pad (w1 := [' ']) (w2 := []) (s := c :: cs) (by decide) (by simp) (by simp)
            (fun x hx => SrtDoc.not_white (hv.1 x (by rw [h]; exact hx)))
            (fun x hx => SrtDoc.not_white (hv.2 x (by rw [h]; exact hx)))
          simpa using this
      rw [this]
    · rw [Bool.or_eq_true, not_or, EventCmd.startsBracket_iff]
      refine ⟨hb, ?_⟩
      intro he
      have hs := stripped_trim (line e)
      obtain ⟨_, a, b, e1, ha, hb'⟩ := hs
      rw [List.isEmpty_iff.1 he] at e1
      have hm : ':' ∈ line e := by unfold line; simp
      rw [e1] at hm
      simp at hm
      rcases hm with hm | hm
      · exact absurd (ha _ hm) (by unfold White; decide)
      · exact absurd (hb' _ hm) (by unfold White; decide)
  exact ⟨by rw [h1, h2], h2⟩

/-- **C38 (the list, part).** The list of all properties has exactly the properties of the section, in order.
Missing: comments with a colon (`C38_comment_violated`). -/
theorem C38_get_all_partial (d : Doc) (pre post : Str) (es : List Item) (n : Nat)
    (hs : Section pre (info es (List.replicate n '\n')) post)
    (hd : d.text = pre ++ info es (List.replicate n '\n') ++ post) (hl : Lines es (List.replicate n '\n'))
    (hn : ∀ e ∈ es, Trimmed e.1 ∧ ':' ∉ e.1 ∧ Trimmed e.2) :
    getAll d = .ok es := by
  have hh := head_of_section hs
  have key : ∀ (es : List Item) (l : Str) (x : List Item), '\n' ∉ l → l ≠ [] → (∀ e ∈ es, '\n' ∉ line e) →
      (∀ e ∈ es, (line e).head? ≠ some '[') → (∀ e ∈ es, Trimmed e.1 ∧ ':' ∉ e.1 ∧ Trimmed e.2) →
      (pair (stripCr l)).toList = x → (pair l).toList = x →
      (lines (l ++ es.flatMap (fun e => '\n' :: line e) ++ List.replicate n '\n')).filterMap pair = x ++ es := by
    intro es
    induction es with
    | nil =>
      intro l x h1 h2 _ _ _ h4 h5
      rw [List.flatMap_nil, List.append_nil, List.append_nil]
      cases n with
      | zero =>
        rw [List.replicate_zero, List.append_nil, lines_last h1 h2, ← h5]
        simp only [List.filterMap_cons, List.filterMap_nil]
        cases pair l <;> rfl
      | succ n =>
        rw [List.replicate_succ, lines_append l h1, List.filterMap_cons, lines_blanks, ← h4]
        cases pair (stripCr l) <;> rfl
    | cons e es ih =>
      intro l x h1 h2 h3 hb' h4 h5 h6
      obtain ⟨t1, t2, t3⟩ := h4 e (by simp)
      obtain ⟨q1, q2⟩ := pair_line t1 t2 t3 (hb' e (by simp))
      have := ih (line e) [e] (h3 e (by simp)) (by unfold line; simp) (fun e' h => h3 e' (by simp [h]))
        (fun e' h => hb' e' (by simp [h])) (fun e' h => h4 e' (by simp [h])) (by rw [q1]; rfl) (by rw [q2]; rfl)
      rw [List.flatMap_cons, show l ++ ('\n' :: line e ++ es.flatMap (fun e => '\n' :: line e)) ++ List.replicate n '\n' =
        l ++ '\n' :: (line e ++ es.flatMap (fun e => '\n' :: line e) ++ List.replicate n '\n') by simp,
        lines_append l h1, List.filterMap_cons, this, ← h5]
      cases pair (stripCr l) <;> rfl
  unfold getAll
  rw [hd, parts_section hs]
  simp only
  have := key es "[Script Info]".toList [] (by decide) (by decide) hl.one hh hn (by decide) (by decide)
  unfold info
  rw [this]
  rfl

/-- A sample script. -/
def exInfo : List Item := [("Title".toList, "Old".toList), ("PlayResX".toList, "640".toList)]

theorem exInfo_section : Section [] (info exInfo "\n".toList) "\n[Events]".toList :=
  ⟨splitOnceStr_none.1 (by decide), ⟨"\nTitle: Old\nPlayResX: 640\n".toList, by decide⟩,
    splitOnceStr_none.1 (by decide), Or.inr ⟨"Events]".toList, rfl⟩⟩

theorem exInfo_lines : Lines exInfo "\n".toList := ⟨by decide, by decide⟩

theorem exInfo_tidy : Tidy "PlayResX".toList exInfo "\n".toList := by
  refine ⟨?_, splitOnceStr_none.1 (by decide)⟩
  intro e he
  simp [exInfo] at he
  rcases he with rfl | rfl
  · intro _; exact splitOnceStr_none.1 (by decide)
  · intro h; exact absurd (by decide) h

theorem exInfo_tidy2 : Tidy "Title".toList exInfo "\n".toList := by
  refine ⟨?_, splitOnceStr_none.1 (by decide)⟩
  intro e he
  simp [exInfo] at he
  rcases he with rfl | rfl
  · intro h; exact absurd (by decide) h
  · intro _; exact splitOnceStr_none.1 (by decide)

example : ∃ d', InfoCmd.set "PlayResX".toList "1280".toList ⟨[] ++ info exInfo "\n".toList ++ "\n[Events]".toList, Stack.new ⟨50, 0, 100⟩⟩ = (.ok (), d') ∧
    InfoCmd.get "Title".toList ⟨[] ++ info exInfo "\n".toList ++ "\n[Events]".toList, Stack.new ⟨50, 0, 100⟩⟩ = .ok (some "Old".toList) ∧
    InfoCmd.get "Title".toList d' = .ok (some "Old".toList) :=
  C38_others_partial _ [] "\n[Events]".toList _ _ _ "\n".toList exInfo
    [("Title".toList, "Old".toList), ("PlayResX".toList, "1280".toList)] _
    exInfo_section rfl exInfo_lines (by decide) (by decide) (by decide) exInfo_tidy
    (Or.inl (.later (by decide) .here)) (by decide) (by decide) (by decide) exInfo_tidy2
    (splitOnceStr_none.1 (by decide)) .here (by intro v hv; cases hv; exact ⟨by intro c hc; cases hc; unfold White; decide, by intro c hc; cases hc; unfold White; decide⟩)

example : ∃ d', InfoCmd.delete "PlayResX".toList ⟨[] ++ info exInfo "\n".toList ++ "\n[Events]".toList, Stack.new ⟨50, 0, 100⟩⟩ = (.ok (), d') ∧
    d'.text = [] ++ info [("Title".toList, "Old".toList)] "\n".toList ++ "\n[Events]".toList :=
  C38_delete_partial _ [] "\n[Events]".toList _ "\n".toList exInfo _ exInfo_section rfl exInfo_lines (by decide) exInfo_tidy
    (.later (by decide) .here) (by decide)

example : getAll ⟨[] ++ info exInfo "\n".toList ++ "\n[Events]".toList, Stack.new ⟨50, 0, 100⟩⟩ = .ok exInfo :=
  C38_get_all_partial _ [] "\n[Events]".toList exInfo 1 exInfo_section rfl exInfo_lines (by
    intro e he
    simp [exInfo] at he
    rcases he with rfl | rfl <;>
    refine ⟨⟨by intro c hc; cases hc; unfold White; decide, by intro c hc; cases hc; unfold White; decide⟩, by decide,
      by intro c hc; cases hc; unfold White; decide, by intro c hc; cases hc; unfold White; decide⟩)

/-! ## Where the full property fails -/

/-- A script in which the name of one property ends with the name of another. -/
def exSub : Doc := ⟨"[Script Info]\nOriginal Title: A\nTitle: B\n".toList, Stack.new ⟨50, 0, 100⟩⟩

/-- **C38 fails** for the other properties: setting `Title` changes `Original Title`. -/
theorem C38_substring_violated :
    ∃ d', InfoCmd.set "Title".toList "C".toList exSub = (.ok (), d') ∧
      InfoCmd.get "Original Title".toList exSub = .ok (some "A".toList) ∧
      InfoCmd.get "Original Title".toList d' = .ok (some "C".toList) ∧
      d'.text = "[Script Info]\nOriginal Title: C\nTitle: B\n".toList :=
  ⟨_, rfl, by decide, by decide, by decide⟩

/-- **C38 fails** for deleting: deleting `Title` destroys the line of `Original Title` and joins it with the
next line; the property `Title` itself stays. -/
theorem C38_delete_violated :
    ∃ d', InfoCmd.delete "Title".toList exSub = (.ok (), d') ∧
      d'.text = "[Script Info]\nOriginal Title: B\n".toList :=
  ⟨_, rfl, by decide⟩

/-- **C38 fails** for an empty value written without a blank: setting the property adds a second line. -/
theorem C38_empty_violated :
    ∃ d', InfoCmd.set "Title".toList "C".toList ⟨"[Script Info]\nTitle:\n".toList, Stack.new ⟨50, 0, 100⟩⟩ = (.ok (), d') ∧
      d'.text = "[Script Info]\nTitle: C\nTitle:\n".toList :=
  ⟨_, rfl, by decide⟩

/-- **C53 fails** for a new property: the insertion is not recorded, so undo reports that there is nothing
to undo. -/
theorem C53_set_property_violated :
    ∃ d', InfoCmd.set "Title".toList "C".toList ⟨"[Script Info]\n".toList, Stack.new ⟨50, 0, 100⟩⟩ = (.ok (), d') ∧
      d'.text = "[Script Info]\nTitle: C\n".toList ∧ (d'.undo).1 = .err :=
  ⟨_, rfl, by decide, by decide⟩

/-- **C38 fails** for the list of all properties: a comment with a colon is listed as a property. -/
theorem C38_comment_violated :
    getAll ⟨"[Script Info]\n; see http://x\nTitle: B\n".toList, Stack.new ⟨50, 0, 100⟩⟩ =
      .ok [("; see http".toList, "//x".toList), ("Title".toList, "B".toList)] := by decide

end Verif.Props
