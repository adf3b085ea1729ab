import Verif.Lemmas.ParserMain
import Verif.Lemmas.Handlers
import Verif.Spec.Script
/-! What the sections of a source say, against the parser's loops. -/
namespace Verif.Parser
open Verif
open Verif.Ast
open Verif.Spec.Script
open Verif.Spec.InfoCmd (Stripped)

theorem size_eq (s : Str) : size s = byteLen s := rfl

theorem unlines_eq : ∀ L : List Str, unlines L = joinSep '\n' L
  | [] => rfl
  | [_] => rfl
  | l :: m :: ls => by rw [unlines, joinSep, unlines_eq (m :: ls)]

theorem unlines_cons {l : Str} {L : List Str} (h : L ≠ []) : unlines (l :: L) = l ++ '\n' :: unlines L := by
  rw [unlines_eq, unlines_eq, joinSep_cons h]

theorem split_unlines : ∀ {L : List Str}, L ≠ [] → (∀ l ∈ L, '\n' ∉ l) → splitOn '\n' (unlines L) = L
  | [], h, _ => absurd rfl h
  | [l], _, h => splitOn_of_not_mem (h l (by simp))
  | l :: m :: L, _, h => by
    rw [unlines, splitOn_append_sep _ (h l (by simp)), split_unlines (by simp) (fun x hx => h x (by simp [hx]))]

theorem size_unlines : ∀ {A B : List Str}, B ≠ [] → byteLen (unlines (A ++ B)) = sizes A + byteLen (unlines B)
  | [], B, _ => by simp [sizes]
  | a :: A, B, h => by
    have hne : A ++ B ≠ [] := by simp [h]
    rw [List.cons_append, unlines_cons hne, byteLen_append, byteLen_cons, size_unlines h, sizes, size_eq,
      show Char.utf8Size '\n' = 1 by decide]
    omega

theorem opens_spec {l : Str} : opens l = true ↔ Opens l := by
  rw [opens_iff]
  constructor
  · rintro ⟨w, r, e, h⟩
    exact ⟨w, r, e, fun c hc => (SrtDoc.white_iff c).1 (h c hc)⟩
  · rintro ⟨w, r, e, h⟩
    exact ⟨w, r, e, fun c hc => (SrtDoc.white_iff c).2 (h c hc)⟩

theorem not_opens_spec {l : Str} : opens l = false ↔ ¬ Opens l := by
  rw [← opens_spec]; simp

theorem header_opens {l raw : Str} (h : Header l raw) : Opens l := by
  obtain ⟨w, r, e, hw, -⟩ := h
  exact ⟨w, raw ++ ']' :: r, by rw [e]; simp, hw⟩

theorem isBlank_space {c : Char} : isBlank c = true ↔ Space c := by
  unfold isBlank Space
  simp [or_assoc]

theorem ignored_spec {l : Str} : ignored l = true ↔ Silent l := by
  unfold ignored Silent
  rw [Bool.or_eq_true, decide_eq_true_eq, trim_eq_nil]
  constructor
  · rintro (h | h)
    · right
      unfold isComment at h
      rw [Bool.or_eq_true] at h
      have key : ∀ c, startsWith [c] (l.dropWhile isBlank) = true → (c = ';' ∨ c = '#') →
          ∃ w c r, l = w ++ c :: r ∧ (∀ x ∈ w, Space x) ∧ (c = ';' ∨ c = '#') := by
        intro c hc hcc
        obtain ⟨r, hr⟩ := startsWith_iff.1 hc
        refine ⟨l.takeWhile isBlank, c, r, ?_, fun x hx => isBlank_space.1 (takeWhile_all l x hx), hcc⟩
        conv => lhs; rw [← List.takeWhile_append_dropWhile (p := isBlank) (l := l), hr]
        rfl
      rcases h with h | h
      · exact key ';' h (Or.inl rfl)
      · exact key '#' h (Or.inr rfl)
    · exact Or.inl (fun c hc => (SrtDoc.white_iff c).1 (h c hc))
  · rintro (h | ⟨w, c, r, rfl, hw, hc⟩)
    · exact Or.inr (fun c hc => (SrtDoc.white_iff c).2 (h c hc))
    · left
      rw [dropWhile_append_all _ (fun x hx => isBlank_space.2 (hw x hx))]
      rcases hc with rfl | rfl
      · rw [List.dropWhile_cons_of_neg (by decide)]; unfold isComment; rw [show startsWith [';'] (';' :: r) = true from startsWith_iff.2 ⟨r, rfl⟩]; rfl
      · rw [List.dropWhile_cons_of_neg (by decide)]; unfold isComment
        rw [show startsWith ['#'] ('#' :: r) = true from startsWith_iff.2 ⟨r, rfl⟩]; simp

theorem says_of {l : Str} (h : ¬ ignored l = true) : Says l (trim l) :=
  ⟨fun hs => h (ignored_spec.2 hs), InfoCmd.stripped_trim l⟩

/-! ## Bodies -/

theorem info_fold : ∀ (L : List Str) (o ln : Nat) (s : InfoSt), ∃ fs, InfoOf L fs ∧
    ((located o ln L).foldl (lineStep infoStep) s).fields = s.fields ++ fs ∧
    ∃ is, ((located o ln L).foldl (lineStep infoStep) s).issues = s.issues ++ is ∧ unknowns is = []
  | [], _, _, s => ⟨[], .nil, by simp [located], [], by simp [located], rfl⟩
  | l :: L, o, ln, s => by
    rw [located, List.foldl_cons]
    unfold lineStep
    simp only
    by_cases hi : ignored l = true
    · rw [if_pos hi]
      obtain ⟨fs, h1, h2⟩ := info_fold L (o + byteLen l + 1) (ln + 1) s
      exact ⟨fs, .silent (ignored_spec.1 hi) h1, h2⟩
    rw [if_neg hi]
    have hsay := says_of hi
    unfold infoStep
    cases e : splitOnce ':' (trim l) with
    | none =>
      simp only
      obtain ⟨fs, h1, h2, is, h3, h4⟩ := info_fold L (o + byteLen l + 1) (ln + 1)
        { s with issues := s.issues ++ [.infoLine (lineTr (o, ln, l)).line] }
      exact ⟨fs, .other hsay (splitOnce_eq_none e) h1, h2, .infoLine (lineTr (o, ln, l)).line :: is, by
        unfold lineStep infoStep at h3; rw [h3]; simp, by unfold unknowns; rw [List.filterMap_cons]; exact h4⟩
    | some kv =>
      obtain ⟨k, v⟩ := kv
      simp only
      obtain ⟨e1, e2⟩ := splitOnce_some e
      obtain ⟨fs, h1, h2, is, h3, h4⟩ := info_fold L (o + byteLen l + 1) (ln + 1)
        { s with
          version := if trim k = "ScriptType".toList then (fromHeader (trim v)).or s.version else s.version
          fields := s.fields ++ [(trim k, trim v)] }
      refine ⟨(trim k, trim v) :: fs, .field (e1 ▸ hsay) e2 (InfoCmd.stripped_trim k) (InfoCmd.stripped_trim v) h1, ?_, is, h3, h4⟩
      unfold lineStep infoStep at h2
      rw [h2]; simp

theorem names_of (d : Str) : Names d (formatFields d) := by
  refine ⟨splitOn ',' d, splitOn_ne_nil _ _, ?_, fun p hp => not_mem_of_mem_splitOn hp, by simp [formatFields], ?_⟩
  · rw [← Handlers.csv_join, joinSep_splitOn]
  · intro q hq
    obtain ⟨h1, h2⟩ := zip_map_mem hq
    rw [h2]; exact InfoCmd.stripped_trim _

theorem formatFields_ne (d : Str) : formatFields d ≠ [] := by
  unfold formatFields
  simp [splitOn_ne_nil]

theorem getD_fmt {f : Option (List Str)} (hf : f ≠ some []) (d : List Str) :
    (if f.getD [] = [] then d else f.getD []) = f.getD d := by
  cases f with
  | none => simp
  | some l =>
    have : l ≠ [] := fun e => hf (by rw [e])
    simp [this]

theorem spans_of {o ln : Nat} {l : Str} (h : '\n' ∉ l) :
    Spans o l ((lineTr (o, ln, l)).spanFor (byteLen (lineTr (o, ln, l)).current)).start
      ((lineTr (o, ln, l)).spanFor (byteLen (lineTr (o, ln, l)).current)).stop := by
  have hb := blanks_byteLen l
  have hl := blanks_len l
  refine ⟨l.takeWhile isBlank, l.dropWhile isBlank, List.takeWhile_append_dropWhile.symm,
    fun c hc => isBlank_space.1 (takeWhile_all l c hc), ?_, ?_, ?_⟩
  · intro c hc hs
    have := dropWhile_head l c hc
    rw [isBlank_space.2 hs] at this; cases this
  · unfold lineTr Tr.spanFor Tr.skipWs
    simp only
    rw [size_eq, hl]
  · unfold Tr.spanFor
    simp only
    rw [lineTr_current h]
    unfold lineTr Tr.skipWs
    simp only
    rw [size_eq]; omega

theorem events_fold : ∀ (L : List Str) (o ln : Nat) (s : EventsSt), (∀ l ∈ L, '\n' ∉ l) → s.fmt ≠ some [] →
    ∃ es, EventsOf s.fmt o L es ((located o ln L).foldl (lineStep eventStep) s).fmt ∧
    ((located o ln L).foldl (lineStep eventStep) s).events.map place = s.events.map place ++ es ∧
    ∃ is, ((located o ln L).foldl (lineStep eventStep) s).issues = s.issues ++ is ∧ unknowns is = []
  | [], _, _, s, _, _ => ⟨[], .nil, by simp [located], [], by simp [located], rfl⟩
  | l :: L, o, ln, s, hL, hf => by
    have hl := hL l (by simp)
    have hL' : ∀ x ∈ L, '\n' ∉ x := fun x hx => hL x (by simp [hx])
    rw [located, List.foldl_cons]
    by_cases hi : ignored l = true
    · have : lineStep eventStep s (o, ln, l) = s := by unfold lineStep; rw [if_pos hi]
      rw [this]
      obtain ⟨fs, h1, h2⟩ := events_fold L (o + byteLen l + 1) (ln + 1) s hL' hf
      exact ⟨fs, .silent (ignored_spec.1 hi) h1, h2⟩
    have hst : lineStep eventStep s (o, ln, l) = eventStep s (lineTr (o, ln, l)) (trim l) := by
      unfold lineStep; rw [if_neg hi]
    have hsay := says_of hi
    rw [hst]
    cases e : stripPrefix "Format:".toList (trim l) with
    | some d =>
      have e1 : eventStep s (lineTr (o, ln, l)) (trim l) = { s with fmt := some (formatFields d) } := by
        unfold eventStep; rw [e]
      rw [e1]
      obtain ⟨es, h1, h2⟩ := events_fold L (o + byteLen l + 1) (ln + 1) { s with fmt := some (formatFields d) } hL'
        (by simp [formatFields_ne])
      exact ⟨es, .format (stripPrefix_iff.1 e ▸ hsay) (names_of d) h1, h2⟩
    | none =>
      have hnf := stripPrefix_eq_none.1 e
      cases ek : eventKind (trim l) with
      | none =>
        have e1 : eventStep s (lineTr (o, ln, l)) (trim l) = s := by unfold eventStep; rw [e, ek]
        rw [e1]
        obtain ⟨es, h1, h2⟩ := events_fold L (o + byteLen l + 1) (ln + 1) s hL' hf
        exact ⟨es, .other hsay hnf (by unfold parseEvent; rw [ek]) h1, h2⟩
      | some kd =>
        obtain ⟨k, d⟩ := kd
        have hd : eventData k (trim d) (s.fmt.getD []) = eventData k (trim d) (s.fmt.getD eventFormat) := by
          have h1 := getD_fmt hf eventFormat
          have h2 : (if s.fmt.getD eventFormat = [] then eventFormat else s.fmt.getD eventFormat) = s.fmt.getD eventFormat := by
            by_cases h : s.fmt.getD eventFormat = []
            · rw [if_pos h, ← h1]
              rw [h] at h1
              rw [h1]
              exact absurd (by
                cases hs : s.fmt with
                | none => rw [hs] at h; exact h
                | some x => rw [hs] at h hf; exact absurd (congrArg some h) hf) (by decide : eventFormat ≠ [])
            · rw [if_neg h]
          unfold eventData
          simp only [h1, h2]
        cases ed : eventData k (trim d) (s.fmt.getD eventFormat) with
        | error x =>
          have e1 : eventStep s (lineTr (o, ln, l)) (trim l) =
              { s with issues := s.issues ++ [.eventFields (lineTr (o, ln, l)).line] } := by
            unfold eventStep; rw [e, ek]; simp only; rw [ed]
          rw [e1]
          obtain ⟨es, h1, h2, is, h3, h4⟩ := events_fold L (o + byteLen l + 1) (ln + 1)
            { s with issues := s.issues ++ [.eventFields (lineTr (o, ln, l)).line] } hL' hf
          exact ⟨es, .other hsay hnf (by unfold parseEvent; rw [ek]; simp only; rw [hd, ed]) h1, h2,
            .eventFields (lineTr (o, ln, l)).line :: is, by rw [h3]; simp,
            by unfold unknowns; rw [List.filterMap_cons]; exact h4⟩
        | ok ev =>
          have e1 : eventStep s (lineTr (o, ln, l)) (trim l) =
              { s with events := s.events ++ [(ev, (lineTr (o, ln, l)).spanFor (byteLen (lineTr (o, ln, l)).current))] } := by
            unfold eventStep; rw [e, ek]; simp only; rw [ed]
          rw [e1]
          obtain ⟨es, h1, h2, h3⟩ := events_fold L (o + byteLen l + 1) (ln + 1)
            { s with events := s.events ++ [(ev, (lineTr (o, ln, l)).spanFor (byteLen (lineTr (o, ln, l)).current))] } hL' hf
          exact ⟨_ :: es, .event hsay (by unfold parseEvent; rw [ek]; simp only; rw [hd, ed]) (spans_of (ln := ln) hl) h1,
            by rw [h2]; simp [place], h3⟩

theorem styles_fold : ∀ (L : List Str) (o ln : Nat) (s : StylesSt), (∀ l ∈ L, '\n' ∉ l) → s.fmt ≠ some [] →
    ∃ es, StylesOf s.fmt o L es ((located o ln L).foldl (lineStep styleStep) s).fmt ∧
    ((located o ln L).foldl (lineStep styleStep) s).styles.map place = s.styles.map place ++ es ∧
    ∃ is, ((located o ln L).foldl (lineStep styleStep) s).issues = s.issues ++ is ∧ unknowns is = []
  | [], _, _, s, _, _ => ⟨[], .nil, by simp [located], [], by simp [located], rfl⟩
  | l :: L, o, ln, s, hL, hf => by
    have hl := hL l (by simp)
    have hL' : ∀ x ∈ L, '\n' ∉ x := fun x hx => hL x (by simp [hx])
    rw [located, List.foldl_cons]
    by_cases hi : ignored l = true
    · have : lineStep styleStep s (o, ln, l) = s := by unfold lineStep; rw [if_pos hi]
      rw [this]
      obtain ⟨fs, h1, h2⟩ := styles_fold L (o + byteLen l + 1) (ln + 1) s hL' hf
      exact ⟨fs, .silent (ignored_spec.1 hi) h1, h2⟩
    have hst : lineStep styleStep s (o, ln, l) = styleStep s (lineTr (o, ln, l)) (trim l) := by
      unfold lineStep; rw [if_neg hi]
    have hsay := says_of hi
    rw [hst]
    cases e : stripPrefix "Format:".toList (trim l) with
    | some d =>
      have e1 : styleStep s (lineTr (o, ln, l)) (trim l) = { s with fmt := some (formatFields d) } := by
        unfold styleStep; rw [e]
      rw [e1]
      obtain ⟨es, h1, h2⟩ := styles_fold L (o + byteLen l + 1) (ln + 1) { s with fmt := some (formatFields d) } hL'
        (by simp [formatFields_ne])
      exact ⟨es, .format (stripPrefix_iff.1 e ▸ hsay) (names_of d) h1, h2⟩
    | none =>
      have hnf := stripPrefix_eq_none.1 e
      cases ek : stripPrefix "Style:".toList (trim l) with
      | none =>
        have e1 : styleStep s (lineTr (o, ln, l)) (trim l) = s := by unfold styleStep; rw [e, ek]
        rw [e1]
        obtain ⟨es, h1, h2⟩ := styles_fold L (o + byteLen l + 1) (ln + 1) s hL' hf
        exact ⟨es, .other hsay hnf (stripPrefix_eq_none.1 ek) h1, h2⟩
      | some d =>
        have hsay2 := stripPrefix_iff.1 ek ▸ hsay
        have hfm := getD_fmt hf styleFormat
        have e1 : styleStep s (lineTr (o, ln, l)) (trim l) = styleInternal s (lineTr (o, ln, l)) (trim d) := by
          unfold styleStep; rw [e, ek]
        rw [e1]
        -- the warning
        obtain ⟨w, hw, hwu⟩ : ∃ w, (if (splitOn ',' (styleParent (trim d)).1).length ≠ (s.fmt.getD styleFormat).length then
            s.issues ++ [.styleFields (lineTr (o, ln, l)).line] else s.issues) = s.issues ++ w ∧ unknowns w = [] := by
          by_cases h : (splitOn ',' (styleParent (trim d)).1).length ≠ (s.fmt.getD styleFormat).length
          · exact ⟨_, by rw [if_pos h], rfl⟩
          · exact ⟨[], by rw [if_neg h]; simp, rfl⟩
        have hun : ∀ a b : List Issue, unknowns a = [] → unknowns b = [] → unknowns (a ++ b) = [] := by
          intro a b ha hb
          unfold unknowns at *
          rw [List.filterMap_append, ha, hb]; rfl
        by_cases hlen : (splitOn ',' (styleParent (trim d)).1).length < (s.fmt.getD styleFormat).length
        · have e2 : styleInternal s (lineTr (o, ln, l)) (trim d) = { s with issues := s.issues ++ w } := by
            unfold styleInternal
            simp only [if_pos hlen, hw]
          rw [e2]
          obtain ⟨es, h1, h2, is, h3, h4⟩ := styles_fold L (o + byteLen l + 1) (ln + 1) { s with issues := s.issues ++ w } hL' hf
          refine ⟨es, .short hsay2 (InfoCmd.stripped_trim d) ?_ h1, h2, w ++ is, by rw [h3]; simp, hun _ _ hwu h4⟩
          unfold parseStyle
          simp only [hfm, if_pos hlen]
        · have e2 : styleInternal s (lineTr (o, ln, l)) (trim d) = { s with
              issues := s.issues ++ w,
              styles := s.styles ++ [(styleOf (styleParent (trim d)).2 (s.fmt.getD styleFormat)
                (splitOn ',' (styleParent (trim d)).1), (lineTr (o, ln, l)).spanFor (byteLen (lineTr (o, ln, l)).current))] } := by
            unfold styleInternal
            simp only [if_neg hlen, hw]
          rw [e2]
          obtain ⟨es, h1, h2, is, h3, h4⟩ := styles_fold L (o + byteLen l + 1) (ln + 1) { s with
              issues := s.issues ++ w,
              styles := s.styles ++ [(styleOf (styleParent (trim d)).2 (s.fmt.getD styleFormat)
                (splitOn ',' (styleParent (trim d)).1), (lineTr (o, ln, l)).spanFor (byteLen (lineTr (o, ln, l)).current))] } hL' hf
          refine ⟨(styleOf (styleParent (trim d)).2 (s.fmt.getD styleFormat) (splitOn ',' (styleParent (trim d)).1), _, _) :: es,
            .style hsay2 (InfoCmd.stripped_trim d) ?_ (spans_of (ln := ln) hl) h1, by rw [h2]; simp [place], w ++ is,
            by rw [h3]; simp, hun _ _ hwu h4⟩
          unfold parseStyle
          simp only [hfm, if_neg hlen]

/-! ## Embedded files -/

theorem ends_spec {l : Str} : ends l = true ↔ EndsData l := by
  unfold ends
  simp only [Bool.or_eq_true, decide_eq_true_eq, startsWith_iff]
  constructor
  · rintro ((h | ⟨y, h⟩) | h)
    · exact ⟨_, InfoCmd.stripped_trim l, Or.inl h⟩
    · exact ⟨_, InfoCmd.stripped_trim l, Or.inr (Or.inr ⟨y, h⟩)⟩
    · exact ⟨_, InfoCmd.stripped_trim l, Or.inr (Or.inl h)⟩
  · rintro ⟨x, hs, h⟩
    rw [Handlers.stripped_eq hs]
    rcases h with h | h | ⟨y, h⟩
    · exact Or.inl (Or.inl h)
    · exact Or.inr h
    · exact Or.inl (Or.inr ⟨y, h⟩)

theorem dropped_spec {l : Str} : dropped l = true ↔ Remark l := by
  have aux : ∀ (c : Char) (s : Str), startsWith [c] s = true ↔ s.head? = some c := by
    intro c s
    rw [startsWith_iff]
    cases s with
    | nil => simp
    | cons d s => simp [eq_comm]
  unfold dropped
  rw [Bool.or_eq_true, aux, aux]
  constructor
  · intro h; exact ⟨_, InfoCmd.stripped_trim l, h⟩
  · rintro ⟨x, hs, h⟩
    rw [Handlers.stripped_eq hs]; exact h

theorem header_spec {key l n : Str} : header key l = some n ↔ Names1 key l n := by
  unfold header Names1
  constructor
  · intro h
    cases e : splitOnce ':' l with
    | none => rw [e] at h; cases h
    | some kv =>
      obtain ⟨k, v⟩ := kv
      rw [e] at h
      simp only at h
      by_cases hk : trim k = key
      · rw [if_pos hk] at h
        obtain ⟨e1, e2⟩ := splitOnce_some e
        exact ⟨k, v, e1, e2, hk ▸ InfoCmd.stripped_trim k, Option.some.inj h ▸ InfoCmd.stripped_trim v⟩
      · rw [if_neg hk] at h; cases h
  · rintro ⟨k, v, rfl, hk, h1, h2⟩
    rw [splitOnce_append _ hk]
    simp only
    rw [if_pos (Handlers.stripped_eq h1), Handlers.stripped_eq h2]

theorem files_fold {key : Str} (hk : GoodKey key) : ∀ (L : List Str), FilesOf key L (binLines key none L) ∧
    ∀ e : Str × List Str, ∃ ds d ls fs, L = ds ++ ls ∧ Data ds d ∧ (∀ m, ls.head? = some m → EndsData m) ∧
      FilesOf key ls fs ∧ binLines key (some e) L = (e.1, e.2 ++ d) :: fs
  | [] => ⟨.nil, fun e => ⟨[], [], [], [], rfl, .nil, by simp, .nil, by simp [binLines]⟩⟩
  | l :: L => by
    obtain ⟨h1, h2⟩ := files_fold hk L
    have first : FilesOf key (l :: L) (binLines key none (l :: L)) := by
      rw [binLines]
      cases e : header key l with
      | none =>
        rw [Option.map_none]
        refine .other (fun n hn => ?_) h1
        rw [header_spec.2 hn] at e; cases e
      | some n =>
        rw [Option.map_some]
        obtain ⟨ds, d, ls, fs, rfl, hd, hm, hf, hb⟩ := h2 (n, [])
        rw [hb]
        exact .file (header_spec.1 e) hd hm hf
    refine ⟨first, fun e => ?_⟩
    by_cases he : ends l = true
    · refine ⟨[], [], l :: L, binLines key none L, rfl, .nil, ?_, ?_, ?_⟩
      · intro m hm
        obtain rfl := Option.some.inj hm
        exact ends_spec.1 he
      · refine .other ?_ h1
        intro n hn
        have := header_ends hk he
        rw [header_spec.2 hn] at this; cases this
      · rw [binLines, if_pos he]; simp
    · have hne : ¬ EndsData l := fun h => he (ends_spec.2 h)
      by_cases hr : dropped l = true
      · obtain ⟨ds, d, ls, fs, rfl, hd, hm, hf, hb⟩ := h2 e
        exact ⟨l :: ds, d, ls, fs, rfl, .remark hne (dropped_spec.1 hr) hd, hm, hf, by rw [binLines, if_neg he, if_pos hr, hb]⟩
      · obtain ⟨ds, d, ls, fs, rfl, hd, hm, hf, hb⟩ := h2 (e.1, e.2 ++ [l])
        refine ⟨l :: ds, l :: d, ls, fs, rfl, .line hne (fun h => hr (dropped_spec.2 h)) hd, hm, hf, ?_⟩
        rw [binLines, if_neg he, if_neg hr, hb]; simp

/-! ## Sections -/

theorem ready_lines {o : Nat} {L : List Str} {segs : List Seg} (h : Segments o L segs) (hL : ∀ l ∈ L, '\n' ∉ l) {s : Str}
    (hs : tail s = trimStart (unlines L)) : Ready s := by
  cases h with
  | nil => left; rw [hs]; rfl
  | @cons o hd raw bd rest segs hh hb hr =>
    right
    obtain ⟨w, x, e, hw, hn⟩ := hh
    have hl := hL hd (by simp)
    have key : ∀ y, (y = [] ∨ y.head? = some '\n') → atNext (hd ++ y) = true := by
      intro y hy
      rw [e]
      unfold atNext
      have e2 : w ++ '[' :: raw ++ ']' :: x ++ y = w ++ '[' :: (raw ++ ']' :: x ++ y) := by simp
      rw [e2, trimStart_append_ws _ (fun c hc => (SrtDoc.white_iff c).2 (hw c hc)), trimStart_cons isWs_bracket]
      rw [Bool.and_eq_true]
      refine ⟨startsWith_iff.2 ⟨_, rfl⟩, ?_⟩
      have hnl : '\n' ∉ '[' :: (raw ++ ']' :: x) := by
        intro h; apply hl; rw [e]
        simp at h ⊢
        rcases h with h | h
        · exact Or.inr (Or.inl h)
        · exact Or.inr (Or.inr h)
      have : ('[' :: (raw ++ ']' :: x ++ y)).takeWhile (· ≠ '\n') = '[' :: (raw ++ ']' :: x) := by
        rcases hy with rfl | hy
        · rw [List.append_nil, takeWhile_nl hnl]
        · cases y with
          | nil => cases hy
          | cons c y =>
            obtain rfl : c = '\n' := by simpa using hy
            have := takeWhile_nl_append y hnl
            simpa using this
      rw [this]; simp
    rw [hs, atNext_trimStart]
    by_cases hne : bd ++ rest = []
    · rw [hne]
      have := key [] (Or.inl rfl)
      simpa [unlines] using this
    · rw [unlines_cons hne]
      exact key _ (Or.inr rfl)

/-- The lines of a body against the text that follows a header. -/
theorem body_lines {o : Nat} {bd rest : List Str} {segs : List Seg} (hr : Segments o rest segs) (hb : ∀ l ∈ bd, ¬ Opens l)
    (hL : ∀ l ∈ bd ++ rest, '\n' ∉ l) {s : Str} (hs : s = unlines (bd ++ rest)) :
    (body s = bd ∨ (bd = [] ∧ body s = [[]])) ∧ tail s = trimStart (unlines rest) := by
  have hrest : rest.takeWhile (fun l => !opens l) = [] ∧ rest.dropWhile (fun l => !opens l) = rest := by
    cases hr with
    | nil => exact ⟨rfl, rfl⟩
    | cons hh _ _ =>
      have := opens_spec.2 (header_opens hh)
      exact ⟨List.takeWhile_cons_of_neg (by simp [this]), List.dropWhile_cons_of_neg (by simp [this])⟩
  by_cases hne : bd ++ rest = []
  · rw [hne] at hs
    rw [hs]
    simp at hne
    exact ⟨Or.inr ⟨hne.1, body_nil⟩, by rw [hne.2]; exact tail_nil⟩
  · have hbd : ∀ l ∈ bd, (!opens l) = true := by
      intro l hl
      rw [not_opens_spec.2 (hb l hl)]; rfl
    unfold body tail
    rw [hs, split_unlines hne hL, List.takeWhile_append_of_pos hbd, List.dropWhile_append_of_pos hbd, hrest.1, hrest.2,
      unlines_eq]
    exact ⟨Or.inl (by simp), rfl⟩

theorem fold_body {σ : Type} (step : σ → Tr → Str → σ) (s : σ) {o o' ln : Nat} {B bd : List Str}
    (h : B = bd ∨ (bd = [] ∧ B = [[]])) (ho : bd ≠ [] → o = o') :
    ∃ ln', (located o ln B).foldl (lineStep step) s = (located o' ln' bd).foldl (lineStep step) s := by
  rcases h with rfl | ⟨rfl, rfl⟩
  · by_cases hB : B = []
    · subst hB; exact ⟨ln, rfl⟩
    · rw [ho hB]; exact ⟨ln, rfl⟩
  · exact ⟨ln, by rw [foldl_white step s [[]] o ln (by simp)]; rfl⟩

theorem bin_body {key : Str} (hk : GoodKey key) {B bd : List Str} (h : B = bd ∨ (bd = [] ∧ B = [[]])) :
    binLines key none B = binLines key none bd := by
  rcases h with rfl | ⟨rfl, rfl⟩
  · rfl
  · rw [binLines_white hk (by simp)]; rfl

theorem unknowns_append (a b : List Issue) : unknowns (a ++ b) = unknowns a ++ unknowns b := by
  unfold unknowns; rw [List.filterMap_append]

/-- What parsing one section adds. -/
theorem parseBody_spec {o : Nat} {raw : Str} {bd rest : List Str} {segs : List Seg} (hr : Segments o rest segs)
    (hb : ∀ l ∈ bd, ¬ Opens l) (hL : ∀ l ∈ bd ++ rest, '\n' ∉ l) {p : St} {a : Nat} (hp : p.rest = unlines (bd ++ rest))
    (ho : bd ≠ [] → p.off = a) :
    ∃ q, parseBody raw p = some q ∧ q.rest <:+ p.rest ∧ tail q.rest = trimStart (unlines rest) ∧
      q.off + byteLen q.rest = p.off + byteLen p.rest ∧
      ∀ {gs ss sf ef us}, SectionsOf q.stylesFmt q.eventsFmt gs ss sf ef us → ∃ ss' us',
        SectionsOf p.stylesFmt p.eventsFmt (⟨raw, a, bd⟩ :: gs) (ss' ++ ss) sf ef (us' ++ us) ∧
        q.sections.map said = p.sections.map said ++ ss' ∧ unknowns q.issues = unknowns p.issues ++ us' := by
  obtain ⟨hbody, htail⟩ := body_lines hr hb hL hp
  have hbn : ∀ l ∈ bd, '\n' ∉ l := fun l hl => hL l (by simp [hl])
  have hlt : p.tracker.rest.length < p.rest.length + 1 := by
    show p.rest.length < _
    omega
  have hname := InfoCmd.stripped_trim raw
  have tt : ∀ s : Str, trimStart s = tail p.rest → tail s = trimStart (unlines rest) := by
    intro s hs
    rw [← tail_trimStart, hs, htail]
    rw [htail] at hs
    cases hr with
    | nil => exact tail_nil
    | @cons _ hd _ bd' rest' _ hh _ _ =>
      have hop : opens (unlines (hd :: (bd' ++ rest'))) = true := by
        have h1 := opens_spec.2 (header_opens hh)
        by_cases hne : bd' ++ rest' = []
        · rw [hne]; exact h1
        · rw [unlines_cons hne]; exact opens_append h1
      rw [(at_section (by rw [opens_trimStart]; exact hop)).2, trimStart_idem]
  unfold parseBody
  simp only
  by_cases h1 : trim raw = "Script Info".toList
  · rw [if_pos h1]
    obtain ⟨t', e, et, hs, hby⟩ := sectionLoop_spec local_info _ ⟨[], none, []⟩ p.tracker (start_tracker p) hlt
    rw [e]
    refine ⟨_, rfl, hs, tt _ et, hby, ?_⟩
    intro gs ss sf ef us hss
    obtain ⟨ln', ef'⟩ := fold_body infoStep ⟨[], none, []⟩ (o := p.off) (o' := a) (ln := p.line) hbody ho
    obtain ⟨fs, f1, f2, is, f3, f4⟩ := info_fold bd a ln' ⟨[], none, []⟩
    have er : readLines infoStep ⟨[], none, []⟩ p.tracker = (located a ln' bd).foldl (lineStep infoStep) ⟨[], none, []⟩ := ef'
    simp only [er] at hss ⊢
    refine ⟨[.info fs], [], .info (h1 ▸ hname) f1 hss, ?_, ?_⟩
    · simp only [List.map_append, List.map_cons, List.map_nil, said]
      rw [f2]; rfl
    · rw [f3, unknowns_append, List.nil_append, f4]
  rw [if_neg h1]
  by_cases h2 : trim raw = "V4+ Styles".toList ∨ trim raw = "V4 Styles".toList ∨ trim raw = "V4++ Styles".toList
  · rw [if_pos h2]
    obtain ⟨t', e, et, hs, hby⟩ := sectionLoop_spec local_style _ ⟨none, [], []⟩ p.tracker (start_tracker p) hlt
    rw [e]
    refine ⟨_, rfl, hs, tt _ et, hby, ?_⟩
    intro gs ss sf ef us hss
    obtain ⟨ln', ef'⟩ := fold_body styleStep ⟨none, [], []⟩ (o := p.off) (o' := a) (ln := p.line) hbody ho
    obtain ⟨l, f1, f2, is, f3, f4⟩ := styles_fold bd a ln' ⟨none, [], []⟩ hbn (by simp)
    have er : readLines styleStep ⟨none, [], []⟩ p.tracker = (located a ln' bd).foldl (lineStep styleStep) ⟨none, [], []⟩ := ef'
    simp only [er] at hss ⊢
    have hk : (if ((located a ln' bd).foldl (lineStep styleStep) ⟨none, [], []⟩).fmt = none ∧
          ((located a ln' bd).foldl (lineStep styleStep) ⟨none, [], []⟩).styles ≠ [] then some styleFormat
        else ((located a ln' bd).foldl (lineStep styleStep) ⟨none, [], []⟩).fmt) =
        Spec.Script.kept ((located a ln' bd).foldl (lineStep styleStep) ⟨none, [], []⟩).fmt l := by
      have hl : (((located a ln' bd).foldl (lineStep styleStep) ⟨none, [], []⟩).styles = []) ↔ l = [] := by
        have : l = (((located a ln' bd).foldl (lineStep styleStep) ⟨none, [], []⟩).styles.map place) := by rw [f2]; rfl
        rw [this]; simp
      unfold Spec.Script.kept
      cases ((located a ln' bd).foldl (lineStep styleStep) ⟨none, [], []⟩).fmt with
      | some f => simp
      | none =>
        by_cases hl0 : l = []
        · rw [if_neg (by rw [hl.2 hl0]; simp), hl0]; rfl
        · rw [if_pos ⟨rfl, fun h => hl0 (hl.1 h)⟩]
          cases l with
          | nil => exact absurd rfl hl0
          | cons x l => rfl
    rw [hk] at hss
    refine ⟨[.styles l], [], .styles hname h2 f1 hss, ?_, ?_⟩
    · simp only [List.map_append, List.map_cons, List.map_nil, said]
      rw [f2]; rfl
    · rw [f3, unknowns_append, List.nil_append, f4]
  rw [if_neg h2]
  by_cases h3 : trim raw = "Events".toList
  · rw [if_pos h3]
    obtain ⟨t', e, et, hs, hby⟩ := sectionLoop_spec local_event _ ⟨none, [], []⟩ p.tracker (start_tracker p) hlt
    rw [e]
    refine ⟨_, rfl, hs, tt _ et, hby, ?_⟩
    intro gs ss sf ef us hss
    obtain ⟨ln', ef'⟩ := fold_body eventStep ⟨none, [], []⟩ (o := p.off) (o' := a) (ln := p.line) hbody ho
    obtain ⟨l, f1, f2, is, f3, f4⟩ := events_fold bd a ln' ⟨none, [], []⟩ hbn (by simp)
    have er : readLines eventStep ⟨none, [], []⟩ p.tracker = (located a ln' bd).foldl (lineStep eventStep) ⟨none, [], []⟩ := ef'
    simp only [er] at hss ⊢
    refine ⟨[.events l], [], .events (h3 ▸ hname) f1 hss, ?_, ?_⟩
    · simp only [List.map_append, List.map_cons, List.map_nil, said]
      rw [f2]; rfl
    · rw [f3, unknowns_append, List.nil_append, f4]
  rw [if_neg h3]
  by_cases h4 : trim raw = "Fonts".toList
  · rw [if_pos h4]
    obtain ⟨l, t', e, el, et, hs, hby⟩ := binaryLoop_spec goodKey_font _ [] p.tracker (start_tracker p) hlt
    rw [e]
    refine ⟨_, rfl, hs, tt _ et, hby, ?_⟩
    intro gs ss sf ef us hss
    rw [show body p.tracker.rest = body p.rest from rfl, bin_body goodKey_font hbody] at el
    refine ⟨[.fonts (binLines "fontname".toList none bd)], [], .fonts (h4 ▸ hname) (files_fold goodKey_font bd).1 hss, ?_, ?_⟩
    · simp only [List.map_append, List.map_cons, List.map_nil, said]
      rw [← el]; rfl
    · simp [St.after]
  rw [if_neg h4]
  by_cases h5 : trim raw = "Graphics".toList
  · rw [if_pos h5]
    obtain ⟨l, t', e, el, et, hs, hby⟩ := binaryLoop_spec goodKey_graphic _ [] p.tracker (start_tracker p) hlt
    rw [e]
    refine ⟨_, rfl, hs, tt _ et, hby, ?_⟩
    intro gs ss sf ef us hss
    rw [show body p.tracker.rest = body p.rest from rfl, bin_body goodKey_graphic hbody] at el
    refine ⟨[.graphics (binLines "filename".toList none bd)], [], .graphics (h5 ▸ hname) (files_fold goodKey_graphic bd).1 hss, ?_, ?_⟩
    · simp only [List.map_append, List.map_cons, List.map_nil, said]
      rw [← el]; rfl
    · simp [St.after]
  rw [if_neg h5]
  have hready : Ready p.rest := by
    have hL' : ∀ l ∈ rest, '\n' ∉ l := fun l hl => hL l (by simp [hl])
    exact ready_lines hr hL' htail
  obtain ⟨q, e1, e2, e3, e4, e5, -, e7⟩ := skipToNext_spec (p.rest.length + 1) p (by omega)
  rw [e1]
  simp only
  rw [skipToNext_at e5]
  refine ⟨_, rfl, e2, by rw [← htail]; exact e7 hready, e3, ?_⟩
  intro gs ss sf ef us hss
  simp only at hss
  rw [e4.2.2.2.1, e4.2.2.2.2] at hss
  refine ⟨[], [raw], .unknown (g := ⟨raw, a, bd⟩) hname ?_ hss, ?_, ?_⟩
  · rintro (h | h | h | h | h)
    · exact h1 h
    · exact h2 h
    · exact h3 h
    · exact h4 h
    · exact h5 h
  · simp only; rw [e4.2.1]; simp
  · simp only; rw [unknowns_append, e4.2.2.1]; rfl

/-- The loop of the parser on lines that fall into sections. -/
theorem mainLoop_doc {o : Nat} {L : List Str} {segs : List Seg} (h : Segments o L segs) : ∀ {n : Nat} {p : St},
    p.rest.length < n → (∀ l ∈ L, '\n' ∉ l) → tail p.rest = trimStart (unlines L) →
    (L ≠ [] → p.off + byteLen p.rest = o + byteLen (unlines L)) →
    ∃ q ss us, mainLoop n p = some q ∧ SectionsOf p.stylesFmt p.eventsFmt segs ss q.stylesFmt q.eventsFmt us ∧
      q.sections.map said = p.sections.map said ++ ss ∧ unknowns q.issues = unknowns p.issues ++ us := by
  have alike : ∀ {p q : St}, Alike p q → unknowns q.issues = unknowns p.issues := by
    intro p q ha
    rcases ha.2.2.1 with e | ⟨l, e⟩
    · rw [e]
    · rw [e, unknowns_append]; exact List.append_nil _
  induction h with
  | nil o =>
    intro n p hn hL ht _
    obtain ⟨m, q, e1, e2, e3, ha, -⟩ := mainLoop_reach hn (Or.inl ht)
    have hq : q.rest = [] := by rw [e3, ht]; rfl
    obtain ⟨m, rfl⟩ : ∃ k, m = k + 1 := ⟨m - 1, by omega⟩
    refine ⟨q, [], [], ?_, ?_, by rw [ha.2.1]; simp, by rw [alike ha]; simp⟩
    · rw [e1, mainLoop, if_pos hq]
    · rw [ha.2.2.2.1, ha.2.2.2.2]; exact .nil
  | @cons o hd raw bd rest segs hh hb hr ih =>
    intro n p hn hL ht hoff
    have hready := ready_lines (.cons hh hb hr) hL ht
    obtain ⟨m, q, e1, e2, e3, ha, e4⟩ := mainLoop_reach hn hready
    obtain ⟨w, x, ehd, hw, hn'⟩ := hh
    -- the text at the header
    obtain ⟨y, hy, hyL⟩ : ∃ y, unlines (hd :: (bd ++ rest)) = hd ++ y ∧
        ((bd ++ rest = [] ∧ y = []) ∨ (bd ++ rest ≠ [] ∧ y = '\n' :: unlines (bd ++ rest))) := by
      by_cases hne : bd ++ rest = []
      · exact ⟨[], by rw [hne]; simp [unlines], Or.inl ⟨hne, rfl⟩⟩
      · exact ⟨_, unlines_cons hne, Or.inr ⟨hne, rfl⟩⟩
    have hww : ∀ c ∈ w, isWs c = true := fun c hc => (SrtDoc.white_iff c).2 (hw c hc)
    have hq : q.rest = '[' :: raw ++ ']' :: (x ++ y) := by
      rw [e3, ht, hy, ehd]
      have : w ++ '[' :: raw ++ ']' :: x ++ y = w ++ '[' :: (raw ++ ']' :: (x ++ y)) := by simp
      rw [this, trimStart_append_ws _ hww, trimStart_cons isWs_bracket]
      rfl
    obtain ⟨m, rfl⟩ : ∃ k, m = k + 1 := ⟨m - 1, by omega⟩
    have hqne : q.rest ≠ [] := by rw [hq]; simp
    have htop : skipTop (q.rest.length + 1) q = some q := by
      apply skipTop_at
      right
      have hts : trimStart q.rest = q.rest := by
        rw [hq]; exact trimStart_cons isWs_bracket
      refine ⟨hts, ?_⟩
      rw [hts, hq]
      rintro (h | h)
      · obtain ⟨r, hr⟩ := startsWith_iff.1 h
        simp at hr
      · obtain ⟨r, hr⟩ := startsWith_iff.1 h
        simp at hr
    have hsp : splitOnce ']' q.rest = some ('[' :: raw, x ++ y) := by
      rw [hq]
      apply splitOnce_append
      simp [hn']
    have hxl : '\n' ∉ x := by
      intro h; apply hL hd (by simp); rw [ehd]; simp [h]
    -- after the header line
    have hsk : (({ q with rest := x ++ y, off := q.off + byteLen ('[' :: raw) + 1 } : St).skipLine).rest = unlines (bd ++ rest) := by
      unfold St.skipLine
      simp only
      rcases hyL with ⟨h0, rfl⟩ | ⟨-, rfl⟩
      · rw [List.append_nil, splitOnce_none hxl, h0]; rfl
      · rw [splitOnce_append _ hxl]
    have hqb : byteLen q.rest = byteLen ('[' :: raw) + 1 + byteLen (x ++ y) := by
      rw [hq, byteLen_append, byteLen_cons ']', show Char.utf8Size ']' = 1 by decide]; omega
    have hskb : (({ q with rest := x ++ y, off := q.off + byteLen ('[' :: raw) + 1 } : St).skipLine).off +
        byteLen (unlines (bd ++ rest)) = p.off + byteLen p.rest := by
      rw [← hsk, St.skipLine_bytes]
      simp only
      omega
    have htot := hoff (by simp)
    have ha2 : bd ≠ [] → (({ q with rest := x ++ y, off := q.off + byteLen ('[' :: raw) + 1 } : St).skipLine).off =
        o + size hd + 1 := by
      intro hbd
      have hne : bd ++ rest ≠ [] := by simp [hbd]
      rw [unlines_cons hne, byteLen_append, byteLen_cons, show Char.utf8Size '\n' = 1 by decide] at htot
      rw [size_eq]; omega
    obtain ⟨r, f1, f2, f3, f4, f5⟩ := parseBody_spec (raw := raw) hr hb (fun l hl => hL l (by simp at hl ⊢; exact Or.inr hl)) hsk ha2
    have hone : parseOne q = some r := by
      unfold parseOne
      rw [if_pos (by rw [hq]; exact startsWith_iff.2 ⟨_, rfl⟩), hsp]
      exact f1
    have hlt : r.rest.length < m := by
      have h1 := f2.length_le
      have h2 := (St.skipLine_suffix ({ q with rest := x ++ y, off := q.off + byteLen ('[' :: raw) + 1 } : St)).length_le
      have h3 : q.rest.length = raw.length + 2 + (x ++ y).length := by rw [hq]; simp; omega
      simp only at h2
      omega
    have hoff2 : rest ≠ [] → r.off + byteLen r.rest = o + size hd + 1 + sizes bd + byteLen (unlines rest) := by
      intro hrest
      rw [f4, hsk, hskb]
      have hne : bd ++ rest ≠ [] := by simp [hrest]
      rw [unlines_cons hne, byteLen_append, byteLen_cons, size_unlines hrest, show Char.utf8Size '\n' = 1 by decide] at htot
      rw [size_eq]; omega
    obtain ⟨z, ss, us, g1, g2, g3, g4⟩ := ih hlt (fun l hl => hL l (by simp [hl])) f3 hoff2
    obtain ⟨ss', us', k1, k2, k3⟩ := f5 g2
    have hsame := (same_skipLine ({ q with rest := x ++ y, off := q.off + byteLen ('[' :: raw) + 1 } : St))
    refine ⟨z, ss' ++ ss, us' ++ us, ?_, ?_, ?_, ?_⟩
    · rw [e1, mainLoop, if_neg hqne, htop]
      simp only
      rw [if_neg hqne, hone]
      exact g1
    · rw [hsame.2.2.2.1, hsame.2.2.2.2] at k1
      simp only at k1
      rw [ha.2.2.2.1, ha.2.2.2.2] at k1
      exact k1
    · rw [g3, k2, hsame.2.1]
      simp only
      rw [ha.2.1]; simp
    · rw [g4, k3, hsame.2.2.1]
      simp only
      rw [alike ha]; simp

end Verif.Parser
