import Verif.Lemmas.MediaCmd
/-! Property C77: listing, adding, removing and clearing embedded files. -/
namespace Verif
open Verif.Media
open Verif.Parser (unlines_cons)
open Verif.Spec.Script (unlines)
open Verif.Spec.Media
open Verif.Spec.InfoCmd (Stripped)

/-- **C77 (listing).** The list is that of the names in the lines `key: name` of the section, in order. -/
theorem C77_list {hd key c pre sec post : Str} {L : List Str} (h : Place hd c pre sec post) (hL : sec = unlines L)
    (hnl : ∀ l ∈ L, '\n' ∉ l) : Named key L (list hd key c) := by
  rw [list_eq h, hL]
  by_cases hne : L = []
  · rw [hne]
    have : (splitOn '\n' (unlines [])).filterMap (named key) = [] := by
      show [([] : Str)].filterMap (named key) = []
      simp [named_nil]
    rw [this]; exact .nil
  · rw [Parser.split_unlines hne hnl]; exact named_spec key L

/-- Without a section the list is empty. -/
theorem C77_list_none {hd key c : Str} (h : Lacks hd c) : list hd key c = [] := by
  have : parts hd c = none := by unfold parts; rw [splitOnceStr_none.2 h]
  unfold list; rw [this]

/-- **C77 (adding to a document without the section).** The list is then the new name alone. -/
theorem C77_add_new {hd key name n c : Str} {ls : List Str} (hk : Kind hd key) (hn : '\n' ∉ name) (hs : Stripped name n)
    (hd' : DataLines key ls) (h : Lacks hd c) : list hd key (add hd key name ls c) = [n] := by
  have hp := place_add_new hk hn hd' h (name := name)
  obtain ⟨k1, -, ⟨x, k3⟩, y, k4⟩ := kind_ok hk
  have : named key hd = none := by
    unfold named
    cases e : stripPrefix (key ++ ": ".toList) hd with
    | none => rfl
    | some z =>
      rw [stripPrefix_iff, k3, k4] at e
      exact absurd (List.cons.inj e).1 (by decide)
  rw [list_eq hp, splitOn_at, splitOn_of_not_mem k1, entry_pieces hk hn hd', List.singleton_append, List.filterMap_cons, this]
  exact entry_names hs hd'

example : list "[Fonts]".toList "fontname".toList
    (add "[Fonts]".toList "fontname".toList "a b".toList ["x".toList] "[Events]".toList) = ["a b".toList] := by decide

/-- **C77 (adding to a section), partial.** If the section ends with a line end, the new name comes after the old ones.

Missing: sections that do not (`C77_add_violated`). -/
theorem C77_add_partial {hd key name n c pre sec post : Str} {ls : List Str} (hk : Kind hd key) (hn : '\n' ∉ name)
    (hs : Stripped name n) (hd' : DataLines key ls) (h : Place hd c pre sec post) (hsec : sec.getLast? = some '\n') :
    list hd key (add hd key name ls c) = list hd key c ++ [n] := by
  obtain ⟨h1, h2, h3⟩ := place_add hk hn hd' h hsec (name := name)
  rw [list_eq h1, list_eq h, h2, List.filterMap_append, entry_names hs hd']
  conv => rhs; rw [h3]
  rw [List.filterMap_append]
  simp [named_nil]

/-- The hypotheses hold for a usual document. -/
example : Place "[Fonts]".toList "[Fonts]\nfontname: a\n\n[Events]\n".toList [] "[Fonts]\nfontname: a\n".toList "\n[Events]\n".toList :=
  parts_place (by decide) (by decide)
example : list "[Fonts]".toList "fontname".toList (add "[Fonts]".toList "fontname".toList "b".toList ["x".toList]
    "[Fonts]\nfontname: a\n\n[Events]\n".toList) = ["a".toList, "b".toList] := by decide

/-- **C77 is violated (adding)**: where the next header follows directly, the new entry is glued to the last line. -/
theorem C77_add_violated : ∃ (c name : Str) (ls : List Str), DataLines "fontname".toList ls ∧
    list "[Fonts]".toList "fontname".toList c = ["a".toList] ∧
    list "[Fonts]".toList "fontname".toList (add "[Fonts]".toList "fontname".toList name ls c) = ["a".toList] :=
  ⟨"[Fonts]\nfontname: a\nend\n[Events]\n".toList, "b".toList, [], (by intro l hl; cases hl), by decide, by decide⟩

/-- **C77 (clearing).** After clearing, the list is empty; everything outside the section stays, and of the section a first
part without line end (but perhaps at its end) stays. -/
theorem C77_clear {hd key c : Str} (hk : Kind hd key) : list hd key (clear hd c) = [] ∧
    ∀ pre sec post, Place hd c pre sec post → ∃ x y, sec = x ++ y ∧ clear hd c = pre ++ x ++ post ∧ '\n' ∉ x.dropLast := by
  obtain ⟨k1, -, ⟨z, k3⟩, w, k4⟩ := kind_ok hk
  cases hp : parts hd c with
  | none =>
    have : clear hd c = c := by unfold clear; rw [hp]
    rw [this]
    refine ⟨by unfold list; rw [hp], ?_⟩
    intro pre sec post h
    rw [place_parts h] at hp; cases hp
  | some q =>
    obtain ⟨pre, sec, post⟩ := q
    have hpl := parts_place k1 hp
    obtain ⟨x, hx⟩ := hpl.header
    -- lines of a section cut after its first line name nothing
    have hnone : ∀ r, named key (hd ++ r) = none := by
      intro r
      unfold named
      cases e : stripPrefix (key ++ ": ".toList) (hd ++ r) with
      | none => rfl
      | some z =>
        rw [stripPrefix_iff, k3, k4] at e
        exact absurd (List.cons.inj e).1 (by decide)
    -- a first part of the section, with at most a line end at its end
    obtain ⟨r, e, u, v, hsec, hclear, hu, he⟩ : ∃ r e u v : Str, sec = u ++ v ∧ clear hd c = pre ++ u ++ post ∧ u = hd ++ r ++ e ∧
        '\n' ∉ r ∧ (e = [] ∨ e = ['\n']) := by
      unfold clear
      rw [hp]
      simp only
      rcases hq : splitOnce '\n' (sec ++ post) with _ | ⟨l, r⟩
      · have hno := splitOnce_eq_none hq
        have hpost : post = [] := by
          rcases hpl.after with h | ⟨r, h⟩
          · exact h
          · exact absurd (by rw [h]; simp) hno
        simp only
        by_cases hlen : sec.length > hd.length
        · rw [if_pos hlen]
          exact ⟨[], [], hd, x, hx, rfl, by simp, by simp, Or.inl rfl⟩
        · rw [if_neg hlen]
          exact ⟨x, [], sec, [], by simp, hpl.text, by rw [hx]; simp, fun h => hno (by rw [hx]; simp [h]), Or.inl rfl⟩
      · obtain ⟨e1, e2⟩ := splitOnce_some hq
        simp only
        -- the first line holds the header
        have hl : ∃ r', l = hd ++ r' := by
          rw [hx, List.append_assoc] at e1
          rcases List.append_eq_append_iff.1 e1 with ⟨as, q1, -⟩ | ⟨bs, q1, q2⟩
          · exact ⟨as, q1⟩
          · cases bs with
            | nil => exact ⟨[], by rw [q1]; simp⟩
            | cons d bs => exact absurd (by rw [q1, ← (List.cons.inj q2).1]; simp) k1
        obtain ⟨r', hr'⟩ := hl
        have hnr : '\n' ∉ r' := fun h => e2 (by rw [hr']; simp [h])
        by_cases hlen : sec.length > l.length + 1
        · rw [if_pos hlen]
          have hs : ∃ v, sec = l ++ ['\n'] ++ v := by
            have e3 : sec ++ post = (l ++ ['\n']) ++ r := by rw [e1]; simp
            rcases List.append_eq_append_iff.1 e3 with ⟨as, q1, -⟩ | ⟨bs, q1, q2⟩
            · have := congrArg List.length q1
              simp at this; omega
            · exact ⟨bs, q1⟩
          obtain ⟨v, hv⟩ := hs
          exact ⟨r', ['\n'], l ++ ['\n'], v, hv, by simp, by rw [hr'], hnr, Or.inr rfl⟩
        · rw [if_neg hlen]
          rcases List.append_eq_append_iff.1 e1 with ⟨as, q1, q2⟩ | ⟨bs, q1, q2⟩
          · -- the section is shorter than its first line: it is the line
            have hb : as = [] := by
              cases as with
              | nil => rfl
              | cons d as =>
                rcases hpl.after with h | ⟨r2, h⟩
                · rw [h] at q2; cases q2
                · rw [h] at q2
                  have : '\n' = d := (List.cons.inj q2).1
                  exact absurd (by rw [q1, ← this]; simp) e2
            rw [hb, List.append_nil] at q1
            exact ⟨r', [], sec, [], by simp, hpl.text, by rw [← q1, hr', List.append_nil], hnr, Or.inl rfl⟩
          · have hlb : bs.length ≤ 1 := by
              have := congrArg List.length q1
              simp at this; omega
            cases bs with
            | nil => exact ⟨r', [], sec, [], by simp, hpl.text, by rw [q1, hr', List.append_nil], hnr, Or.inl rfl⟩
            | cons d bs =>
              have hd2 : '\n' = d := (List.cons.inj q2).1
              have hbs : bs = [] := by simpa using hlb
              exact ⟨r', ['\n'], sec, [], by simp, hpl.text, by rw [q1, hr', hbs, ← hd2], hnr, Or.inr rfl⟩
    constructor
    · have hnew : Place hd (clear hd c) pre u post := by
        refine ⟨hclear, ⟨r ++ e, by rw [hu]; simp⟩, ?_, ?_, hpl.after⟩
        · rw [hclear, hu]
          have hf := hpl.first
          rw [hpl.text, hx] at hf
          have := first_stays (y := r ++ e ++ post) (x := x ++ post) (hd := hd) (pre := pre) (by
            intro a b e; exact hf a b (by rw [← e]; simp))
          intro a b e; exact this a b (by rw [← e]; simp)
        · intro a b hab
          exact hpl.inside a (b ++ v) (by rw [hsec, hab]; simp)
      rw [list_eq hnew, hu]
      have hnn : '\n' ∉ hd ++ r := by
        simp only [List.mem_append, not_or]; exact ⟨k1, he.1⟩
      rcases he.2 with h | h
      · rw [h, List.append_nil, splitOn_of_not_mem hnn]
        simp [hnone]
      · rw [h, splitOn_append_sep _ hnn]
        show ((hd ++ r) :: [[]]).filterMap (named key) = []
        simp [hnone, named_nil]
    · intro pre' sec' post' h'
      have := place_parts h'
      rw [hp] at this
      obtain ⟨rfl, h2⟩ := Prod.mk.inj (Option.some.inj this)
      obtain ⟨rfl, rfl⟩ := Prod.mk.inj h2
      refine ⟨u, v, hsec, hclear, ?_⟩
      rw [hu]
      rcases he.2 with h | h
      · rw [h, List.append_nil]
        intro hm
        have := (List.dropLast_subset _) hm
        rcases List.mem_append.1 this with h3 | h3
        · exact k1 h3
        · exact he.1 h3
      · rw [h, List.dropLast_concat]
        simp only [List.mem_append, not_or]; exact ⟨k1, he.1⟩

example : clear "[Fonts]".toList "a\n[Fonts]\nfontname: a\nend\n\n[Events]\n".toList = "a\n[Fonts]\n\n[Events]\n".toList := by decide

/-- A name in front of a line end. -/
private theorem prefix_line {K b m z : Str} (hK : '\n' ∉ K) (e : K ++ b = m ++ z) (hz : z = [] ∨ z.head? = some '\n') :
    ∃ r, m = K ++ r := by
  rcases List.append_eq_append_iff.1 e with ⟨as, q1, -⟩ | ⟨bs, q1, q2⟩
  · exact ⟨as, q1⟩
  · cases bs with
    | nil => exact ⟨[], by rw [q1]; simp⟩
    | cons d bs =>
      rcases hz with hz | hz
      · rw [hz] at q2; cases q2
      · rw [q2] at hz
        exact absurd (by rw [q1, Option.some.inj hz]; simp) hK

/-- A text without line end occurs within a line. -/
private theorem occurs_line {P : Str} (hP : '\n' ∉ P) : ∀ {A : List Str} {rest a b : Str}, A ≠ [] →
    unlines A ++ '\n' :: rest = a ++ (P ++ b) → a.length ≤ (unlines A).length → ∃ l ∈ A, ¬ Lacks P l
  | [], _, _, _, h, _, _ => absurd rfl h
  | l :: A, rest, a, b, _, e, hlen => by
    by_cases hal : a.length ≤ l.length
    · -- the occurrence starts in the first line
      obtain ⟨z, hz, e'⟩ : ∃ z, z.head? = some '\n' ∧ l ++ z = a ++ (P ++ b) := by
        by_cases hne : A = []
        · subst hne; exact ⟨'\n' :: rest, rfl, by rw [← e]; rfl⟩
        · rw [unlines_cons hne] at e
          exact ⟨'\n' :: (unlines A ++ '\n' :: rest), rfl, by rw [← e]; simp⟩
      rcases List.append_eq_append_iff.1 e' with ⟨as, q1, q2⟩ | ⟨bs, q1, q2⟩
      · have : as = [] := by
          have := congrArg List.length q1
          simp at this
          apply List.length_eq_zero_iff.1; omega
        rw [this, List.nil_append] at q2
        obtain ⟨r, hr⟩ := prefix_line (m := []) hP q2.symm (Or.inr hz)
        have hPn : P = [] := by
          cases P with
          | nil => rfl
          | cons c P => cases hr
        exact ⟨l, by simp, fun h => h [] l (by rw [hPn]; simp)⟩
      · obtain ⟨r, hr⟩ := prefix_line hP q2 (Or.inr hz)
        exact ⟨l, by simp, fun h => h a r (by rw [q1, hr]; simp)⟩
    · by_cases hne : A = []
      · subst hne; exact absurd hlen hal
      · rw [unlines_cons hne] at e hlen
        have e1 : (l ++ ['\n']) ++ (unlines A ++ '\n' :: rest) = a ++ (P ++ b) := by rw [← e]; simp
        rcases List.append_eq_append_iff.1 e1 with ⟨as, q1, q2⟩ | ⟨bs, q1, -⟩
        · obtain ⟨m, hm, h⟩ := occurs_line hP hne q2 (by
            have := congrArg List.length q1
            simp at this hlen; omega)
          exact ⟨m, .tail _ hm, h⟩
        · have : bs = [] := by
            have := congrArg List.length q1
            simp at this
            apply List.length_eq_zero_iff.1; omega
          rw [this, List.append_nil] at q1
          rw [← q1] at e1
          obtain ⟨m, hm, h⟩ := occurs_line (a := []) (b := b) hP hne (by
            have := List.append_cancel_left e1
            simpa using this) (by simp)
          exact ⟨m, .tail _ hm, h⟩

/-- Where a line begins with a given text. -/
private theorem begins_line {K : Str} (hK : '\n' ∉ K) : ∀ {L : List Str} {z a b : Str}, L ≠ [] → (∀ l ∈ L, '\n' ∉ l) →
    (z = [] ∨ z.head? = some '\n') → unlines L ++ z = a ++ ('\n' :: (K ++ b)) →
    (∃ l ∈ L.tail, ∃ r, l = K ++ r) ∨ (unlines L).length ≤ a.length
  | [], _, _, _, h, _, _, _ => absurd rfl h
  | l :: L, z, a, b, _, hnl, hz, e => by
    by_cases hne : L = []
    · subst hne
      right
      rcases Nat.lt_or_ge a.length l.length with hlt | hge
      · exfalso
        have e' : l ++ z = a ++ ('\n' :: (K ++ b)) := e
        rcases List.append_eq_append_iff.1 e' with ⟨as, q1, -⟩ | ⟨bs, q1, q2⟩
        · have := congrArg List.length q1
          simp at this; omega
        · cases bs with
          | nil => rw [q1] at hlt; simp at hlt
          | cons d bs =>
            exact hnl l (by simp) (by rw [q1, ← (List.cons.inj q2).1]; simp)
      · exact hge
    · rw [unlines_cons hne] at e
      have e' : l ++ ('\n' :: (unlines L ++ z)) = a ++ ('\n' :: (K ++ b)) := by rw [← e]; simp
      have hlen : (unlines (l :: L)).length = l.length + 1 + (unlines L).length := by rw [unlines_cons hne]; simp; omega
      rcases List.append_eq_append_iff.1 e' with ⟨as, q1, q2⟩ | ⟨bs, q1, q2⟩
      · cases as with
        | nil =>
          -- the next line begins so
          left
          have e2 : K ++ b = unlines L ++ z := ((List.cons.inj q2).2).symm
          cases L with
          | nil => exact absurd rfl hne
          | cons m M =>
            obtain ⟨y, hy, hy2⟩ : ∃ y, unlines (m :: M) ++ z = m ++ y ∧ (y = [] ∨ y.head? = some '\n') := by
              by_cases hM : M = []
              · subst hM; exact ⟨z, rfl, hz⟩
              · exact ⟨'\n' :: (unlines M ++ z), by rw [unlines_cons hM]; simp, Or.inr rfl⟩
            obtain ⟨r, hr⟩ := prefix_line hK (e2.trans hy) hy2
            exact ⟨m, by simp, r, hr⟩
        | cons d as =>
          rcases begins_line hK (a := as) (b := b) hne (fun x hx => hnl x (by simp [hx])) hz ((List.cons.inj q2).2) with
            ⟨m, hm, h⟩ | h
          · left
            refine ⟨m, ?_, h⟩
            cases L with
            | nil => exact absurd rfl hne
            | cons y Y => exact .tail _ hm
          · right
            rw [hlen, q1]
            simp; omega
      · cases bs with
        | nil =>
          left
          have e2 : K ++ b = unlines L ++ z := ((List.cons.inj q2).2)
          cases L with
          | nil => exact absurd rfl hne
          | cons m M =>
            obtain ⟨y, hy, hy2⟩ : ∃ y, unlines (m :: M) ++ z = m ++ y ∧ (y = [] ∨ y.head? = some '\n') := by
              by_cases hM : M = []
              · subst hM; exact ⟨z, rfl, hz⟩
              · exact ⟨'\n' :: (unlines M ++ z), by rw [unlines_cons hM]; simp, Or.inr rfl⟩
            obtain ⟨r, hr⟩ := prefix_line hK (e2.trans hy) hy2
            exact ⟨m, by simp, r, hr⟩
        | cons d bs => exact absurd (by rw [q1, ← (List.cons.inj q2).1]; simp) (hnl l (by simp))

/-- **C77 (removing), partial.** If the lines before the entry do not contain `key: name`, and the entry's data lines are
followed by the line of another entry, or by the end of the section with no `key:` beginning a line later in the document,
then exactly the entry's lines are replaced by one empty line.

Missing: names that begin others (`C77_remove_prefix_violated`), later sections of the kind
(`C77_remove_extent_violated`). -/
theorem C77_remove_partial {hd key name c pre sec post : Str} {A D B : List Str} (hk : Kind hd key)
    (h : Place hd c pre sec post) (hsec : sec = unlines (A ++ (key ++ ": ".toList ++ name) :: (D ++ B))) (hA : A ≠ [])
    (hnl : ∀ l ∈ A ++ (key ++ ": ".toList ++ name) :: (D ++ B), '\n' ∉ l) (hfirst : ∀ l ∈ A, Lacks (key ++ ": ".toList ++ name) l)
    (hD : ∀ l ∈ D, ∀ r, l ≠ key ++ ":".toList ++ r)
    (hB : (∃ r B', B = (key ++ ":".toList ++ r) :: B') ∨ (B = [] ∧ Lacks ("\n".toList ++ key ++ ":".toList) post)) :
    remove hd key name c = some (pre ++ unlines (A ++ [] :: B) ++ post) := by
  generalize hP : key ++ ": ".toList ++ name = P at *
  have hPn : '\n' ∉ P := hnl P (by simp)
  have hPl : 0 < P.length := by rw [← hP]; simp; omega
  have hkey := (kind_ok hk).2.1
  -- the section around the entry
  obtain ⟨b, hb, hbu⟩ : ∃ b, sec = unlines A ++ ['\n'] ++ P ++ b ∧ P ++ b = unlines (P :: (D ++ B)) := by
    by_cases hne : D ++ B = []
    · refine ⟨[], ?_, by rw [hne]; simp [unlines]⟩
      rw [hsec, hne, unlines_snoc_append hA (by simp)]
      simp [unlines]
    · refine ⟨'\n' :: unlines (D ++ B), ?_, by rw [unlines_cons hne]⟩
      rw [hsec, unlines_snoc_append hA (by simp), unlines_cons hne]; simp
  have h1 : splitOnceStr P sec = some (unlines A ++ ['\n'], b) := by
    rw [hb]
    apply splitOnceStr_first
    intro a' b' e
    rcases Nat.lt_or_ge a'.length (unlines A ++ ['\n']).length with hlt | hge
    · exfalso
      obtain ⟨l, hl, hlk⟩ := occurs_line (A := A) (rest := P ++ b) (a := a') (b := b') hPn hA (by
        rw [← List.append_assoc, ← e]; simp) (by simp at hlt; omega)
      exact hlk (hfirst l hl)
    · exact hge
  unfold remove
  rw [place_parts h]
  simp only
  rw [hP, h1]
  simp only
  have hKn : '\n' ∉ key ++ ":".toList := by
    simp only [List.mem_append, not_or]; exact ⟨hkey, by decide⟩
  have hpost : post = [] ∨ post.head? = some '\n' := by
    rcases h.after with h | ⟨r, h⟩
    · exact Or.inl h
    · right; rw [h]; rfl
  have hPD : ∀ l ∈ P :: D, '\n' ∉ l := fun l hl => hnl l (by
    rcases List.mem_cons.1 hl with h | h
    · simp [h]
    · simp [h])
  rcases hB with ⟨r, B', hB⟩ | ⟨hB, hlk⟩
  · -- another entry follows
    obtain ⟨y, hy, hyB⟩ : ∃ y, unlines B = key ++ ":".toList ++ r ++ y ∧ (y = [] ∨ y.head? = some '\n') := by
      rw [hB]
      by_cases hne : B' = []
      · exact ⟨[], by rw [hne]; simp [unlines], Or.inl rfl⟩
      · exact ⟨'\n' :: unlines B', by rw [unlines_cons hne], Or.inr rfl⟩
    have hBne : B ≠ [] := by rw [hB]; simp
    have e1 : P ++ b ++ post = unlines (P :: D) ++ ("\n".toList ++ key ++ ":".toList) ++ (r ++ y ++ post) := by
      rw [hbu, ← List.cons_append, unlines_snoc_append (by simp) hBne, hy]; simp
    have h2 : splitOnceStr ("\n".toList ++ key ++ ":".toList) (P ++ b ++ post) = some (unlines (P :: D), r ++ y ++ post) := by
      rw [e1]
      apply splitOnceStr_first
      intro a' b' e
      have e' : unlines (P :: D) ++ ('\n' :: (key ++ ":".toList ++ (r ++ y ++ post))) = a' ++ ('\n' :: ((key ++ ":".toList) ++ b')) := by
        have := e; simp only [List.append_assoc] at this; simpa using this
      rcases begins_line hKn (by simp) hPD (Or.inr rfl) e' with ⟨l, hl, r', hr'⟩ | h
      · exact absurd hr' (hD l hl r')
      · exact h
    rw [h2]
    simp only
    rw [unlines_snoc_append hA (by simp), unlines_cons hBne, hy]
    simp
  · -- the end of the section follows
    have e1 : P ++ b ++ post = unlines (P :: D) ++ post := by rw [hbu, hB, List.append_nil]
    have h2 : splitOnceStr ("\n".toList ++ key ++ ":".toList) (P ++ b ++ post) = none := by
      rw [splitOnceStr_none, e1]
      intro a' b' e
      have e' : unlines (P :: D) ++ post = a' ++ ('\n' :: ((key ++ ":".toList) ++ b')) := by
        rw [e]; simp
      rcases begins_line hKn (by simp) hPD hpost e' with ⟨l, hl, r', hr'⟩ | h
      · exact absurd hr' (hD l hl r')
      · rcases List.append_eq_append_iff.1 e' with ⟨as, q1, q2⟩ | ⟨bs, q1, q2⟩
        · exact hlk as b' (by rw [q2]; simp)
        · have : bs = [] := by
            have := congrArg List.length q1
            simp at this
            apply List.length_eq_zero_iff.1; omega
          rw [this, List.nil_append] at q2
          exact hlk [] b' (by rw [← q2]; simp)
    rw [h2]
    simp only
    rw [hB, unlines_snoc_append hA (by simp)]
    simp [unlines]

example : remove "[Fonts]".toList "fontname".toList "a".toList "[Fonts]\nfontname: a\nx\nfontname: b\ny\n\n[Events]".toList =
    some "[Fonts]\n\nfontname: b\ny\n\n[Events]".toList := by decide

/-- **C77 is violated (removing, the name)**: removing `a` removes the font `ab`. -/
theorem C77_remove_prefix_violated : ∃ (c : Str), list "[Fonts]".toList "fontname".toList c = ["ab".toList, "a".toList] ∧
    (remove "[Fonts]".toList "fontname".toList "a".toList c).map (list "[Fonts]".toList "fontname".toList) = some ["a".toList] :=
  ⟨"[Fonts]\nfontname: ab\nx\nfontname: a\ny\n".toList, by decide, by decide⟩

/-- **C77 is violated (removing, the extent)**: removing the last font of a section removes all sections up to the next line
`fontname:` in the document. -/
theorem C77_remove_extent_violated : ∃ (c ev : Str), containsStr ev c = true ∧
    (remove "[Fonts]".toList "fontname".toList "a".toList c).map (containsStr ev) = some false :=
  ⟨"[Fonts]\nfontname: a\n[Events]\nDialogue: b\n[Fonts]\nfontname: c\n".toList, "[Events]\nDialogue: b".toList, by decide, by decide⟩

end Verif
