import Verif.Model.InfoCmd
import Verif.Spec.InfoCmd
import Verif.Lemmas.EventCmd
/-! # Lemmas for the script property commands -/
namespace Verif.InfoCmd
open Verif Verif.Doc Verif.Pos Verif.EventCmd
open Verif.Spec.EventCmd (Lacks Trimmed White)
open Verif.Spec.InfoCmd

/-! ## Texts that lack a pattern -/

theorem lacks_left {pat s t : Str} (h : Lacks pat (s ++ t)) : Lacks pat s := by
  intro a b e; exact h a (b ++ t) (by rw [e]; simp)

theorem lacks_right {pat s t : Str} (h : Lacks pat (s ++ t)) : Lacks pat t := by
  intro a b e; exact h (s ++ a) b (by rw [e]; simp)

theorem lacks_mem {pat s : Str} {c : Char} (hc : c ∈ pat) (hs : c ∉ s) : Lacks pat s := by
  intro a b e; apply hs; rw [e]; simp [hc]

theorem lacks_len {pat s : Str} (h : s.length < pat.length) : Lacks pat s := by
  intro a b e; rw [e] at h; simp at h; omega

/-- A pattern without line feed does not cross one. -/
theorem lacks_nl {pat s t : Str} (hp : '\n' ∉ pat) (h0 : pat ≠ []) (hs : Lacks pat s) (ht : Lacks pat t) :
    Lacks pat (s ++ '\n' :: t) := by
  intro a b e
  rw [List.append_assoc] at e
  rcases List.append_eq_append_iff.1 e with ⟨x, e1, e2⟩ | ⟨x, e1, e2⟩
  · -- a = s ++ x
    cases x with
    | nil =>
      simp at e2
      cases pat with
      | nil => exact h0 rfl
      | cons p ps => simp at e2; exact hp (by rw [← e2.1]; simp)
    | cons y x => simp at e2; exact ht x b (by rw [e2.2]; simp)
  · -- s = a ++ x, x ++ '\n' :: t = pat ++ b
    rcases List.append_eq_append_iff.1 e2 with ⟨z, e3, e4⟩ | ⟨z, e3, e4⟩
    · -- x = pat ++ z
      exact hs a z (by rw [e1, e3]; simp)
    · cases z with
      | nil => exact hs a [] (by rw [e1, ← (by simpa using e3 : pat = x)]; simp)
      | cons y z => simp at e4; exact hp (by rw [e3, ← e4.1]; simp)

/-- A pattern of two characters occurs in neither part and not across. -/
theorem lacks_two {x y : Char} {s t : Str} (hs : Lacks [x, y] s) (ht : Lacks [x, y] t)
    (hst : s.getLast? ≠ some x ∨ t.head? ≠ some y) : Lacks [x, y] (s ++ t) := by
  intro a b e
  rw [List.append_assoc] at e
  rcases List.append_eq_append_iff.1 e with ⟨z, e1, e2⟩ | ⟨z, e1, e2⟩
  · exact ht z b (by rw [e2]; simp)
  · match z, e1, e2 with
    | [], e1, e2 => exact ht [] b (by simpa using e2.symm)
    | [w], e1, e2 =>
      simp at e2
      rcases hst with h | h
      · apply h; rw [e1, e2.1]; simp
      · apply h; rw [← e2.2]; rfl
    | w :: w' :: z, e1, e2 =>
      simp at e2
      exact hs a z (by rw [e1, ← e2.1, ← e2.2.1]; simp)

/-- The first occurrence of a pattern that has a character not found before. -/
theorem first_of_mem {pat A : Str} {c : Char} (b : Str) (hc : c ∈ pat) (hA : c ∉ A) :
    splitOnceStr pat (A ++ pat ++ b) = some (A, b) := by
  apply splitOnceStr_first
  intro a' b' e
  by_cases hl : A.length ≤ a'.length
  · exact hl
  exfalso
  cases hp : splitOnce c pat with
  | none => exact splitOnce_eq_none hp hc
  | some q =>
    obtain ⟨u, w⟩ := q
    obtain ⟨hu, hcu⟩ := splitOnce_some hp
    have hpre : ∃ z, A = a' ++ z := by
      rw [List.append_assoc, List.append_assoc] at e
      rcases List.append_eq_append_iff.1 e with ⟨x, e1, e2⟩ | ⟨x, e1, e2⟩
      · rw [e1] at hl; simp at hl
      · exact ⟨x, e1⟩
    obtain ⟨z, hz⟩ := hpre
    have h1 : splitOnce c (A ++ pat ++ b) = some (A ++ u, w ++ b) := by
      rw [hu, show A ++ (u ++ c :: w) ++ b = (A ++ u) ++ c :: (w ++ b) by simp]
      exact splitOnce_append _ (by simp [hA, hcu])
    have h2 : splitOnce c (A ++ pat ++ b) = some (a' ++ u, w ++ b') := by
      rw [e, hu, show a' ++ (u ++ c :: w) ++ b' = (a' ++ u) ++ c :: (w ++ b') by simp]
      apply splitOnce_append
      simp only [List.mem_append, not_or]
      exact ⟨fun h => hA (by rw [hz]; simp [h]), hcu⟩
    rw [h1] at h2
    simp only [Option.some.injEq, Prod.mk.injEq] at h2
    have := congrArg List.length h2.1
    simp at this
    omega

/-- The first occurrence on a line of its own. -/
theorem first_of_line {pat A : Str} (b : Str) (hp : '\n' ∉ pat) (h0 : pat ≠ []) (hA : Lacks pat A) :
    splitOnceStr pat (A ++ ['\n'] ++ pat ++ b) = some (A ++ ['\n'], b) := by
  have e : pat = pat.dropLast ++ [pat.getLast h0] := (List.dropLast_concat_getLast h0).symm
  have key : Lacks (pat.dropLast ++ [pat.getLast h0]) (A ++ ['\n'] ++ pat.dropLast) := by
    rw [← e, List.append_assoc]
    refine lacks_nl hp h0 hA (lacks_len ?_)
    show (pat.dropLast).length < pat.length
    rw [List.length_dropLast]
    have := List.length_pos_iff.2 h0
    omega
  have := first_of_lacks key b
  rw [← e] at this
  exact this

/-! ## The section -/

theorem parts_section {pre sec post : Str} (h : Section pre sec post) :
    parts (pre ++ sec ++ post) = some (pre, sec, post) := by
  obtain ⟨x, rfl⟩ := h.header
  have e1 : pre ++ ("[Script Info".toList ++ [']'] ++ x) ++ post = pre ++ ("[Script Info".toList ++ [']']) ++ (x ++ post) := by
    simp only [List.append_assoc]
  unfold parts header
  rw [show "[Script Info]".toList = "[Script Info".toList ++ [']'] from rfl] at h ⊢
  have hf : Lacks ("[Script Info".toList ++ [']']) (pre ++ "[Script Info".toList) := h.first
  rw [e1, first_of_lacks hf]
  simp only
  rcases h.after with rfl | ⟨y, rfl⟩
  · rw [List.append_nil, splitOnceStr_none.2 h.inside]
  · have h2 := first_of_lacks (p := '[') (ps := ['\n']) (a := "[Script Info".toList ++ [']'] ++ x)
      (lacks_two h.inside (lacks_len (by simp)) (by simp)) y
    rw [show "\n[".toList = ['\n'] ++ ['['] from rfl, ← List.append_assoc _ x, ← List.append_assoc _ _ y, h2]

/-- Every text with the header has its section. -/
theorem parts_some {c pre sec post : Str} (h : parts c = some (pre, sec, post)) :
    c = pre ++ sec ++ post ∧ Section pre sec post := by
  unfold parts at h
  split at h
  · simp at h
  · next p b e =>
    obtain ⟨h1, h2⟩ := splitOnceStr_some e
    have hfirst : Lacks "[Script Info]".toList (p ++ "[Script Info".toList) := by
      intro a' b' e'
      have l := h2 a' (b' ++ ']' :: b) (by
        rw [h1, show header = "[Script Info".toList ++ [']'] from rfl, ← List.append_assoc, e',
          show "[Script Info]".toList = "[Script Info".toList ++ [']'] from rfl]
        simp only [List.append_assoc, List.nil_append, List.cons_append])
      have := congrArg List.length e'
      simp at this
      omega
    split at h
    · next e2 =>
      simp only [Option.some.injEq, Prod.mk.injEq] at h
      obtain ⟨rfl, rfl, rfl⟩ := h
      exact ⟨by rw [h1]; simp, hfirst, ⟨b, rfl⟩, splitOnceStr_none.1 e2, Or.inl rfl⟩
    · next s r e2 =>
      simp only [Option.some.injEq, Prod.mk.injEq] at h
      obtain ⟨rfl, rfl, rfl⟩ := h
      obtain ⟨h3, h4⟩ := splitOnceStr_some e2
      refine ⟨by rw [h1, List.append_assoc, h3]; simp, hfirst, ?_, ?_, Or.inr ⟨r, rfl⟩⟩
      · rw [List.append_assoc] at h3
        rcases List.append_eq_append_iff.1 h3 with ⟨x, e3, e4⟩ | ⟨x, e3, e4⟩
        · exact ⟨x, e3⟩
        · cases x with
          | nil => exact ⟨[], by rw [List.append_nil] at e3 ⊢; exact e3.symm⟩
          | cons y x =>
            simp at e4
            have : '\n' ∈ header := by rw [e3, e4.1]; simp
            exact absurd this (by decide)
      · intro a' b' e'
        have l := h4 a' (b' ++ "\n[".toList ++ r) (by rw [h3, e']; simp)
        have := congrArg List.length e'
        simp at this
        omega

/-! ## Keys and values -/

theorem mem_takeWhile_imp {p : Char → Bool} {l : Str} {x : Char} (h : x ∈ l.takeWhile p) : p x = true :=
  List.all_eq_true.1 List.all_takeWhile x h

theorem nl_key {p : Str} (hp : '\n' ∉ p) : '\n' ∉ key p := by
  unfold key; simp [hp]

theorem key_ne (p : Str) : key p ≠ [] := by unfold key; simp

theorem colon_key (p : Str) : ':' ∈ key p := by unfold key; simp

theorem last_key (p : Str) : (key p).getLast? = some ' ' := by
  unfold key
  rw [show p ++ ": ".toList = (p ++ [':']) ++ [' '] by simp, List.getLast?_concat]

theorem toEol_split (s : Str) : ∃ r, s = toEol s ++ r ∧ (r = [] ∨ r.head? = some '\n') ∧ '\n' ∉ toEol s := by
  refine ⟨s.dropWhile (· ≠ '\n'), (List.takeWhile_append_dropWhile).symm, ?_, ?_⟩
  · cases h : s.dropWhile (· ≠ '\n') with
    | nil => exact Or.inl rfl
    | cons c cs =>
      right
      have := List.head?_dropWhile_not (fun c => decide (c ≠ '\n')) s
      rw [h] at this
      simp at this
      simp [this]
  · intro h
    have := mem_takeWhile_imp h
    simp at this

theorem toEol_append {v r : Str} (hv : '\n' ∉ v) (hr : r = [] ∨ r.head? = some '\n') : toEol (v ++ r) = v :=
  takeWhile_row hv hr

theorem stripped_trim (v : Str) : Stripped v (trim v) := by
  have hstart : ∃ a, v = a ++ trimStart v ∧ (∀ c ∈ a, White c) ∧ ∀ c, (trimStart v).head? = some c → ¬ White c := by
    refine ⟨v.takeWhile isWs, (List.takeWhile_append_dropWhile).symm, ?_, ?_⟩
    · intro c hc; exact (SrtDoc.white_iff c).1 (mem_takeWhile_imp hc)
    · intro c hc hw
      have := List.head?_dropWhile_not isWs v
      unfold trimStart at hc
      rw [hc] at this
      simp at this
      rw [(SrtDoc.white_iff c).2 hw] at this
      simp at this
  obtain ⟨a, h1, h2, h3⟩ := hstart
  have hend : ∀ s : Str, ∃ b, s = trimEnd s ++ b ∧ (∀ c ∈ b, White c) ∧ ∀ c, (trimEnd s).getLast? = some c → ¬ White c := by
    intro s
    refine ⟨(s.reverse.takeWhile isWs).reverse, ?_, ?_, ?_⟩
    · unfold trimEnd
      rw [← List.reverse_append, List.takeWhile_append_dropWhile, List.reverse_reverse]
    · intro c hc; exact (SrtDoc.white_iff c).1 (mem_takeWhile_imp (List.mem_reverse.1 hc))
    · intro c hc hw
      unfold trimEnd at hc
      rw [List.getLast?_reverse] at hc
      have := List.head?_dropWhile_not isWs s.reverse
      rw [hc] at this
      simp at this
      rw [(SrtDoc.white_iff c).2 hw] at this
      simp at this
  obtain ⟨b, h4, h5, h6⟩ := hend (trimStart v)
  refine ⟨⟨?_, h6⟩, a, b, ?_, h2, h5⟩
  · intro c hc
    apply h3
    unfold trim at hc
    rw [h4, List.head?_append, hc]
    rfl
  · unfold trim; rw [List.append_assoc, ← h4, ← h1]

/-! ## Reading -/

theorem get_first {d : Doc} {pre sec post a b p : Str} (hs : Section pre sec post) (hd : d.text = pre ++ sec ++ post)
    (h : splitOnceStr (key p) sec = some (a, b)) : get p d = .ok (some (trim (toEol b))) := by
  unfold get; rw [hd, parts_section hs]; simp only; rw [h]

theorem get_lacks {d : Doc} {pre sec post p : Str} (hs : Section pre sec post) (hd : d.text = pre ++ sec ++ post)
    (h : Lacks (key p) sec) : get p d = .ok none := by
  unfold get; rw [hd, parts_section hs]; simp only; rw [splitOnceStr_none.2 h]

/-! ## Writing -/

/-- A property that is found: its value is exchanged. -/
theorem set_found {d : Doc} {pre post a old r p v : Str} (hs : Section pre (a ++ key p ++ (old ++ r)) post)
    (hd : d.text = pre ++ (a ++ key p ++ (old ++ r)) ++ post) (hp : '\n' ∉ p) (ho : '\n' ∉ old)
    (hr : r = [] ∨ r.head? = some '\n')
    (h : splitOnceStr (key p) (a ++ key p ++ (old ++ r)) = some (a, old ++ r)) :
    ∃ d', set p v d = (.ok (), d') ∧ d'.text = pre ++ (a ++ key p ++ (v ++ r)) ++ post := by
  have hr' : r ++ post = [] ∨ (r ++ post).head? = some '\n' := by
    rcases hr with rfl | hr
    · rcases hs.after with rfl | ⟨y, rfl⟩
      · exact Or.inl rfl
      · exact Or.inr rfl
    · right; rw [List.head?_append, hr]; rfl
  have he : toEol (key p ++ (old ++ r) ++ post) = key p ++ old := by
    rw [show key p ++ (old ++ r) ++ post = (key p ++ old) ++ (r ++ post) by simp]
    exact toEol_append (by simp [nl_key hp, ho]) hr'
  have hd' : d.text = (pre ++ a) ++ (key p ++ old) ++ (r ++ post) := by rw [hd]; simp
  obtain ⟨d', h1, h2⟩ := replace_at d hd' (key p ++ v)
  refine ⟨d', ?_, by rw [h2]; simp⟩
  unfold set
  rw [hd, parts_section hs]
  simp only
  rw [h]
  simp only
  rw [he, ← byteLen_append]
  exact h1

/-- A property that is not found: a line is inserted after the header line. -/
theorem set_new {d : Doc} {pre sec post l r p v : Str} (hs : Section pre sec post)
    (hd : d.text = pre ++ sec ++ post) (h : Lacks (key p) sec) (hl : sec ++ post = l ++ '\n' :: r) (hn : '\n' ∉ l) :
    set p v d = (.ok (), { d with text := pre ++ l ++ '\n' :: (key p ++ v ++ '\n' :: r) }) := by
  unfold set
  rw [hd, parts_section hs]
  simp only
  rw [splitOnceStr_none.2 h, hl, splitOnce_append _ hn]
  simp only
  have e1 : pre ++ sec ++ post = (pre ++ l ++ ['\n']) ++ r := by rw [List.append_assoc, hl]; simp
  rw [e1, show byteLen pre + byteLen l + 1 = byteLen (pre ++ l ++ ['\n']) by
    rw [byteLen_snoc_nl], insertRaw_at]
  simp

/-- Likewise when the header line is the last line and is not ended. -/
theorem set_new_bare {d : Doc} {pre x p v : Str} (hs : Section pre (header ++ x) [])
    (hd : d.text = pre ++ (header ++ x)) (h : Lacks (key p) (header ++ x)) (hn : '\n' ∉ header ++ x) :
    set p v d = (.ok (), { d with text := pre ++ header ++ (key p ++ v ++ '\n' :: x) }) := by
  unfold set
  have e0 : d.text = pre ++ (header ++ x) ++ [] := by rw [hd]; simp
  rw [e0, parts_section hs]
  simp only
  rw [splitOnceStr_none.2 h, List.append_nil (header ++ x), splitOnce_none hn]
  simp only
  have e1 : pre ++ (header ++ x) ++ [] = (pre ++ header) ++ x := by rw [List.append_nil, List.append_assoc]
  rw [e1, show byteLen pre + 13 = byteLen (pre ++ header) by
    rw [byteLen_append, show byteLen header = 13 by decide], insertRaw_at]
  simp

theorem delete_found {d : Doc} {pre post a b l r p : Str} (hs : Section pre (a ++ key p ++ b) post)
    (hd : d.text = pre ++ (a ++ key p ++ b) ++ post) (hl : key p ++ b ++ post = l ++ '\n' :: r) (hn : '\n' ∉ l)
    (h : splitOnceStr (key p) (a ++ key p ++ b) = some (a, b)) :
    ∃ d', delete p d = (.ok (), d') ∧ d'.text = pre ++ a ++ r := by
  have hd' : d.text = (pre ++ a) ++ (l ++ ['\n']) ++ r := by
    rw [hd, show pre ++ (a ++ key p ++ b) ++ post = (pre ++ a) ++ (key p ++ b ++ post) by simp, hl]; simp
  obtain ⟨d', h1, h2⟩ := delete_at d hd'
  refine ⟨d', ?_, h2⟩
  unfold delete
  rw [hd, parts_section hs]
  simp only
  rw [h]
  simp only
  unfold withNl
  rw [hl, splitOnce_append _ hn, ← byteLen_append]
  exact h1

/-! ## Sections as lists of properties -/

theorem lacks_props {pat : Str} (hp : '\n' ∉ pat) (h0 : pat ≠ []) (es : List Item) :
    ∀ {s : Str}, Lacks pat s → (∀ e ∈ es, Lacks pat (line e)) → Lacks pat (s ++ es.flatMap (fun e => '\n' :: line e)) := by
  induction es with
  | nil => intro s hs _; simpa using hs
  | cons e es ih =>
    intro s hs h
    rw [List.flatMap_cons, ← List.append_assoc]
    exact ih (lacks_nl hp h0 hs (h e (by simp))) (fun e' he' => h e' (by simp [he']))

theorem lacks_extra {pat s extra : Str} (hp : '\n' ∉ pat) (h0 : pat ≠ []) (hs : Lacks pat s) (he : Lacks pat extra)
    (hx : extra = [] ∨ extra.head? = some '\n') : Lacks pat (s ++ extra) := by
  rcases hx with rfl | hx
  · simpa using hs
  · cases extra with
    | nil => simp at hx
    | cons c cs =>
      simp at hx
      subst hx
      exact lacks_nl hp h0 hs (lacks_right (s := ['\n']) he)

theorem lacks_header (q : Str) : Lacks (key q) header := lacks_mem (colon_key q) (by decide)

/-- A name that no property has is not found. -/
theorem info_absent {q extra : Str} {es : List Item} (hq : '\n' ∉ q) (hl : Lines es extra) (ht : Tidy q es extra)
    (hn : ∀ e ∈ es, e.1 ≠ q) : Lacks (key q) (info es extra) := by
  unfold info
  exact lacks_extra (nl_key hq) (key_ne q)
    (lacks_props (nl_key hq) (key_ne q) es (lacks_header q) (fun e he => ht.1 e he (hn e he))) ht.2 hl.extra

theorem info_split (es es2 : List Item) (q v extra : Str) :
    info (es ++ (q, v) :: es2) extra =
      ("[Script Info]".toList ++ es.flatMap (fun e => '\n' :: line e) ++ ['\n']) ++ key q ++
        (v ++ (es2.flatMap (fun e => '\n' :: line e) ++ extra)) := by
  unfold info key
  simp only [List.flatMap_append, List.flatMap_cons, line, List.append_assoc, List.cons_append, List.nil_append]

/-- The first line with the name is found. -/
theorem info_present {q v extra : Str} {es es2 : List Item} (hq : '\n' ∉ q) (ht : Tidy q (es ++ (q, v) :: es2) extra)
    (hn : ∀ e ∈ es, e.1 ≠ q) :
    splitOnceStr (key q) (info (es ++ (q, v) :: es2) extra) =
      some ("[Script Info]".toList ++ es.flatMap (fun e => '\n' :: line e) ++ ['\n'],
        v ++ (es2.flatMap (fun e => '\n' :: line e) ++ extra)) := by
  rw [info_split]
  exact first_of_line _ (nl_key hq) (key_ne q)
    (lacks_props (nl_key hq) (key_ne q) es (lacks_header q) (fun e he => ht.1 e (by simp [he]) (hn e he)))

theorem props_head (es : List Item) {extra : Str} (hx : extra = [] ∨ extra.head? = some '\n') :
    es.flatMap (fun e => '\n' :: line e) ++ extra = [] ∨ (es.flatMap (fun e => '\n' :: line e) ++ extra).head? = some '\n' := by
  cases es with
  | nil => simpa using hx
  | cons e es => right; simp

theorem value_split {q : Str} {es : List Item} {r : Option Str} (h : Value q es r) :
    (r = none ∧ ∀ e ∈ es, e.1 ≠ q) ∨
    ∃ v es1 es2, r = some v ∧ es = es1 ++ (q, v) :: es2 ∧ ∀ e ∈ es1, e.1 ≠ q := by
  induction h with
  | nil => left; simp
  | here => exact Or.inr ⟨_, [], _, rfl, rfl, by simp⟩
  | later hne _ ih =>
    rcases ih with ⟨h1, h2⟩ | ⟨v, es1, es2, h1, h2, h3⟩
    · left; refine ⟨h1, ?_⟩; intro e he; rcases List.mem_cons.1 he with rfl | he
      · exact hne
      · exact h2 e he
    · right
      refine ⟨v, _ :: es1, es2, h1, by rw [h2]; rfl, ?_⟩
      intro e he; rcases List.mem_cons.1 he with rfl | he
      · exact hne
      · exact h3 e he

theorem changed_split {p v : Str} {es es' : List Item} (h : Changed p v es es') :
    ∃ w es1 es2, es = es1 ++ (p, w) :: es2 ∧ es' = es1 ++ (p, v) :: es2 ∧ ∀ e ∈ es1, e.1 ≠ p := by
  induction h with
  | here => exact ⟨_, [], _, rfl, rfl, by simp⟩
  | later hne _ ih =>
    obtain ⟨w, es1, es2, h1, h2, h3⟩ := ih
    refine ⟨w, _ :: es1, es2, by rw [h1]; rfl, by rw [h2]; rfl, ?_⟩
    intro e he; rcases List.mem_cons.1 he with rfl | he
    · exact hne
    · exact h3 e he

theorem dropped_split {p : Str} {es es' : List Item} (h : Dropped p es es') :
    (es' = es ∧ ∀ e ∈ es, e.1 ≠ p) ∨
    ∃ w es1 es2, es = es1 ++ (p, w) :: es2 ∧ es' = es1 ++ es2 ∧ ∀ e ∈ es1, e.1 ≠ p := by
  induction h with
  | nil => left; simp
  | here => exact Or.inr ⟨_, [], _, rfl, rfl, by simp⟩
  | later hne _ ih =>
    rcases ih with ⟨h1, h2⟩ | ⟨w, es1, es2, h1, h2, h3⟩
    · left; refine ⟨by rw [h1], ?_⟩; intro e he; rcases List.mem_cons.1 he with rfl | he
      · exact hne
      · exact h2 e he
    · right
      refine ⟨w, _ :: es1, es2, by rw [h1]; rfl, by rw [h2]; rfl, ?_⟩
      intro e he; rcases List.mem_cons.1 he with rfl | he
      · exact hne
      · exact h3 e he

end Verif.InfoCmd
