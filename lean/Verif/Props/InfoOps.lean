import Verif.Model.InfoOps
import Verif.Props.InfoCmd
import Verif.Props.Fluent
import Verif.Lemmas.SegTags
/-! Property C125: typed access to script properties. -/
namespace Verif.Props
open Verif
open Verif.InfoOps
open Verif.Doc (Doc)
open Verif.Parser (Script toAss parse sectionToAss)
open Verif.Spec.EventCmd (Lacks Trimmed White)
open Verif.Spec.RoundTrip (Content content Writable FieldOk)
open Verif.Spec.InfoCmd

theorem digits_trimmed {s : Str} (h : ∀ c ∈ s, c.isDigit = true) : Trimmed s := by
  have key : ∀ c, c ∈ s → ¬ White c := by
    intro c hc hw
    have := h c hc
    rw [Override.isDigit_iff] at this
    unfold Spec.Ovr.Digit at this
    unfold White at hw
    omega
  exact ⟨fun c hc => key c (List.mem_of_mem_head? hc), fun c hc => key c (List.mem_of_getLast? hc)⟩

theorem digits_line {s : Str} (h : ∀ c ∈ s, c.isDigit = true) : '\n' ∉ s := by
  intro hm
  exact absurd (h _ hm) (by decide)

theorem stripped_same {v w : Str} (ht : Trimmed v) (h : Stripped v w) : w = v := by
  obtain ⟨_, a, b, rfl, ha, hb⟩ := h
  have h1 : a = [] := by
    cases a with
    | nil => rfl
    | cons c a => exact absurd (ha c (by simp)) (ht.1 c (by simp))
  subst h1
  have h2 : b = [] := by
    rcases List.eq_nil_or_concat b with rfl | ⟨b', c, rfl⟩
    · rfl
    · exact absurd (hb c (by simp)) (ht.2 c (by simp [← List.append_assoc]))
  subst h2
  simp

/-- A trimmed value comes back as it was given. -/
theorem set_get_same (d : Doc) (pre sec post p v : Str) (hs : Section pre sec post) (hd : d.text = pre ++ sec ++ post)
    (hp : '\n' ∉ p) (hb : p.head? ≠ some '[') (hv : '\n' ∉ v) (ht : Trimmed v) :
    ∃ d', InfoCmd.set p v d = (.ok (), d') ∧ InfoCmd.get p d' = .ok (some v) := by
  obtain ⟨d', w, h1, h2, h3⟩ := C38_set_get d pre sec post p v hs hd hp hb hv
  exact ⟨d', h1, by rw [h2, stripped_same ht h3]⟩

/-- **C125.** In every document with an information section: what is set for the title, the author, the wrapping style or the scaling of
borders is what is then read — texts without the blanks around them, numbers and yes/no as they were given. -/
theorem C125_single (lower : Str → Str) (hyes : lower "yes".toList = "yes".toList) (hno : lower "no".toList = "no".toList)
    (d : Doc) (pre sec post t : Str) (n : Nat) (b : Bool) (hs : Section pre sec post) (hd : d.text = pre ++ sec ++ post)
    (ht : '\n' ∉ t) (hn : n < 256) :
    (∃ d' w, setTitle t d = (.ok (), d') ∧ getTitle d' = .ok (some w) ∧ Stripped t w) ∧
    (∃ d' w, setAuthor t d = (.ok (), d') ∧ getAuthor d' = .ok (some w) ∧ Stripped t w) ∧
    (∃ d', setWrap n d = (.ok (), d') ∧ getWrap d' = .ok (some n)) ∧
    (∃ d', setScaled b d = (.ok (), d') ∧ getScaled lower d' = .ok (some b)) := by
  refine ⟨C38_set_get d pre sec post _ t hs hd (by decide) (by decide) ht,
    C38_set_get d pre sec post _ t hs hd (by decide) (by decide) ht, ?_, ?_⟩
  · obtain ⟨d', h1, h2⟩ := set_get_same d pre sec post "WrapStyle".toList (showNat n) hs hd (by decide) (by decide)
      (digits_line (showNat_digits n)) (digits_trimmed (showNat_digits n))
    refine ⟨d', h1, ?_⟩
    unfold getWrap
    rw [h2]
    dsimp only
    rw [show Segment.parseU8 (showNat n) = some n from Segment.u8_dec hn]
  · obtain ⟨d', h1, h2⟩ := set_get_same d pre sec post "ScaledBorderAndShadow".toList (if b then "yes".toList else "no".toList) hs hd
      (by decide) (by decide) (by cases b <;> decide) (by cases b <;> exact trimmed_of (by decide) (by decide))
    refine ⟨d', h1, ?_⟩
    unfold getScaled
    rw [h2]
    dsimp only
    cases b
    · rw [if_neg (by decide), Option.map_some, hno]; rfl
    · rw [if_pos rfl, Option.map_some, hyes]; rfl

theorem put_exists (p v : Str) : ∀ es : List Item, ∃ es', Put p v es es'
  | [] => ⟨_, Or.inr ⟨by simp, rfl⟩⟩
  | (q, w) :: es => by
    by_cases h : q = p
    · subst h; exact ⟨_, Or.inl .here⟩
    · obtain ⟨es', h' | ⟨h1, h2⟩⟩ := put_exists p v es
      · exact ⟨_, Or.inl (.later h h')⟩
      · refine ⟨_, Or.inr ⟨?_, rfl⟩⟩
        intro e he
        rcases List.mem_cons.1 he with rfl | he
        · exact h
        · exact h1 e he

theorem value_field (q : Str) : ∀ es : List Item, Value q es (Resolved.field es q)
  | [] => .nil
  | (p, w) :: es => by
    unfold Resolved.field
    by_cases h : p = q
    · subst h; simp; exact .here
    · rw [List.find?_cons_of_neg (by simpa using h)]
      exact .later h (value_field q es)

theorem field_put {p v : Str} {es es' : List Item} (h : Put p v es es') : Resolved.field es' p = some v := by
  rcases h with h | ⟨_, rfl⟩
  · induction h with
    | here => simp [Resolved.field]
    | later h1 _ ih =>
      unfold Resolved.field
      rw [List.find?_cons_of_neg (by simpa using h1)]
      exact ih
  · simp [Resolved.field]

theorem value_unique {q : Str} {es : List Item} {r : Option Str} (h : Value q es r) : r = Resolved.field es q := by
  induction h with
  | nil => rfl
  | here => simp [Resolved.field]
  | later h1 _ ih =>
    rw [ih]; unfold Resolved.field
    rw [List.find?_cons_of_neg (by simpa using h1)]

theorem field_other {p v q : Str} {es es' : List Item} (h : Put p v es es') (hq : q ≠ p) : Resolved.field es' q = Resolved.field es q :=
  (value_unique (value_put h hq (value_field q es))).symm

theorem field_mem {q v : Str} {es : List Item} (h : Resolved.field es q = some v) : (q, v) ∈ es := by
  unfold Resolved.field at h
  cases hf : es.find? (fun f => f.1 = q) with
  | none => rw [hf] at h; simp at h
  | some x =>
    rw [hf] at h
    have h1 := List.mem_of_find?_eq_some hf
    have h2 := List.find?_some hf
    simp at h h2
    rw [← h, ← h2]; exact h1

theorem put_ok {p v : Str} {es es' : List Item} (h : Put p v es es') (hn : FieldOk (p, v)) (ho : ∀ f ∈ es, FieldOk f) : ∀ f ∈ es', FieldOk f := by
  intro f hf
  rcases h with h | ⟨_, rfl⟩
  · obtain ⟨w, es1, es2, rfl, rfl, _⟩ := InfoCmd.changed_split h
    simp only [List.mem_append, List.mem_cons] at hf
    rcases hf with hf | rfl | hf
    · exact ho f (by simp [hf])
    · exact hn
    · exact ho f (by simp [hf])
  · rcases List.mem_cons.1 hf with rfl | hf
    · exact hn
    · exact ho f hf

/-- The section of information as `Script::to_ass_string` writes it. -/
theorem info_text (sf ef : Option (List Str)) (es : List Item) (sp : Parser.Span) :
    sectionToAss sf ef (.info es sp) = info es "\n".toList := by
  have key : ∀ (es : List Item), '\n' :: es.flatMap (fun f => f.1 ++ ": ".toList ++ f.2 ++ ['\n']) =
      es.flatMap (fun e => '\n' :: line e) ++ ['\n'] := by
    intro es
    induction es with
    | nil => rfl
    | cons e es ih =>
      rw [List.flatMap_cons, List.flatMap_cons, List.append_assoc ('\n' :: line e), ← ih]
      unfold line
      simp
  show "[Script Info]\n".toList ++ es.flatMap (fun f => f.1 ++ ": ".toList ++ f.2 ++ ['\n']) = _
  rw [show "[Script Info]\n".toList = "[Script Info]".toList ++ ['\n'] by decide, List.append_assoc]
  unfold info
  rw [List.append_assoc]
  exact congrArg _ (key es)

/-- What follows it. -/
def rest (s : Script) (B : List Parser.Section) : Str := (B.map (sectionToAss s.stylesFmt s.eventsFmt)).flatMap (fun z => ['\n'] ++ z)

theorem rest_head (s : Script) (B : List Parser.Section) : rest s B = [] ∨ ∃ y, rest s B = "\n[".toList ++ y := by
  cases B with
  | nil => exact Or.inl rfl
  | cons x B =>
    right
    unfold rest
    rw [List.map_cons, List.flatMap_cons, Parser.section_ended, Parser.head_ended]
    exact ⟨_, by simp; rfl⟩

/-- What stands before it. -/
def front (s : Script) (A : List Parser.Section) : Str := (A.map (sectionToAss s.stylesFmt s.eventsFmt)).flatMap (fun x => x ++ ['\n'])

/-- None of the sections before has the header of the information section in its text. -/
def Quiet (s : Script) (A : List Parser.Section) : Prop :=
  ∀ x ∈ A, Lacks "[Script Info]".toList (sectionToAss s.stylesFmt s.eventsFmt x)

theorem front_lacks (s : Script) : ∀ {A : List Parser.Section}, Quiet s A → Lacks "[Script Info]".toList (front s A ++ "[Script Info".toList)
  | [], _ => show Lacks "[Script Info]".toList "[Script Info".toList from splitOnceStr_none.1 (by decide)
  | x :: A, h => by
    have ih := front_lacks s (A := A) (fun y hy => h y (by simp [hy]))
    unfold front at ih ⊢
    rw [List.map_cons, List.flatMap_cons]
    have := InfoCmd.lacks_nl (by decide) (by decide) (h x (by simp)) ih
    simpa using this

theorem text_info (s : Script) (A : List Parser.Section) (es : List Item) (sp : Parser.Span) (B : List Parser.Section) :
    toAss { s with sections := A ++ .info es sp :: B } = front s A ++ info es "\n".toList ++ rest s B := by
  have := joinStr_around ['\n'] (A.map (sectionToAss s.stylesFmt s.eventsFmt)) (sectionToAss s.stylesFmt s.eventsFmt (.info es sp))
    (B.map (sectionToAss s.stylesFmt s.eventsFmt))
  unfold toAss
  rw [List.map_append, List.map_cons, this, info_text]
  rfl

theorem info_section (s : Script) {A : List Parser.Section} (hA : Quiet s A) {es : List Item} (B : List Parser.Section) (h : ∀ f ∈ es, FieldOk f) :
    Section (front s A) (info es "\n".toList) (rest s B) ∧ Lines es "\n".toList := by
  have hl : Lines es "\n".toList := by
    refine ⟨?_, Or.inr rfl⟩
    intro e he
    have := (h e he).line
    unfold line
    simp [this.1, this.2]
  refine ⟨section_of (front_lacks s hA) hl ?_ (splitOnceStr_none.1 (by decide)) (rest_head s B), hl⟩
  intro e he
  have := (h e he).head.2.2
  unfold line
  cases hn : e.1 with
  | nil => simp
  | cons c t => rw [hn] at this; simpa using this

theorem first_info {s : Script} {es : List Item} {R : List Content} :
    ∀ {A L : List Parser.Section}, Quiet s A → L.map content = A.map content ++ .info es :: R → Resolved.firstInfo L = es
  | [], L, _, h => by
    cases L with
    | nil => simp at h
    | cons a L =>
      rw [List.map_cons, List.map_nil, List.nil_append, List.cons.injEq] at h
      have ha := h.1
      cases a with
      | info f x => simp only [content, Content.info.injEq] at ha; exact ha
      | styles l => simp [content] at ha
      | events l => simp [content] at ha
      | fonts l => simp [content] at ha
      | graphics l => simp [content] at ha
  | x :: A, L, hq, h => by
    cases L with
    | nil => simp at h
    | cons a L =>
      rw [List.map_cons, List.map_cons, List.cons_append, List.cons.injEq] at h
      have ih := first_info (A := A) (fun y hy => hq y (by simp [hy])) h.2
      have hx : ∀ f y, x ≠ .info f y := by
        rintro f y rfl
        have := hq (.info f y) (by simp)
        rw [info_text] at this
        exact this [] _ (by unfold info; rw [List.append_assoc]; rfl)
      have ha := h.1
      cases a with
      | info f y =>
        cases x with
        | info f' y' => exact absurd rfl (hx f' y')
        | styles l => simp [content] at ha
        | events l => simp [content] at ha
        | fonts l => simp [content] at ha
        | graphics l => simp [content] at ha
      | styles l => exact ih
      | events l => exact ih
      | fonts l => exact ih
      | graphics l => exact ih

/-- **C125, partial.** The editor and the parsed script agree: for a script as `Script::to_ass_string` writes it, the editor reads each
property of the (first) information section as the parsed script has it, and so the resolution and the wrapping style.

Missing: a name followed by `: ` that occurs in another line of the section (`C125_remark_violated`, `C125_name_violated`), values
without a blank (`C125_blank_violated`), and the header of the section in the text of a section before it. -/
theorem C125_agree_partial (d : Doc) (s : Script) (A : List Parser.Section) (es : List Item) (sp : Parser.Span) (B : List Parser.Section)
    (hs : s.sections = A ++ .info es sp :: B) (hA : Quiet s A) (hw : ∀ x ∈ s.sections, Writable s.stylesFmt s.eventsFmt (content x))
    (hsize : Spec.Script.size (toAss s) ≤ 50 * 1024 * 1024) (hd : d.text = toAss s) :
    ∃ s', parse d.text = some s' ∧ Resolved.firstInfo s'.sections = es ∧
      (∀ q, '\n' ∉ q → Tidy q es "\n".toList → InfoCmd.get q d = .ok (Resolved.field es q)) ∧
      (Tidy "PlayResX".toList es "\n".toList → Tidy "PlayResY".toList es "\n".toList →
        (∀ w h, Resolved.resolution es "PlayResX".toList "PlayResY".toList = some (w, h) ↔ getResolution d = .ok (some (w, h)))) ∧
      (Tidy "WrapStyle".toList es "\n".toList →
        (∀ n, getWrap d = .ok (some n) → parsedWrap es = n) ∧ (getWrap d = .ok none → parsedWrap es = 0)) := by
  obtain ⟨s', h1, h2, _⟩ := Parser.C75_round_trip_partial hw hsize
  have hok : ∀ f ∈ es, FieldOk f := hw (.info es sp) (by rw [hs]; simp)
  have hget : ∀ q, '\n' ∉ q → Tidy q es "\n".toList → InfoCmd.get q d = .ok (Resolved.field es q) := by
    intro q hq ht
    obtain ⟨hsec, hl⟩ := info_section s hA B hok
    refine C38_get_partial d (front s A) (rest s B) q "\n".toList es _ hsec ?_ hl hq ht (value_field q es) ?_
    · rw [hd, ← text_info s A es sp B, ← hs]
    · intro v hv
      exact (hok _ (field_mem hv)).trimmed.2
  refine ⟨s', by rw [hd, h1], ?_, hget, ?_, ?_⟩
  · rw [hs] at h2
    rw [List.map_append, List.map_cons] at h2
    exact first_info hA h2
  · intro hx hy w h
    unfold getResolution Resolved.resolution
    rw [hget _ (by decide) hx, hget _ (by decide) hy]
    dsimp only
    cases Resolved.field es "PlayResX".toList with
    | none => simp [bothNumbers]
    | some a =>
      cases Resolved.field es "PlayResY".toList with
      | none => simp [bothNumbers]
      | some b =>
        simp only [bothNumbers, Option.bind_some]
        cases parseU32 a with
        | none => simp
        | some a =>
          cases parseU32 b with
          | none => simp
          | some b => simp
  · intro hx
    unfold getWrap parsedWrap
    rw [hget _ (by decide) hx]
    cases Resolved.field es "WrapStyle".toList with
    | none => simp
    | some a =>
      dsimp only [Option.bind_some]
      cases Segment.parseU8 a with
      | none => simp
      | some n => simp

/-- One property set, in such a script. -/
theorem put_script (d : Doc) (s : Script) {A : List Parser.Section} (hA : Quiet s A) (es es' : List Item) (sp : Parser.Span)
    (B : List Parser.Section) (p v : Str) (hok : ∀ f ∈ es, FieldOk f) (hd : d.text = toAss { s with sections := A ++ .info es sp :: B }) (hn : FieldOk (p, v))
    (ht : Tidy p es "\n".toList) (hput : Put p v es es') :
    ∃ d', InfoCmd.set p v d = (.ok (), d') ∧ d'.text = toAss { s with sections := A ++ .info es' sp :: B } ∧ ∀ f ∈ es', FieldOk f := by
  obtain ⟨hsec, hl⟩ := info_section s hA B hok
  rw [text_info] at hd
  obtain ⟨d', h1, h2, _⟩ := C38_set_partial d (front s A) (rest s B) p v "\n".toList es es' hsec hd hl hn.line.1 hn.head.2.2 hn.line.2 ht hput
    (Or.inr (Or.inl (by decide)))
  exact ⟨d', h1, by rw [h2, text_info], put_ok hput hn hok⟩

/-- **C125, partial.** Setting a property in the editor sets it in the parsed script: in a script as `Script::to_ass_string` writes it, the
document afterwards is that script with the one property of the (first) information section changed or put first, and parsing gives
that script.

Missing: as for `C125_agree_partial`. -/
theorem C125_set_partial (d : Doc) (s : Script) (A : List Parser.Section) (es : List Item) (sp : Parser.Span) (B : List Parser.Section)
    (p v : Str) (hs : s.sections = A ++ .info es sp :: B) (hA : Quiet s A) (hw : ∀ x ∈ s.sections, Writable s.stylesFmt s.eventsFmt (content x)) (hd : d.text = toAss s)
    (hn : FieldOk (p, v)) (ht : Tidy p es "\n".toList) :
    ∃ d' es', InfoCmd.set p v d = (.ok (), d') ∧ Put p v es es' ∧ d'.text = toAss { s with sections := A ++ .info es' sp :: B } ∧
      (Spec.Script.size d'.text ≤ 50 * 1024 * 1024 → ∃ s', parse d'.text = some s' ∧
        s'.sections.map content = A.map content ++ .info es' :: B.map content ∧ Resolved.field (Resolved.firstInfo s'.sections) p = some v ∧
        ∀ q, q ≠ p → Resolved.field (Resolved.firstInfo s'.sections) q = Resolved.field es q) := by
  have hok : ∀ f ∈ es, FieldOk f := hw (.info es sp) (by rw [hs]; simp)
  obtain ⟨es', hput⟩ := put_exists p v es
  obtain ⟨d', h1, h2, h3⟩ := put_script d s hA es es' sp B p v hok (by rw [hd, ← hs]) hn ht hput
  refine ⟨d', es', h1, hput, h2, ?_⟩
  intro hsize
  have hw' : ∀ x ∈ ({ s with sections := A ++ .info es' sp :: B } : Script).sections, Writable s.stylesFmt s.eventsFmt (content x) := by
    intro x hx
    rcases List.mem_append.1 hx with hx | hx
    · exact hw x (by rw [hs]; simp [hx])
    rcases List.mem_cons.1 hx with rfl | hx
    · exact h3
    · exact hw x (by rw [hs]; simp [hx])
  obtain ⟨s', f1, f2, _⟩ := Parser.C75_round_trip_partial (s := { s with sections := A ++ .info es' sp :: B }) hw' (by rw [← h2]; exact hsize)
  rw [List.map_append, List.map_cons] at f2
  have hf := first_info hA f2
  refine ⟨s', by rw [h2, f1], f2, ?_, ?_⟩
  · rw [hf]; exact field_put hput
  · intro q hq
    rw [hf]; exact field_other hput hq

theorem number_ok (p : Str) (n : Nat) (h1 : '\n' ∉ p) (h2 : Trimmed p) (h3 : ':' ∉ p)
    (h4 : p.head? ≠ some ';' ∧ p.head? ≠ some '#' ∧ p.head? ≠ some '[') : FieldOk (p, showNat n) :=
  ⟨⟨h1, digits_line (showNat_digits n)⟩, ⟨h2, digits_trimmed (showNat_digits n)⟩, h3, h4⟩

/-- **C125, partial.** Setting the resolution: the editor then reads it, and so does the parsed script; every other property is as before.

Missing: as for `C125_set_partial`. -/
theorem C125_resolution_partial (d : Doc) (s : Script) (A : List Parser.Section) (es : List Item) (sp : Parser.Span) (B : List Parser.Section)
    (w h : Nat) (hs : s.sections = A ++ .info es sp :: B) (hA : Quiet s A) (hw : ∀ x ∈ s.sections, Writable s.stylesFmt s.eventsFmt (content x)) (hd : d.text = toAss s)
    (hx : Tidy "PlayResX".toList es "\n".toList) (hy : Tidy "PlayResY".toList es "\n".toList) (h1 : w < 2 ^ 32) (h2 : h < 2 ^ 32) :
    ∃ d', setResolution w h d = (.ok (), d') ∧
      (Spec.Script.size d'.text ≤ 50 * 1024 * 1024 → getResolution d' = .ok (some (w, h)) ∧ ∃ s', parse d'.text = some s' ∧
        Resolved.resolution (Resolved.firstInfo s'.sections) "PlayResX".toList "PlayResY".toList = some (w, h) ∧
        (∃ es', s'.sections.map content = A.map content ++ .info es' :: B.map content) ∧
        ∀ q, q ≠ "PlayResX".toList → q ≠ "PlayResY".toList → Resolved.field (Resolved.firstInfo s'.sections) q = Resolved.field es q) := by
  have hok : ∀ f ∈ es, FieldOk f := hw (.info es sp) (by rw [hs]; simp)
  have n1 := number_ok "PlayResX".toList w (by decide) (trimmed_of (by decide) (by decide)) (by decide) (by decide)
  have n2 := number_ok "PlayResY".toList h (by decide) (trimmed_of (by decide) (by decide)) (by decide) (by decide)
  obtain ⟨es1, p1⟩ := put_exists "PlayResX".toList (showNat w) es
  obtain ⟨d1, a1, a2, a3⟩ := put_script d s hA es es1 sp B _ _ hok (by rw [hd, ← hs]) n1 hx p1
  have l1 : Lacks ("PlayResY".toList ++ ": ".toList) (line ("PlayResX".toList, showNat w)) := by
    intro a b e
    have hm : 'Y' ∈ line ("PlayResX".toList, showNat w) := by rw [e]; simp
    rcases List.mem_append.1 (show 'Y' ∈ ("PlayResX".toList ++ ": ".toList) ++ showNat w from hm) with hm | hm
    · exact absurd hm (by decide)
    · exact absurd (showNat_digits w _ hm) (by decide)
  have l2 : Lacks ("PlayResX".toList ++ ": ".toList) (line ("PlayResY".toList, showNat h)) := by
    intro a b e
    have hm : 'X' ∈ line ("PlayResY".toList, showNat h) := by rw [e]; simp
    rcases List.mem_append.1 (show 'X' ∈ ("PlayResY".toList ++ ": ".toList) ++ showNat h from hm) with hm | hm
    · exact absurd hm (by decide)
    · exact absurd (showNat_digits h _ hm) (by decide)
  have hy1 := tidy_put p1 hy l1
  obtain ⟨es2, p2⟩ := put_exists "PlayResY".toList (showNat h) es1
  obtain ⟨d2, b1, b2, b3⟩ := put_script d1 s hA es1 es2 sp B _ _ a3 a2 n2 hy1 p2
  refine ⟨d2, ?_, ?_⟩
  · unfold setResolution
    rw [a1]
    exact b1
  intro hsize
  have hw' : ∀ x ∈ ({ s with sections := A ++ .info es2 sp :: B } : Script).sections, Writable s.stylesFmt s.eventsFmt (content x) := by
    intro x hx
    rcases List.mem_append.1 hx with hx | hx
    · exact hw x (by rw [hs]; simp [hx])
    rcases List.mem_cons.1 hx with rfl | hx
    · exact b3
    · exact hw x (by rw [hs]; simp [hx])
  have hsize' : Spec.Script.size (toAss { s with sections := A ++ .info es2 sp :: B }) ≤ 50 * 1024 * 1024 := by rw [← b2]; exact hsize
  have hres : Resolved.resolution es2 "PlayResX".toList "PlayResY".toList = some (w, h) := by
    unfold Resolved.resolution
    rw [field_put p2, field_other p2 (by decide), field_put p1, Option.bind_some, Option.bind_some, parseU32_showNat h1, parseU32_showNat h2]
    rfl
  have hput : ∀ {p v q : Str} {es es' : List Item}, Put p v es es' → Tidy q es "\n".toList → Lacks (q ++ ": ".toList) (line (p, v)) →
    Tidy q es' "\n".toList := fun h ht hn => tidy_put h ht hn
  have same : ∀ {p v : Str} {es es' : List Item}, Put p v es es' → Tidy p es "\n".toList → Tidy p es' "\n".toList := by
    intro p v es es' h ht
    refine ⟨?_, ht.2⟩
    intro e he hne
    rcases h with h | ⟨_, rfl⟩
    · obtain ⟨w, es1, es2, rfl, rfl, _⟩ := InfoCmd.changed_split h
      simp only [List.mem_append, List.mem_cons] at he
      rcases he with he | rfl | he
      · exact ht.1 e (by simp [he]) hne
      · exact absurd rfl hne
      · exact ht.1 e (by simp [he]) hne
    · rcases List.mem_cons.1 he with rfl | he
      · exact absurd rfl hne
      · exact ht.1 e he hne
  obtain ⟨_, _, _, _, g, _⟩ := C125_agree_partial d2 { s with sections := A ++ .info es2 sp :: B } A es2 sp B rfl hA hw' hsize' b2
  obtain ⟨s', f1, f2, _⟩ := Parser.C75_round_trip_partial (s := { s with sections := A ++ .info es2 sp :: B }) hw' hsize'
  rw [List.map_append, List.map_cons] at f2
  have hf := first_info hA f2
  refine ⟨(g (hput p2 (same p1 hx) l2) (same p2 hy1) w h).1 hres, s', by rw [b2, f1], ?_, ?_, ?_⟩
  · rw [hf]; exact hres
  · exact ⟨es2, f2⟩
  · intro q q1 q2
    rw [hf, field_other p2 q2, field_other p1 q1]

/-- The example: a title, and a section of events. -/
def infoScript : Script :=
  { sections := [.info [("Title".toList, "A".toList), ("PlayResX".toList, "640".toList)] ⟨0, 0, 0, 0⟩, .fonts []], stylesFmt := none,
    eventsFmt := none, issues := [], version := .ass4 }

example : toAss infoScript = "[Script Info]\nTitle: A\nPlayResX: 640\n\n[Fonts]\n".toList := by decide +kernel

/-- It meets the conditions. -/
example : (∀ x ∈ infoScript.sections, Writable infoScript.stylesFmt infoScript.eventsFmt (content x)) ∧
    Tidy "PlayResX".toList [("Title".toList, "A".toList), ("PlayResX".toList, "640".toList)] "\n".toList ∧
    Tidy "PlayResY".toList [("Title".toList, "A".toList), ("PlayResX".toList, "640".toList)] "\n".toList := by
  refine ⟨?_, ⟨?_, splitOnceStr_none.1 (by decide)⟩, ⟨?_, splitOnceStr_none.1 (by decide)⟩⟩
  · intro x hx
    simp only [infoScript, List.mem_cons, List.not_mem_nil, or_false] at hx
    rcases hx with rfl | rfl
    · intro f hf
      simp only [List.mem_cons, List.not_mem_nil, or_false] at hf
      rcases hf with rfl | rfl
      all_goals
        refine ⟨by decide, ?_, by decide, by decide⟩
        unfold Spec.EventCmd.Trimmed Spec.EventCmd.White
        simp
    · exact ⟨by decide, by simp, by simp⟩
  all_goals
    intro e he hne
    simp only [List.mem_cons, List.not_mem_nil, or_false] at he
    rcases he with rfl | rfl
    all_goals first
      | exact absurd rfl hne
      | exact splitOnceStr_none.1 (by decide)

/-- A section before it. -/
example : Quiet infoScript [.fonts []] := by
  intro x hx
  rw [List.mem_singleton] at hx
  subst hx
  exact splitOnceStr_none.1 (by decide)

set_option maxRecDepth 20000 in
example : (setTitle "B".toList ⟨toAss { infoScript with sections := .fonts [] :: infoScript.sections }, Doc.Stack.new ⟨50, 0, 100⟩⟩).2.text =
    "[Fonts]\n\n[Script Info]\nTitle: B\nPlayResX: 640\n\n[Fonts]\n".toList := by decide +kernel

set_option maxRecDepth 20000 in
example : (setResolution 1920 1080 ⟨toAss infoScript, Doc.Stack.new ⟨50, 0, 100⟩⟩).2.text =
    "[Script Info]\nPlayResY: 1080\nTitle: A\nPlayResX: 1920\n\n[Fonts]\n".toList := by decide +kernel

set_option maxRecDepth 20000 in
/-- **C125 fails** with a remark that mentions the property: the editor changes the remark, and says the resolution is set; the parsed
script has none. -/
theorem C125_remark_violated : ∃ d d' : Doc, d.text = "[Script Info]\n; PlayResX: 640\nTitle: A\n".toList ∧
    setResolution 1920 1080 d = (.ok (), d') ∧ getResolution d' = .ok (some (1920, 1080)) ∧
    d'.text = "[Script Info]\nPlayResY: 1080\n; PlayResX: 1920\nTitle: A\n".toList ∧
    (parse d'.text).map (fun s => Resolved.resolution (Resolved.firstInfo s.sections) "PlayResX".toList "PlayResY".toList) = some none := by
  refine ⟨⟨"[Script Info]\n; PlayResX: 640\nTitle: A\n".toList, Doc.Stack.new ⟨50, 0, 100⟩⟩,
    (setResolution 1920 1080 ⟨"[Script Info]\n; PlayResX: 640\nTitle: A\n".toList, Doc.Stack.new ⟨50, 0, 100⟩⟩).2, rfl, ?_⟩
  refine ⟨Prod.ext (by decide +kernel) rfl, ?_, ?_, ?_⟩ <;> decide +kernel

set_option maxRecDepth 20000 in
/-- **C125 fails** with a property whose name ends in the same word: setting the title changes another property. -/
theorem C125_name_violated : ∃ d d' : Doc, d.text = "[Script Info]\nSub Title: B\nTitle: A\n".toList ∧
    getTitle d = .ok (some "B".toList) ∧ setTitle "C".toList d = (.ok (), d') ∧
    d'.text = "[Script Info]\nSub Title: C\nTitle: A\n".toList ∧
    (parse d'.text).map (fun s => parsedTitle (Resolved.firstInfo s.sections)) = some "A".toList := by
  refine ⟨⟨"[Script Info]\nSub Title: B\nTitle: A\n".toList, Doc.Stack.new ⟨50, 0, 100⟩⟩,
    (setTitle "C".toList ⟨"[Script Info]\nSub Title: B\nTitle: A\n".toList, Doc.Stack.new ⟨50, 0, 100⟩⟩).2, rfl, by decide +kernel, ?_⟩
  refine ⟨Prod.ext (by decide +kernel) rfl, ?_, ?_⟩ <;> decide +kernel

set_option maxRecDepth 20000 in
/-- **C125 fails** for values without a blank after the colon: the parsed script has the resolution, the editor reads none. -/
theorem C125_blank_violated : ∃ d : Doc, d.text = "[Script Info]\nPlayResX:640\nPlayResY:480\n".toList ∧
    getResolution d = .ok none ∧
    (parse d.text).map (fun s => Resolved.resolution (Resolved.firstInfo s.sections) "PlayResX".toList "PlayResY".toList) =
      some (some (640, 480)) := by
  refine ⟨⟨"[Script Info]\nPlayResX:640\nPlayResY:480\n".toList, Doc.Stack.new ⟨50, 0, 100⟩⟩, rfl, ?_, ?_⟩ <;> decide +kernel

end Verif.Props
