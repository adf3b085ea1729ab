import Verif.Spec.InfoHistory
import Verif.Props.InfoCmd
/-!
# C38 — a history of changes to the properties of a script
-/
namespace Verif.Props.InfoHistory
open Verif Verif.Pos Verif.InfoCmd
open Verif.Doc (Doc Stack)
open Verif.Spec.EventCmd (Lacks Trimmed White)
open Verif.Spec.InfoCmd
open Verif.Spec.InfoHistory

/-- One change through the command for it. -/
def apply (op : Op) (d : Doc) : Outcome Unit × Doc :=
  match op with
  | .set p v => InfoCmd.set p v d
  | .delete p => InfoCmd.delete p d

/-- One change after another, as long as they succeed. -/
def run : List Op → Doc → Option Doc
  | [], d => some d
  | op :: ops, d =>
    match apply op d with
    | (.ok _, d') => run ops d'
    | _ => none

theorem put_total (p v : Str) (es : List Item) : ∃ es', Put p v es es' := by
  by_cases h : ∀ e ∈ es, e.1 ≠ p
  · exact ⟨_, .inr ⟨h, rfl⟩⟩
  · have : ∃ es', Changed p v es es' := by
      induction es with
      | nil => exact absurd (by simp) h
      | cons e es ih =>
        by_cases he : e.1 = p
        · obtain ⟨a, b⟩ := e
          subst he
          exact ⟨_, .here⟩
        · obtain ⟨es', h'⟩ := ih (fun hn => h (fun x hx => by
            rcases List.mem_cons.1 hx with rfl | hx
            · exact he
            · exact hn x hx))
          exact ⟨_, .later he h'⟩
    obtain ⟨es', h'⟩ := this
    exact ⟨es', .inl h'⟩

theorem drop_total (p : Str) (es : List Item) : ∃ es', Dropped p es es' := by
  induction es with
  | nil => exact ⟨_, .nil⟩
  | cons e es ih =>
    by_cases he : e.1 = p
    · obtain ⟨a, b⟩ := e
      subst he
      exact ⟨_, .here⟩
    · obtain ⟨es', h⟩ := ih
      exact ⟨_, .later he h⟩

theorem put_names {p v : Str} {es es' : List Item} (h : Put p v es es') (hd : (es.map (·.1)).Nodup) : (es'.map (·.1)).Nodup := by
  rcases h with h | ⟨h, rfl⟩
  · obtain ⟨w, es1, es2, rfl, rfl, _⟩ := changed_split h
    simpa using hd
  · rw [List.map_cons, List.nodup_cons]
    refine ⟨fun hm => ?_, hd⟩
    obtain ⟨e, he, he'⟩ := List.mem_map.1 hm
    exact h e he he'

theorem put_value {p v : Str} {es es' : List Item} (h : Put p v es es') : Value p es' (some v) := by
  rcases h with h | ⟨_, rfl⟩
  · induction h with
    | here => exact .here
    | later h1 _ ih => exact .later h1 ih
  · exact .here

theorem drop_sub {p : Str} {es es' : List Item} (h : Dropped p es es') : es'.Sublist es := by
  induction h with
  | nil => exact .slnil
  | here => exact .cons _ (List.Sublist.refl _)
  | later _ _ ih => exact .cons_cons _ ih

theorem value_none {q : Str} {es : List Item} (h : ∀ e ∈ es, e.1 ≠ q) : Value q es none := by
  induction es with
  | nil => exact .nil
  | cons e es ih => exact .later (h e (by simp)) (ih (fun x hx => h x (by simp [hx])))

theorem drop_value_self {p : Str} {es es' : List Item} (h : Dropped p es es') (hd : (es.map (·.1)).Nodup) : Value p es' none := by
  induction h with
  | nil => exact .nil
  | here =>
    rw [List.map_cons, List.nodup_cons] at hd
    exact value_none (fun e he e' => hd.1 (List.mem_map.2 ⟨e, he, e'⟩))
  | later h1 _ ih =>
    rw [List.map_cons, List.nodup_cons] at hd
    exact .later h1 (ih hd.2)

theorem drop_value {p q : Str} {es es' : List Item} {r : Option Str} (h : Dropped p es es') (hq : q ≠ p) (hv : Value q es r) :
    Value q es' r := by
  induction h generalizing r with
  | nil => exact hv
  | here =>
    cases hv with
    | here => exact absurd rfl hq
    | later _ h2 => exact h2
  | later h1 _ ih =>
    cases hv with
    | here => exact .here
    | later h2 h3 => exact .later h2 (ih h3)

/-- What a history keeps. -/
theorem history (ops : List Op) : ∀ (d : Doc) (pre post extra : Str) (es : List Item),
    Section pre (info es extra) post → d.text = pre ++ info es extra ++ post → Lines es extra → (extra ≠ [] ∨ post ≠ []) →
    (es.map (·.1)).Nodup → (∀ op ∈ ops, op.Ok ∧ Tidy op.name es extra ∧ TidyOps op.name ops) →
    ∃ d' es', run ops d = some d' ∧ d'.text = pre ++ info es' extra ++ post ∧ (es'.map (·.1)).Nodup ∧
      ∀ q r, '\n' ∉ q → Tidy q es extra → TidyOps q ops → Value q es r → (∀ v, r = some v → Trimmed v) →
        InfoCmd.get q d' = .ok (reads q r ops) := by
  induction ops with
  | nil =>
    intro d pre post extra es hs hd hl _ hn _
    exact ⟨d, es, rfl, hd, hn, fun q r hq ht _ hv htr => C38_get_partial d pre post q extra es r hs hd hl hq ht hv htr⟩
  | cons op ops ih =>
    intro d pre post extra es hs hd hl hend hn hops
    obtain ⟨hok, ht, hto⟩ := hops op (by simp)
    have hex : Lacks "\n[".toList extra := by
      have := hs.inside; unfold info at this; exact lacks_right this
    cases op with
    | set p v =>
      obtain ⟨h1, h2, h3, h4⟩ := hok
      obtain ⟨es', hput⟩ := put_total p v es
      obtain ⟨d', e1, e2, e3, e4⟩ := C38_set_partial d pre post p v extra es es' hs hd hl h1 h2 h3 ht hput (.inr hend)
      have tid : ∀ q, Tidy q es extra → TidyOps q (.set p v :: ops) → Tidy q es' extra := by
        intro q hq hqo
        refine ⟨fun e he hne => ?_, hq.2⟩
        have hm : e = (p, v) ∨ e ∈ es := by
          rcases hput with h | ⟨_, rfl⟩
          · obtain ⟨w, a, b, rfl, rfl, _⟩ := changed_split h
            simp only [List.mem_append, List.mem_cons] at he ⊢
            rcases he with he | rfl | he
            · exact .inr (.inl he)
            · exact .inl rfl
            · exact .inr (.inr (.inr he))
          · exact List.mem_cons.1 he
        rcases hm with rfl | hm
        · exact hqo p v (by simp) hne
        · exact hq.1 e hm hne
      have sub : ∀ q, TidyOps q (.set p v :: ops) → TidyOps q ops := fun q h a b hm => h a b (by simp [hm])
      obtain ⟨d'', es'', g1, g2, g3, g4⟩ := ih d' pre post extra es' e3 e2 e4 hend (put_names hput hn) (by
        intro op hm
        obtain ⟨k1, k2, k3⟩ := hops op (by simp [hm])
        exact ⟨k1, tid _ k2 k3, sub _ k3⟩)
      refine ⟨d'', es'', ?_, g2, g3, ?_⟩
      · unfold run apply
        simp only [e1]
        exact g1
      · intro q r hq htq hqo hv htr
        unfold reads
        by_cases hqp : p = q
        · rw [if_pos hqp]
          subst hqp
          exact g4 p (some v) hq (tid _ htq hqo) (sub _ hqo) (put_value hput) (fun w hw => by injection hw with hw; rw [← hw]; exact h4)
        · rw [if_neg hqp]
          exact g4 q r hq (tid _ htq hqo) (sub _ hqo) (value_put hput (fun e => hqp e.symm) hv) htr
    | delete p =>
      obtain ⟨es', hdr⟩ := drop_total p es
      have hsub := drop_sub hdr
      obtain ⟨d', e1, e2⟩ := C38_delete_partial d pre post p extra es es' hs hd hl hok ht hdr hend
      have hl' : Lines es' extra := ⟨fun e he => hl.one e (hsub.subset he), hl.extra⟩
      have hs' : Section pre (info es' extra) post :=
        section_of hs.first hl' (fun e he => head_of_section hs e (hsub.subset he)) hex hs.after
      have tid : ∀ q, Tidy q es extra → Tidy q es' extra := fun q hq => ⟨fun e he hne => hq.1 e (hsub.subset he) hne, hq.2⟩
      have sub : ∀ q, TidyOps q (.delete p :: ops) → TidyOps q ops := fun q h a b hm => h a b (by simp [hm])
      obtain ⟨d'', es'', g1, g2, g3, g4⟩ := ih d' pre post extra es' hs' e2 hl' hend ((hsub.map _).nodup hn) (by
        intro op hm
        obtain ⟨k1, k2, k3⟩ := hops op (by simp [hm])
        exact ⟨k1, tid _ k2, sub _ k3⟩)
      refine ⟨d'', es'', ?_, g2, g3, ?_⟩
      · unfold run apply
        simp only [e1]
        exact g1
      · intro q r hq htq hqo hv htr
        unfold reads
        by_cases hqp : p = q
        · rw [if_pos hqp]
          subst hqp
          exact g4 p none hq (tid _ htq) (sub _ hqo) (drop_value_self hdr hn) (fun w hw => by cases hw)
        · rw [if_neg hqp]
          exact g4 q r hq (tid _ htq) (sub _ hqo) (drop_value hdr (fun e => hqp e.symm) hv) htr

/-- **C38 (histories, part).** Through any history of setting and deleting, the properties of a script behave as a map from
names to values: every change succeeds, nothing outside the lines of the properties is ever changed, no name gets a second
line, and what is read for a name is what it was last given, nothing if it was deleted last, and what it was before if no
change named it.  Missing: `Tidy`, as above, also of the lines written on the way; a section that has two lines for one name,
and one that is the end of the file. -/
theorem C38_history_partial (d : Doc) (pre post extra : Str) (es : List Item) (ops : List Op)
    (hs : Section pre (info es extra) post) (hd : d.text = pre ++ info es extra ++ post) (hl : Lines es extra)
    (hend : extra ≠ [] ∨ post ≠ []) (hn : (es.map (·.1)).Nodup)
    (hops : ∀ op ∈ ops, op.Ok ∧ Tidy op.name es extra ∧ TidyOps op.name ops) :
    ∃ d' es', run ops d = some d' ∧ d'.text = pre ++ info es' extra ++ post ∧ (es'.map (·.1)).Nodup ∧
      ∀ q r, '\n' ∉ q → Tidy q es extra → TidyOps q ops → Value q es r → (∀ v, r = some v → Trimmed v) →
        InfoCmd.get q d' = .ok (reads q r ops) := history ops d pre post extra es hs hd hl hend hn hops

/-- A history that adds, changes, deletes and adds again. -/
def sampleOps : List Op :=
  [.set "PlayResX".toList "640".toList, .set "Title".toList "b".toList, .delete "PlayResX".toList, .set "WrapStyle".toList "2".toList]

/-- The document it begins with. -/
def sampleDoc : Doc := ⟨"[Script Info]\nTitle: a\n\n[Events]\n".toList, Stack.new ⟨50, 0, 100⟩⟩

example : (run sampleOps sampleDoc).map (·.text) = some "[Script Info]\nWrapStyle: 2\nTitle: b\n\n[Events]\n".toList ∧
    reads "Title".toList (some "a".toList) sampleOps = some "b".toList ∧
    reads "PlayResX".toList none sampleOps = none ∧ reads "WrapStyle".toList none sampleOps = some "2".toList := by decide +kernel

theorem sample_tidy (q : Str) (h : q = "PlayResX".toList ∨ q = "Title".toList ∨ q = "WrapStyle".toList) :
    Tidy q [("Title".toList, "a".toList)] "\n".toList ∧ TidyOps q sampleOps := by
  refine ⟨⟨?_, ?_⟩, ?_⟩
  · intro e he hne
    rw [List.mem_singleton.1 he] at hne ⊢
    rcases h with rfl | rfl | rfl
    · exact splitOnceStr_none.1 (by decide)
    · exact absurd rfl hne
    · exact splitOnceStr_none.1 (by decide)
  · rcases h with rfl | rfl | rfl <;> exact splitOnceStr_none.1 (by decide)
  · intro p v hm hne
    simp only [sampleOps, List.mem_cons, Op.set.injEq, reduceCtorEq, List.not_mem_nil, or_false, false_or] at hm
    rcases hm with ⟨rfl, rfl⟩ | ⟨rfl, rfl⟩ | ⟨rfl, rfl⟩ <;> rcases h with rfl | rfl | rfl <;>
      first | exact absurd rfl hne | exact splitOnceStr_none.1 (by decide)

/-- It meets the conditions. -/
example : Section [] (info [("Title".toList, "a".toList)] "\n".toList) "\n[Events]\n".toList ∧
    sampleDoc.text = [] ++ info [("Title".toList, "a".toList)] "\n".toList ++ "\n[Events]\n".toList ∧
    Lines [("Title".toList, "a".toList)] "\n".toList ∧
    ∀ op ∈ sampleOps, op.Ok ∧ Tidy op.name [("Title".toList, "a".toList)] "\n".toList ∧ TidyOps op.name sampleOps := by
  have hl : Lines [("Title".toList, "a".toList)] "\n".toList := ⟨by decide, .inr rfl⟩
  refine ⟨section_of (splitOnceStr_none.1 (by decide)) hl (by decide) (splitOnceStr_none.1 (by decide)) (.inr ⟨"Events]\n".toList, rfl⟩),
    by decide, hl, ?_⟩
  intro op hop
  have tr : ∀ c : Char, c = 'b' ∨ c = '2' → Trimmed [c] := by
    rintro c (rfl | rfl) <;> (unfold Trimmed White; simp)
  simp only [sampleOps, List.mem_cons, List.not_mem_nil, or_false] at hop
  rcases hop with rfl | rfl | rfl | rfl
  · exact ⟨⟨by decide, by decide, by decide, by unfold Trimmed White; simp⟩, sample_tidy _ (.inl rfl)⟩
  · exact ⟨⟨by decide, by decide, by decide, tr _ (.inl rfl)⟩, sample_tidy _ (.inr (.inl rfl))⟩
  · exact ⟨(by decide : (Char.ofNat 10) ∉ "PlayResX".toList), sample_tidy _ (.inl rfl)⟩
  · exact ⟨⟨by decide, by decide, by decide, tr _ (.inr rfl)⟩, sample_tidy _ (.inr (.inr rfl))⟩

end Verif.Props.InfoHistory
