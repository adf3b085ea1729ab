import Verif.Model.Ast
import Verif.Spec.Lines
import Verif.Lemmas.EventCmd
import Verif.Lemmas.StyleCmd
import Verif.Lemmas.Handlers
namespace Verif.Ast
open Verif
open Verif.Spec.EventCmd (Plain White Trimmed csv)
open Verif.Spec.InfoCmd (Stripped)
open Verif.Spec.Lines
open Verif.Spec.Lines (Has)

theorem lower_eq (c : Char) : lower c = c.toLower := by
  unfold lower Char.toLower
  by_cases h : 'A' ≤ c ∧ c ≤ 'Z'
  · rw [if_pos h, dif_pos (by exact h)]
    apply Char.ext
    have h1 : 65 ≤ c.toNat := h.1
    have h2 : c.toNat ≤ 90 := h.2
    have : (Char.ofNat (c.toNat + 32)).toNat = c.toNat + 32 := 
      (by decide : ∀ n < 128, (Char.ofNat n).toNat = n) _ (by omega)
    apply UInt32.toNat.inj
    show (Char.ofNat (c.toNat + 32)).toNat = _
    rw [this, UInt32.toNat_add]
    show c.toNat + 32 = (c.toNat + 32) % 2 ^ 32
    omega
  · rw [if_neg h, dif_neg (by exact h)]

theorem eqIgnoreCase_iff {a b : Str} : eqIgnoreCase a b = true ↔ SameName a b := by
  have : lower = Char.toLower := funext lower_eq
  unfold eqIgnoreCase SameName
  rw [beq_iff_eq, this]

theorem hasField_iff {fmt : List Str} {n : Str} : hasField fmt n = true ↔ Has fmt n := by
  unfold hasField Has
  rw [List.any_eq_true]
  constructor
  · rintro ⟨f, hf, h⟩; exact ⟨f, hf, eqIgnoreCase_iff.1 h⟩
  · rintro ⟨f, hf, h⟩; exact ⟨f, hf, eqIgnoreCase_iff.2 h⟩

theorem getField_has {n v : Str} : ∀ {fmt parts : List Str}, fmt.length ≤ parts.length →
    (∀ p ∈ fmt.zip parts, SameName p.1 n → trim p.2 = v) → Has fmt n → getField fmt parts n = v
  | [], _, _, _, h => by obtain ⟨f, hf, _⟩ := h; cases hf
  | _ :: _, [], hl, _, _ => by simp at hl
  | f :: fmt, p :: parts, hl, h, hh => by
    rw [getField]
    by_cases e : eqIgnoreCase f n = true
    · rw [if_pos e]; exact h (f, p) (by simp) (eqIgnoreCase_iff.1 e)
    · rw [if_neg e]
      apply getField_has (by simpa using hl)
      · intro q hq; exact h q (by simp [hq])
      · obtain ⟨g, hg, hs⟩ := hh
        cases hg with
        | head => exact absurd (eqIgnoreCase_iff.2 hs) e
        | tail _ hg => exact ⟨g, hg, hs⟩

theorem getField_lacks {n : Str} : ∀ {fmt parts : List Str}, ¬ Has fmt n → getField fmt parts n = []
  | [], _, _ => by rw [getField]; simp
  | _ :: _, [], _ => by rw [getField]; simp
  | f :: fmt, p :: parts, hh => by
    rw [getField, if_neg (fun e => hh ⟨f, by simp, eqIgnoreCase_iff.1 e⟩)]
    exact getField_lacks (fun ⟨g, hg, hs⟩ => hh ⟨g, by simp [hg], hs⟩)

theorem optField_lacks {n : Str} {fmt parts : List Str} (h : ¬ Has fmt n) : optField fmt parts n = none := by
  unfold optField
  rw [if_neg (fun e => h (hasField_iff.1 e))]

theorem optField_has {n v : Str} {fmt parts : List Str} (hl : fmt.length ≤ parts.length)
    (h : ∀ p ∈ fmt.zip parts, SameName p.1 n → trim p.2 = v) (hh : Has fmt n) : optField fmt parts n = some v := by
  unfold optField
  rw [if_pos (hasField_iff.2 hh), getField_has hl h hh]

theorem zip_map_mem {α β : Type} {g : α → β} {l : List α} {p : α × β} (h : p ∈ l.zip (l.map g)) :
    p.1 ∈ l ∧ p.2 = g p.1 := by
  induction l with
  | nil => simp at h
  | cons a l ih =>
    rw [List.map_cons, List.zip_cons_cons] at h
    cases h with
    | head => exact ⟨by simp, rfl⟩
    | tail _ h => exact ⟨by simp [(ih h).1], (ih h).2⟩

theorem not_white_comma : ¬ White ',' := by unfold White; decide

theorem splitn_csv : ∀ {l : List Str} {n : Nat}, l ≠ [] → l.length ≤ n → (∀ x ∈ l, ',' ∉ x) → splitn ',' n (csv l) = l
  | [], _, h, _, _ => absurd rfl h
  | [x], 0, _, h, _ => by simp at h
  | [x], 1, _, _, _ => rfl
  | [x], n + 2, _, _, h => by
    rw [csv, splitn, (splitOnce_none (h x (by simp)))]
  | x :: y :: l, 0, _, h, _ => by simp at h
  | x :: y :: l, 1, _, h, _ => by simp at h
  | x :: y :: l, n + 2, _, h, hx => by
    rw [csv, EventCmd.splitn_cons _ (hx x (by simp)), splitn_csv (by simp) (by simpa using h) (fun z hz => hx z (by simp [hz]))]

theorem splitn_csv_last : ∀ {l : List Str} (t : Str), (∀ x ∈ l, ',' ∉ x) →
    splitn ',' (l.length + 1) (csv (l ++ [t])) = l ++ [t]
  | [], t, _ => by simp only [List.length_nil, List.nil_append, csv, splitn]
  | [x], t, h => by
    simp only [List.length_cons, List.length_nil, List.cons_append, List.nil_append, csv]
    rw [EventCmd.splitn_cons _ (h x (by simp)), splitn]
  | x :: y :: l, t, h => by
    have := splitn_csv_last (l := y :: l) t (fun z hz => h z (by simp [hz]))
    simp only [List.length_cons, List.cons_append, csv] at this ⊢
    rw [EventCmd.splitn_cons _ (h x (by simp))]
    rw [this]

theorem head_csv : ∀ {l : List Str}, (∀ x ∈ l, ∀ c, x.head? = some c → ¬ White c) →
    ∀ c, (csv l).head? = some c → ¬ White c
  | [], _, c, h => by simp [csv] at h
  | [x], hx, c, h => hx x (by simp) c h
  | x :: y :: l, hx, c, h => by
    rw [csv, List.head?_append] at h
    cases x with
    | nil => simp at h; subst h; exact not_white_comma
    | cons a x => exact hx (a :: x) (by simp) c (by simpa using h)

theorem last_csv : ∀ {l : List Str}, (∀ x ∈ l, ∀ c, x.getLast? = some c → ¬ White c) →
    ∀ c, (csv l).getLast? = some c → ¬ White c
  | [], _, c, h => by simp [csv] at h
  | [x], hx, c, h => hx x (by simp) c h
  | x :: y :: l, hx, c, h => by
    rw [csv, List.getLast?_append, List.getLast?_cons] at h
    have h : ((csv (y :: l)).getLast?.getD ',') = c := by simpa using h
    cases e : (csv (y :: l)).getLast? with
    | none => rw [e] at h; simp at h; subst h; exact not_white_comma
    | some d => rw [e] at h; simp at h; subst h; exact last_csv (fun z hz => hx z (by simp [hz])) d e

theorem csv_snoc : ∀ {l : List Str} (t u : Str), csv (l ++ [t ++ u]) = csv (l ++ [t]) ++ u
  | [], _, _ => by simp [csv]
  | [x], t, u => by simp [csv]
  | x :: y :: l, t, u => by
    have := csv_snoc (l := y :: l) t u
    simp only [List.cons_append, csv] at this ⊢
    rw [this]; simp

theorem trim_csv {l : List Str} (h : ∀ x ∈ l, Trimmed x) : trim (' ' :: csv l) = csv l := by
  have : trim ([' '] ++ csv l) = trim (csv l) :=
    Handlers.trim_left (fun c hc => by rw [List.mem_singleton.1 hc]; unfold White; decide)
  rw [List.singleton_append] at this
  rw [this]
  exact EventCmd.trimmed_trim ⟨head_csv (fun x hx => (h x hx).1), last_csv (fun x hx => (h x hx).2)⟩

/-- Outer blanks of the last field are the outer blanks of the line. -/
theorem trim_csv_last {l : List Str} {t : Str} (h : ∀ x ∈ l, Trimmed x) :
    ∃ t', trim (' ' :: csv (l ++ [t])) = csv (l ++ [t']) ∧ trim t' = trim t := by
  obtain ⟨ht, a, b, e, ha, hb⟩ := InfoCmd.stripped_trim t
  have hsp : ∀ c ∈ [' '], White c := fun c hc => by rw [List.mem_singleton.1 hc]; unfold White; decide
  have hl : trim ([' '] ++ csv (l ++ [t])) = trim (csv (l ++ [t])) := Handlers.trim_left hsp
  rw [List.singleton_append] at hl
  rw [hl]
  cases l with
  | nil =>
    refine ⟨trim t, by simp [csv], ?_⟩
    exact EventCmd.trimmed_trim ht
  | cons x l =>
    by_cases e0 : trim t = []
    · refine ⟨[], ?_, by rw [e0]; rfl⟩
      have hw : ∀ c ∈ t, White c := by
        rw [e, e0, List.append_nil]; intro c hc
        rcases List.mem_append.1 hc with h1 | h1
        · exact ha c h1
        · exact hb c h1
      have := csv_snoc (l := x :: l) [] t
      rw [List.nil_append] at this
      rw [this, Handlers.trim_right hw]
      apply EventCmd.trimmed_trim
      refine ⟨head_csv ?_, last_csv ?_⟩
      · intro z hz c hc
        rcases List.mem_append.1 hz with h1 | h1
        · exact (h z h1).1 c hc
        · rw [List.mem_singleton.1 h1] at hc; simp at hc
      · intro z hz c hc
        rcases List.mem_append.1 hz with h1 | h1
        · exact (h z h1).2 c hc
        · rw [List.mem_singleton.1 h1] at hc; simp at hc
    · refine ⟨a ++ trim t, ?_, ?_⟩
      · conv => lhs; rw [e]
        rw [csv_snoc, Handlers.trim_right hb]
        apply EventCmd.trimmed_trim
        refine ⟨?_, ?_⟩
        · have hne : ∀ c, (csv (x :: l ++ [a ++ trim t])).head? = some c → ¬ White c := by
            intro c hc
            cases x with
            | nil =>
              cases l <;> (simp [csv] at hc; subst hc; exact not_white_comma)
            | cons d x =>
              refine (h (d :: x) (by simp)).1 c ?_
              cases l <;> simpa [csv] using hc
          exact hne
        · apply last_csv
          intro z hz c hc
          rcases List.mem_append.1 hz with h1 | h1
          · exact (h z h1).2 c hc
          · rw [List.mem_singleton.1 h1, List.getLast?_append] at hc
            cases e1 : (trim t).getLast? with
            | none => exact absurd (List.getLast?_eq_none_iff.1 e1) e0
            | some d => rw [e1] at hc; simp at hc; subst hc; exact ht.2 _ e1
      · rw [Handlers.trim_left ha, EventCmd.trimmed_trim ht]

theorem eventData_of {k : Kind} {data : Str} {fmt parts : List Str} (hne : fmt ≠ [])
    (hs : (if hasField fmt "Text".toList then splitn ',' fmt.length data else splitn ',' 10 data) = parts)
    (hl : fmt.length ≤ parts.length) : eventData k data fmt = .ok (eventOf k fmt parts) := by
  unfold eventData
  simp only [if_neg hne]
  rw [hs, if_neg (by omega)]

theorem eventKind_write (k : Kind) (d : Str) : eventKind (k.str ++ ':' :: d) = some (k, d) := by
  cases k <;> rfl

end Verif.Ast
