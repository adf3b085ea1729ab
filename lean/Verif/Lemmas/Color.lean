import Verif.Model.Color
import Verif.Spec.Color
import Verif.Lemmas.Bytes
namespace Verif.Color
open Verif Verif.Spec

theorem hexDigit_cases {c : Char} {x : Nat} (h : hexDigit c = some x) :
    digitVal 16 c = some x ∧ isHexDigit c = true ∧ c ≠ '&' ∧ c ≠ '+' ∧ c.utf8Size = 1 ∧
    isWs c = false ∧ c ≠ 'H' ∧ c ≠ 'h' ∧ c ≠ 'x' ∧ x < 16 := by
  have hm : (c, x) ∈ [('0',0),('1',1),('2',2),('3',3),('4',4),('5',5),('6',6),('7',7),('8',8),('9',9),
   ('a',10),('b',11),('c',12),('d',13),('e',14),('f',15),
   ('A',10),('B',11),('C',12),('D',13),('E',14),('F',15)] := by
    unfold hexDigit at h
    generalize ([('0',0),('1',1),('2',2),('3',3),('4',4),('5',5),('6',6),('7',7),('8',8),('9',9),
      ('a',10),('b',11),('c',12),('d',13),('e',14),('f',15),
      ('A',10),('B',11),('C',12),('D',13),('E',14),('F',15)] : List (Char × Nat)) = l at h ⊢
    induction l with
    | nil => simp at h
    | cons p l ih =>
      obtain ⟨a, b⟩ := p
      simp only [List.lookup] at h
      split at h
      · next e => simp at e h; simp [e, h]
      · exact List.mem_cons_of_mem _ (ih h)
  have key : ∀ p ∈ ([('0',0),('1',1),('2',2),('3',3),('4',4),('5',5),('6',6),('7',7),('8',8),('9',9),
   ('a',10),('b',11),('c',12),('d',13),('e',14),('f',15),
   ('A',10),('B',11),('C',12),('D',13),('E',14),('F',15)] : List (Char × Nat)),
    digitVal 16 p.1 = some p.2 ∧ isHexDigit p.1 = true ∧ p.1 ≠ '&' ∧ p.1 ≠ '+' ∧ p.1.utf8Size = 1 ∧
    isWs p.1 = false ∧ p.1 ≠ 'H' ∧ p.1 ≠ 'h' ∧ p.1 ≠ 'x' ∧ p.2 < 16 := by decide
  exact key _ hm

theorem _root_.Verif.Spec.HexByte.props {s : Str} {v : Nat} (h : HexByte s v) :
    (∀ c ∈ s, isHexDigit c = true ∧ c ≠ '&' ∧ c ≠ '+' ∧ c.utf8Size = 1 ∧ isWs c = false ∧ c ≠ 'x') ∧
    s.length = 2 ∧ v < 256 ∧ (∀ acc, digitsVal 16 acc s = some (acc * 256 + v)) := by
  obtain ⟨c, d, x, y, rfl, hc, hd, rfl⟩ := h
  obtain ⟨c1, c2, c3, c4, c5, c6, c7, c8, c9, c10⟩ := hexDigit_cases hc
  obtain ⟨d1, d2, d3, d4, d5, d6, d7, d8, d9, d10⟩ := hexDigit_cases hd
  refine ⟨?_, rfl, by omega, ?_⟩
  · intro e he
    simp at he
    rcases he with rfl | rfl
    · exact ⟨c2, c3, c4, c5, c6, c9⟩
    · exact ⟨d2, d3, d4, d5, d6, d9⟩
  · intro acc
    simp only [digitsVal, c1, d1]
    congr 1
    omega

theorem digitsVal_append (radix acc : Nat) (a b : Str) :
    digitsVal radix acc (a ++ b) = (digitsVal radix acc a).bind (fun v => digitsVal radix v b) := by
  induction a generalizing acc with
  | nil => simp [digitsVal]
  | cons c cs ih =>
    simp only [List.cons_append, digitsVal]
    split
    · exact ih _
    · rfl

theorem parseUnsigned_no_plus {radix bound : Nat} {ds : Str} (hne : ds ≠ []) (hp : '+' ∉ ds)
    {v : Nat} (hv : digitsVal radix 0 ds = some v) (hb : v < bound) :
    parseUnsigned radix bound ds = some v := by
  cases ds with
  | nil => exact absurd rfl hne
  | cons c cs =>
    unfold parseUnsigned
    split
    · next e => injection e with e _; subst e; simp at hp
    · simp [hv, hb]

theorem byteLen_of_ascii {s : Str} (h : ∀ c ∈ s, c.utf8Size = 1) : byteLen s = s.length := by
  induction s with
  | nil => rfl
  | cons c cs ih =>
    rw [byteLen_cons, h c (by simp), ih (fun d hd => h d (by simp [hd]))]
    simp; omega

theorem trim_of_edges {s : Str} (h1 : ∀ c, s.head? = some c → isWs c = false)
    (h2 : ∀ c, s.getLast? = some c → isWs c = false) : trim s = s := by
  have hs : trimStart s = s := by
    cases s with
    | nil => rfl
    | cons c cs => simp [trimStart, h1 c rfl]
  rw [trim, hs, trimEnd]
  cases hr : s.reverse with
  | nil => simp at hr; simp [hr]
  | cons c cs =>
    have : s.getLast? = some c := by
      rw [← List.head?_reverse, hr]; rfl
    rw [List.dropWhile_cons, h2 c this]
    simp only [Bool.false_eq_true, if_false]
    rw [← hr, List.reverse_reverse]

theorem trim_pad {w1 w2 s : Str} (hw1 : ∀ c ∈ w1, isWs c = true) (hw2 : ∀ c ∈ w2, isWs c = true)
    (hne : s ≠ []) (h1 : ∀ c, s.head? = some c → isWs c = false)
    (h2 : ∀ c, s.getLast? = some c → isWs c = false) : trim (w1 ++ s ++ w2) = s := by
  have hs : trimStart (w1 ++ s ++ w2) = s ++ w2 := by
    rw [trimStart, List.append_assoc, List.dropWhile_append_of_pos hw1]
    cases s with
    | nil => exact absurd rfl hne
    | cons c cs => simp [h1 c rfl]
  rw [trim, hs, trimEnd, List.reverse_append, List.dropWhile_append_of_pos (by simpa using hw2)]
  cases hr : s.reverse with
  | nil => simp at hr; exact absurd hr hne
  | cons c cs =>
    have : s.getLast? = some c := by
      rw [← List.head?_reverse, hr]; rfl
    rw [List.dropWhile_cons, h2 c this]
    simp only [Bool.false_eq_true, if_false]
    rw [← hr, List.reverse_reverse]

/-- The payload is recovered from each decoration. -/
theorem hexPart_decorated {p t : Str} (hp : ∀ c ∈ p, isHexDigit c = true ∧ c ≠ '&' ∧ c ≠ 'x')
    (hne : p ≠ []) (h : Decorated p t) : hexPart t = some p := by
  have hlast : endsWithAmp p = false := by
    unfold endsWithAmp
    cases hl : p.getLast? with
    | none => rfl
    | some c =>
      have := hp c (List.mem_of_getLast? hl)
      simp [this.2.1]
  have hl2 : ∀ a b : Char, endsWithAmp (a :: b :: p) = false := by
    intro a b
    cases p with
    | nil => exact absurd rfl hne
    | cons c cs => unfold endsWithAmp at hlast ⊢; simpa [List.getLast?_cons_cons] using hlast
  rcases h with rfl | rfl | rfl | rfl | rfl | rfl
  · simp [hexPart, stripPrefix, endsWithAmp]
    rw [show 'H' :: (p ++ ['&']) = ('H' :: p) ++ ['&'] from rfl, List.getLast?_append]; rfl
  · simp [hexPart, stripPrefix, endsWithAmp]
    rw [show 'h' :: (p ++ ['&']) = ('h' :: p) ++ ['&'] from rfl, List.getLast?_append]; rfl
  · simp [hexPart, stripPrefix, hl2]
  · simp [hexPart, stripPrefix, hl2]
  · simp [hexPart, stripPrefix]
  · cases t with
    | nil => exact absurd rfl hne
    | cons c cs =>
      have hc : c ≠ '&' := (hp c (by simp)).2.1
      have hx : stripPrefix ['0', 'x'] (c :: cs) = none := by
        rw [stripPrefix_eq_none]
        intro t e
        have : 'x' ∈ c :: cs := by rw [e]; simp
        exact (hp _ this).2.2 rfl
      have hc' : ¬ '&' = c := fun e => hc e.symm
      have hall : (c :: cs).all isHexDigit = true := List.all_eq_true.2 fun d hd => (hp d hd).1
      have s1 : stripPrefix ['&', 'H'] (c :: cs) = none := by simp [stripPrefix, hc']
      have s2 : stripPrefix ['&', 'h'] (c :: cs) = none := by simp [stripPrefix, hc']
      unfold hexPart
      rw [hx, s1, s2, hall]
      simp

theorem getLast?_snoc2 (a b z : Char) (p : Str) : (a :: b :: (p ++ [z])).getLast? = some z := by
  rw [show a :: b :: (p ++ [z]) = (a :: b :: p) ++ [z] from rfl, List.getLast?_append]; rfl

theorem Decorated.edges {p t : Str} (hp : ∀ c ∈ p, isWs c = false) (hne : p ≠ [])
    (h : Decorated p t) : t ≠ [] ∧ (∀ c, t.head? = some c → isWs c = false) ∧
      (∀ c, t.getLast? = some c → isWs c = false) := by
  have hl : ∀ c, p.getLast? = some c → isWs c = false := fun c hc => hp c (List.mem_of_getLast? hc)
  have hl2 : ∀ a b c, (a :: b :: p).getLast? = some c → isWs c = false := by
    intro a b c hc
    cases p with
    | nil => exact absurd rfl hne
    | cons d ds => rw [List.getLast?_cons_cons, List.getLast?_cons_cons] at hc; exact hl c hc
  rcases h with rfl | rfl | rfl | rfl | rfl | rfl
  · refine ⟨by simp, ?_, ?_⟩
    · intro c hc; simp at hc; subst hc; decide
    · intro c hc; rw [List.cons_append, List.cons_append, getLast?_snoc2] at hc; injection hc with hc; subst hc; decide
  · refine ⟨by simp, ?_, ?_⟩
    · intro c hc; simp at hc; subst hc; decide
    · intro c hc; rw [List.cons_append, List.cons_append, getLast?_snoc2] at hc; injection hc with hc; subst hc; decide
  · refine ⟨by simp, ?_, hl2 _ _⟩; intro c hc; simp at hc; subst hc; decide
  · refine ⟨by simp, ?_, hl2 _ _⟩; intro c hc; simp at hc; subst hc; decide
  · refine ⟨by simp, ?_, hl2 _ _⟩; intro c hc; simp at hc; subst hc; decide
  · refine ⟨hne, ?_, hl⟩
    intro c hc
    exact hp c (List.mem_of_head? hc)

end Verif.Color
