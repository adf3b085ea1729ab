import Verif.Model.UU
import Verif.Lemmas.Bytes
namespace Verif.UU
open Verif

theorem or_lt {k a b : Nat} (h : b < 2 ^ k) : (a * 2 ^ k) ||| b = a * 2 ^ k + b := by
  rw [Nat.mul_comm, Nat.two_pow_add_eq_or_of_lt h]

theorem or4 {a b : Nat} (h : b < 4) : (a * 4) ||| b = a * 4 + b := or_lt (k := 2) h
theorem or16 {a b : Nat} (h : b < 16) : (a * 16) ||| b = a * 16 + b := or_lt (k := 4) h
theorem or64 {a b : Nat} (h : b < 64) : (a * 64) ||| b = a * 64 + b := or_lt (k := 6) h

theorem minus32_add {n : Nat} (h : n < 64) : minus32 (32 + n) = n := by
  unfold minus32; omega

theorem encodeGroup_one {x : Nat} (_hx : x < 256) :
    encodeGroup [x] = [32 + x / 4, 32 + x % 4 * 16, 32 + 0] := by
  simp [encodeGroup]

theorem encodeGroup_two {x y : Nat} (_hx : x < 256) (hy : y < 256) :
    encodeGroup [x, y] = [32 + x / 4, 32 + (x % 4 * 16 + y / 16), 32 + y % 16 * 4, 32 + 0] := by
  simp [encodeGroup]
  exact or16 (by omega)

theorem encodeGroup_three {x y z : Nat} (_hx : x < 256) (hy : y < 256) (hz : z < 256) :
    encodeGroup [x, y, z] =
      [32 + x / 4, 32 + (x % 4 * 16 + y / 16), 32 + (y % 16 * 4 + z / 64), 32 + z % 64] := by
  simp [encodeGroup]
  exact ⟨or16 (by omega), or4 (by omega)⟩

theorem decodeGroup_codes {a b c d : Nat} (ha : a < 64) (hb : b < 64) (hc : c < 64) (hd : d < 64) :
    decodeGroup [32 + a, 32 + b, 32 + c, 32 + d] =
      [a * 4 + b / 16, b % 16 * 16 + c / 4, c % 4 * 64 + d] := by
  have e : a * 4 % 256 = a * 4 := Nat.mod_eq_of_lt (by omega)
  simp [decodeGroup, minus32_add ha, minus32_add hb, minus32_add hc, minus32_add hd, e]
  exact ⟨or4 (by omega), or16 (by omega), or64 (by omega)⟩

theorem decodeGroup_codes3 {a b c : Nat} (ha : a < 64) (hb : b < 64) (hc : c < 64) :
    decodeGroup [32 + a, 32 + b, 32 + c] =
      [a * 4 + b / 16, b % 16 * 16 + c / 4, c % 4 * 64 + 0] := by
  rw [← decodeGroup_codes ha hb hc (by decide : 0 < 64)]
  simp [decodeGroup]

/-- Codes of an encoded chunk. -/
def codes (l : List Nat) : List Nat := (chunks 3 l).flatMap encodeGroup

theorem codes_three (x y z : Nat) (t : List Nat) :
    codes (x :: y :: z :: t) = encodeGroup [x, y, z] ++ codes t := by
  rw [codes, chunks_cons (by decide) (by simp)]
  rfl

theorem chunks4 (a b c d : Nat) (t : List Nat) :
    chunks 4 (a :: b :: c :: d :: t) = [a, b, c, d] :: chunks 4 t := by
  rw [chunks_cons (by decide) (by simp)]
  rfl

theorem decode_codes : ∀ (l : List Nat), (∀ b ∈ l, b < 256) →
    ((chunks 4 (codes l)).flatMap decodeGroup).take l.length = l
  | [], _ => rfl
  | [x], h => by
    have hx := h x (by simp)
    have : codes [x] = [32 + x / 4, 32 + x % 4 * 16, 32 + 0] := by
      rw [← encodeGroup_one hx]; simp [codes, chunks, chunksAux]
    rw [this]
    simp only [chunks, chunksAux, List.length_cons, List.length_nil, List.take_succ_cons,
      List.take_zero, List.take_nil, List.drop_succ_cons, List.drop_zero, List.drop_nil,
      List.flatMap_cons, List.flatMap_nil]
    rw [decodeGroup_codes3 (by omega) (by omega) (by omega)]
    simp; omega
  | [x, y], h => by
    have hx := h x (by simp)
    have hy := h y (by simp)
    have : codes [x, y] = [32 + x / 4, 32 + (x % 4 * 16 + y / 16), 32 + y % 16 * 4, 32 + 0] := by
      rw [← encodeGroup_two hx hy]; simp [codes, chunks, chunksAux]
    rw [this, chunks4]
    simp only [chunks_nil, List.flatMap_cons, List.flatMap_nil]
    rw [decodeGroup_codes (by omega) (by omega) (by omega) (by omega)]
    simp; omega
  | x :: y :: z :: t, h => by
    have hx := h x (by simp)
    have hy := h y (by simp)
    have hz := h z (by simp)
    have ih := decode_codes t (fun b hb => h b (by simp [hb]))
    rw [codes_three, encodeGroup_three hx hy hz]
    simp only [List.cons_append, List.nil_append, chunks4, List.flatMap_cons]
    rw [decodeGroup_codes (by omega) (by omega) (by omega) (by omega)]
    simp only [List.cons_append, List.nil_append, List.length_cons, List.take_succ_cons, ih]
    have e1 : x / 4 * 4 + (x % 4 * 16 + y / 16) / 16 = x := by omega
    have e2 : (x % 4 * 16 + y / 16) % 16 * 16 + (y % 16 * 4 + z / 64) / 4 = y := by omega
    have e3 : (y % 16 * 4 + z / 64) % 4 * 64 + z % 64 = z := by omega
    rw [e1, e2, e3]

theorem codes_range : ∀ (l : List Nat), (∀ b ∈ l, b < 256) → ∀ c ∈ codes l, 32 ≤ c ∧ c < 96
  | [], _ => by simp [codes]
  | [x], h => by
    have hx := h x (by simp)
    have : codes [x] = [32 + x / 4, 32 + x % 4 * 16, 32 + 0] := by
      rw [← encodeGroup_one hx]; simp [codes, chunks, chunksAux]
    rw [this]; simp; omega
  | [x, y], h => by
    have hx := h x (by simp)
    have hy := h y (by simp)
    have : codes [x, y] = [32 + x / 4, 32 + (x % 4 * 16 + y / 16), 32 + y % 16 * 4, 32 + 0] := by
      rw [← encodeGroup_two hx hy]; simp [codes, chunks, chunksAux]
    rw [this]; simp; omega
  | x :: y :: z :: t, h => by
    have hx := h x (by simp)
    have hy := h y (by simp)
    have hz := h z (by simp)
    have ih := codes_range t (fun b hb => h b (by simp [hb]))
    rw [codes_three, encodeGroup_three hx hy hz]
    intro c hc
    simp only [List.mem_append, List.mem_cons, List.not_mem_nil, or_false] at hc
    rcases hc with (rfl | rfl | rfl | rfl) | hc
    · omega
    · omega
    · omega
    · omega
    · exact ih c hc

theorem ofNat_small {n : Nat} (h : n < 128) : (Char.ofNat n).toNat = n :=
  (by decide : ∀ n < 128, (Char.ofNat n).toNat = n) n h

theorem utf8_ofNat {l : List Nat} (h : ∀ c ∈ l, c < 128) : utf8 (l.map Char.ofNat) = l := by
  induction l with
  | nil => rfl
  | cons c cs ih =>
    have hc := h c (by simp)
    rw [List.map_cons, utf8_cons, ih (fun d hd => h d (by simp [hd]))]
    simp [utf8Enc, ofNat_small hc, hc]

theorem trimEol_id {s : Str} (h : ∀ c, s.getLast? = some c → c ≠ '\n' ∧ c ≠ '\r') : trimEol s = s := by
  unfold trimEol
  cases hr : s.reverse with
  | nil => simp at hr; simp [hr]
  | cons c cs =>
    have hl : s.getLast? = some c := by rw [← List.head?_reverse, hr]; rfl
    have := h c hl
    rw [List.dropWhile_cons]
    simp only [beq_iff_eq, this.1, this.2, Bool.or_eq_true, or_self, if_false]
    rw [← hr, List.reverse_reverse]

/-- An encoded data line is decoded to the chunk it encodes, then decoding goes on. -/
theorem decode_encodeLine {chunk : List Nat} (hpos : 0 < chunk.length) (hlen : chunk.length ≤ 45)
    (hb : ∀ b ∈ chunk, b < 256) (rest : List Str) :
    decode (encodeLine chunk :: rest) = chunk ++ decode rest := by
  have hr := codes_range chunk hb
  have hcs : encodeLine chunk = (((32 + chunk.length) :: codes chunk).map Char.ofNat) := rfl
  have hall : ∀ n ∈ (32 + chunk.length) :: codes chunk, 32 ≤ n ∧ n < 96 := by
    intro n hn
    rcases List.mem_cons.1 hn with rfl | hn
    · omega
    · exact hr n hn
  have hhead : isWs (Char.ofNat (32 + chunk.length)) = false := by
    have : ∀ n < 78, 32 < n → isWs (Char.ofNat n) = false := by decide
    exact this _ (by omega) (by omega)
  have ht : trimStart (encodeLine chunk) = encodeLine chunk := by
    unfold trimStart encodeLine
    rw [List.dropWhile_cons, hhead]; rfl
  have he : trimEol (encodeLine chunk) = encodeLine chunk := by
    apply trimEol_id
    intro c hc
    have hm := List.mem_of_getLast? hc
    rw [hcs] at hm
    obtain ⟨n, hn, rfl⟩ := List.mem_map.1 hm
    have hn := hall n hn
    have : ∀ n < 96, 32 ≤ n → Char.ofNat n ≠ '\n' ∧ Char.ofNat n ≠ '\r' := by decide
    exact this n hn.2 hn.1
  have hne : Char.ofNat (32 + chunk.length) ≠ 'e' := by
    have : ∀ n < 96, Char.ofNat n ≠ 'e' := by decide
    exact this _ (by omega)
  have hne' : ¬ 'e' = Char.ofNat (32 + chunk.length) := fun h => hne h.symm
  have hu : utf8 (encodeLine chunk) = (32 + chunk.length) :: codes chunk := by
    rw [hcs, utf8_ofNat (fun c hc => by have := hall c hc; omega)]
  rw [decode]
  simp only [ht, he]
  rw [if_neg (by simp [encodeLine]), if_neg (by simp [encodeLine, hne, stripPrefix, hne']), hu]
  simp only
  rw [minus32_add (by omega), if_neg (by omega), if_neg (by omega), decode_codes chunk hb]

theorem decode_encodeLines (cs : List (List Nat)) (hl : ∀ c ∈ cs, 0 < c.length ∧ c.length ≤ 45)
    (hb : ∀ c ∈ cs, ∀ b ∈ c, b < 256) (rest : List Str) :
    decode (cs.map encodeLine ++ rest) = cs.flatten ++ decode rest := by
  induction cs with
  | nil => simp
  | cons c cs ih =>
    have h1 := hl c (by simp)
    rw [List.map_cons, List.cons_append, decode_encodeLine h1.1 h1.2 (hb c (by simp)),
      ih (fun d hd => hl d (by simp [hd])) (fun d hd => hb d (by simp [hd]))]
    simp

theorem trimEol_head {c : Char} {s : Str} (hc : c ≠ '\n') (hc' : c ≠ '\r') :
    ∃ t, trimEol (c :: s) = c :: t := by
  unfold trimEol
  rw [List.reverse_cons, List.dropWhile_append]
  split
  · exact ⟨[], by simp [hc, hc']⟩
  · exact ⟨(s.reverse.dropWhile _).reverse, by simp; rfl⟩

theorem decode_begin (name : Str) (rest : List Str) :
    decode (("begin 644 ".toList ++ name) :: rest) = decode rest := by
  have ht : trimStart ("begin 644 ".toList ++ name) = 'b' :: ("egin 644 ".toList ++ name) := by
    simp [trimStart, isWs]
  obtain ⟨t, he⟩ := trimEol_head (c := 'b') (s := "egin 644 ".toList ++ name) (by decide) (by decide)
  rw [decode]
  simp only [ht, he]
  rw [if_neg (by simp), if_neg (by simp [stripPrefix]), utf8_cons]
  have : utf8Enc 'b' = [98] := by decide
  rw [this]
  simp [minus32]

theorem decode_tail : decode [['`'], ['e', 'n', 'd']] = [] := by decide

end Verif.UU
