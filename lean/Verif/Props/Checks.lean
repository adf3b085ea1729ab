import Verif.Model.Checks
import Verif.Spec.Checks
import Verif.Lemmas.Color
import Verif.Lemmas.Time
import Verif.Lemmas.InfoCmd
import Verif.Lemmas.Karaoke
import Verif.Props.Color
/-!
# C142 — checks of names, colours, sizes and pieces of a source
-/
namespace Verif.Props.Checks
open Verif Verif.Checks Verif.Spec Verif.Spec.Checks
open Verif.Spec.InfoCmd (Stripped)
open Verif.Spec.EventCmd (White)
open Verif.Color (parseBgrColor)

theorem stripped_eq {s t : Str} (h : Stripped s t) : trim s = t := by
  obtain ⟨⟨h1, h2⟩, a, b, rfl, ha, hb⟩ := h
  have wa : ∀ c ∈ a, isWs c = true := fun c hc => (SrtDoc.white_iff c).2 (ha c hc)
  have wb : ∀ c ∈ b, isWs c = true := fun c hc => (SrtDoc.white_iff c).2 (hb c hc)
  by_cases hne : t = []
  · subst hne
    rw [Karaoke.trim_nil_iff]
    intro c hc
    rw [List.append_nil, List.mem_append] at hc
    exact hc.elim (wa c) (wb c)
  · exact Color.trim_pad wa wb hne (fun c hc => SrtDoc.not_white (h1 c hc)) (fun c hc => SrtDoc.not_white (h2 c hc))

/-! ## Names -/

theorem control_iff (c : Char) : (!Utf8.isControl c || c == '\t') = true ↔ (c = '\t' ∨ ¬ Spec.Encoding.Control c) := by
  unfold Spec.Encoding.Control Utf8.isControl
  simp only [Bool.or_eq_true, Bool.not_eq_true', Bool.or_eq_false_iff, decide_eq_false_iff_not, Bool.and_eq_false_iff, beq_iff_eq]
  constructor
  · rintro (h | h)
    · right; omega
    · exact .inl h
  · rintro (h | h)
    · exact .inr h
    · left; omega

/-- **C142, names.** A name is accepted exactly if it is not empty, has no comma, colon or brace, and no control character but
tabulators. -/
theorem C142_name (n : Str) : validName n = true ↔ Name n := by
  unfold validName Name
  simp only [Bool.and_eq_true, List.all_eq_true, control_iff, Bool.not_eq_true', List.isEmpty_eq_false_iff]
  have hc : ∀ x, n.contains x = false ↔ x ∉ n := fun x => by
    rw [← Bool.not_eq_true, List.contains_iff_mem]
  rw [hc, hc, hc, hc]
  constructor
  · rintro ⟨⟨⟨⟨⟨h0, h1⟩, h2⟩, h3⟩, h4⟩, h5⟩
    exact ⟨h0, fun c m => ⟨fun e => h1 (e ▸ m), fun e => h2 (e ▸ m), fun e => h3 (e ▸ m), fun e => h4 (e ▸ m), h5 c m⟩⟩
  · rintro ⟨h0, h⟩
    exact ⟨⟨⟨⟨⟨h0, fun m => (h _ m).1 rfl⟩, fun m => (h _ m).2.1 rfl⟩, fun m => (h _ m).2.2.1 rfl⟩, fun m => (h _ m).2.2.2.1 rfl⟩,
      fun c m => (h c m).2.2.2.2⟩

example : Name "Sign é\t2".toList ∧ ¬ Name "a:b".toList ∧ ¬ Name [] ∧ ¬ Name "a\nb".toList := by
  simp only [← C142_name]
  decide

/-! ## Colours -/

theorem hex_iff (c : Char) : isHexDigit c = true ↔ ∃ x, hexDigit c = some x := by
  constructor
  · intro h
    have key : ∀ n : Fin 128, isHexDigit (Char.ofNat n) = true → (hexDigit (Char.ofNat n)).isSome = true := by decide
    have hc : c.toNat < 128 := by
      unfold isHexDigit at h
      simp only [Bool.or_eq_true, Bool.and_eq_true, decide_eq_true_eq] at h
      have hv : ∀ d : Char, c ≤ d → c.toNat ≤ d.toNat := fun d hd => hd
      rcases h with (⟨_, h⟩ | ⟨_, h⟩) | ⟨_, h⟩
      · have := hv _ h; have : ('9' : Char).toNat = 57 := rfl; omega
      · have := hv _ h; have : ('f' : Char).toNat = 102 := rfl; omega
      · have := hv _ h; have : ('F' : Char).toNat = 70 := rfl; omega
    have := key ⟨c.toNat, hc⟩
    simp only [Char.ofNat_toNat] at this
    exact Option.isSome_iff_exists.1 (this h)
  · rintro ⟨x, hx⟩
    exact (Color.hexDigit_cases hx).2.1

theorem hex_len {p : Str} (h : ∀ c ∈ p, ∃ x, hexDigit c = some x) : byteLen p = p.length :=
  Color.byteLen_of_ascii (fun c hc => by obtain ⟨x, hx⟩ := h c hc; exact (Color.hexDigit_cases hx).2.2.2.2.1)

theorem part_hex {h : Char} {p e : Str} (hp : ∀ c ∈ p, ∃ x, hexDigit c = some x) (hne : p ≠ []) (he : e = [] ∨ e = ['&']) :
    colourPart ('&' :: h :: p ++ e) = p := by
  unfold colourPart Color.endsWithAmp
  rcases he with rfl | rfl
  · rw [List.append_nil, if_neg]
    · rfl
    · intro hh
      have hl : ('&' :: h :: p).getLast? = p.getLast? := by
        cases p with
        | nil => exact absurd rfl hne
        | cons x p => rfl
      rw [hl, beq_iff_eq] at hh
      obtain ⟨x, hx⟩ := hp _ (List.mem_of_getLast? hh)
      exact (Color.hexDigit_cases hx).2.2.1 rfl
  · rw [if_pos (by rw [beq_iff_eq]; exact List.getLast?_concat (l := '&' :: h :: p))]
    simp

theorem starts_iff (t : Str) : ((stripPrefix ['&', 'H'] t).isSome || (stripPrefix ['&', 'h'] t).isSome) = true ↔
    ∃ h q, t = '&' :: h :: q ∧ (h = 'H' ∨ h = 'h') := by
  rw [Bool.or_eq_true, Option.isSome_iff_exists, Option.isSome_iff_exists]
  simp only [stripPrefix_iff]
  constructor
  · rintro (⟨q, e⟩ | ⟨q, e⟩)
    · exact ⟨'H', q, e, .inl rfl⟩
    · exact ⟨'h', q, e, .inr rfl⟩
  · rintro ⟨h, q, e, rfl | rfl⟩
    · exact .inl ⟨q, e⟩
    · exact .inr ⟨q, e⟩

theorem no_decimal {h : Char} {q : Str} {v : Nat} : ¬ U32Text ('&' :: h :: q) v := by
  rintro ⟨_, ⟨_, hd, _⟩ | ⟨ds, e, _⟩⟩
  · exact absurd (hd '&' (by simp)) (by decide)
  · cases e

/-- **C142, colours.** A colour is accepted exactly if, apart from white space around it, it is `&H` (or `&h`) with six or eight
hexadecimal digits and perhaps `&` behind, or a decimal number of 32 bits. -/
theorem C142_colour (s : Str) : validColour s = true ↔ ∃ t, Stripped s t ∧ (HexColour t ∨ DecimalColour t) := by
  have hs := InfoCmd.stripped_trim s
  have hu : (∃ t, Stripped s t ∧ (HexColour t ∨ DecimalColour t)) ↔ (HexColour (trim s) ∨ DecimalColour (trim s)) := by
    constructor
    · rintro ⟨t, ht, h⟩
      rw [stripped_eq ht]
      exact h
    · exact fun h => ⟨_, hs, h⟩
  rw [hu]
  clear hu hs
  unfold validColour
  generalize trim s = t
  dsimp only
  by_cases h0 : t = []
  · subst h0
    simp only [List.isEmpty_nil, if_true, Bool.false_eq_true, false_iff, not_or]
    refine ⟨fun ⟨h, p, e, h1, _⟩ => (nomatch h1), ?_⟩
    rintro ⟨v, _, ⟨h, _⟩ | ⟨ds, e, _⟩⟩
    · exact h rfl
    · cases e
  · rw [if_neg (by simpa using h0)]
    by_cases hp : ∃ h q, t = '&' :: h :: q ∧ (h = 'H' ∨ h = 'h')
    · rw [if_pos ((starts_iff t).2 hp)]
      obtain ⟨h, q, rfl, hh⟩ := hp
      have hnd : ¬ DecimalColour ('&' :: h :: q) := fun ⟨v, hv⟩ => no_decimal hv
      simp only [hnd, or_false]
      constructor
      · intro hc
        split at hc
        · cases hc
        · rename_i hl
          have ha : ∀ c ∈ colourPart ('&' :: h :: q), ∃ x, hexDigit c = some x := fun c hm => (hex_iff c).1 (List.all_eq_true.1 hc c hm)
          rw [hex_len ha] at hl
          refine ⟨h, colourPart ('&' :: h :: q), if Color.endsWithAmp ('&' :: h :: q) then ['&'] else [], ?_, hh, ?_, by omega, ha⟩
          · unfold colourPart
            split
            · rename_i he
              unfold Color.endsWithAmp at he
              cases q with
              | nil =>
                simp at he
                rcases hh with rfl | rfl <;> exact absurd he (by decide)
              | cons x q =>
                have hne : x :: q ≠ [] := by simp
                have he : (x :: q).getLast hne = '&' := by
                  rw [List.getLast?_cons_cons, List.getLast?_cons_cons, List.getLast?_eq_some_getLast hne, beq_iff_eq] at he
                  exact Option.some.inj he
                have := List.dropLast_concat_getLast hne
                rw [he] at this
                show '&' :: h :: (x :: q) = '&' :: h :: ((x :: q).dropLast ++ ['&'])
                rw [this]
            · simp
          · split
            · exact .inr rfl
            · exact .inl rfl
      · rintro ⟨h', p, e, e1, _, he, hl, ha⟩
        have hne : p ≠ [] := by rintro rfl; simp at hl
        rw [e1, part_hex ha hne he, hex_len ha, if_neg (by omega), List.all_eq_true]
        exact fun c hm => (hex_iff c).2 (ha c hm)
    · rw [if_neg (fun h => hp ((starts_iff t).1 h)), Option.isSome_iff_exists]
      simp only [Time.parseU32_iff]
      constructor
      · exact fun h => .inr h
      · rintro (⟨h, p, e, e1, hh, _⟩ | h)
        · exact absurd ⟨h, p ++ e, by rw [e1]; rfl, hh⟩ hp
        · exact h

theorem bytes_of {c d : Char} (hc : ∃ x, hexDigit c = some x) (hd : ∃ x, hexDigit d = some x) : ∃ v, HexByte [c, d] v := by
  obtain ⟨x, hx⟩ := hc
  obtain ⟨y, hy⟩ := hd
  exact ⟨_, c, d, x, y, rfl, hx, hy, rfl⟩

/-- **C142, colours.** A colour accepted in its hexadecimal form is also read by the parser of colours.  Partial: the decimal form is
not (see `C142_decimal_violated`). -/
theorem C142_readable_partial {s t : Str} (ht : Stripped s t) (hx : HexColour t) : validColour s = true ∧ ∃ c, parseBgrColor s = some c := by
  refine ⟨(C142_colour s).2 ⟨t, ht, .inl hx⟩, ?_⟩
  obtain ⟨_, a, b, rfl, ha, hb⟩ := ht
  have wa : ∀ c ∈ a, isWs c = true := fun c hc => (SrtDoc.white_iff c).2 (ha c hc)
  have wb : ∀ c ∈ b, isWs c = true := fun c hc => (SrtDoc.white_iff c).2 (hb c hc)
  obtain ⟨h, p, e, rfl, hh, he, hl, hp⟩ := hx
  have hd : Decorated p ('&' :: h :: p ++ e) := by
    unfold Decorated
    rcases hh with rfl | rfl <;> rcases he with rfl | rfl <;> simp
  rcases hl with hl | hl
  · match p, hl with
    | [c1, c2, c3, c4, c5, c6], _ =>
      obtain ⟨v1, h1⟩ := bytes_of (hp c1 (by simp)) (hp c2 (by simp))
      obtain ⟨v2, h2⟩ := bytes_of (hp c3 (by simp)) (hp c4 (by simp))
      obtain ⟨v3, h3⟩ := bytes_of (hp c5 (by simp)) (hp c6 (by simp))
      exact ⟨_, C03_color_without_alpha _ _ _ a b _ _ _ _ h1 h2 h3 hd wa wb⟩
  · match p, hl with
    | [c1, c2, c3, c4, c5, c6, c7, c8], _ =>
      obtain ⟨v1, h1⟩ := bytes_of (hp c1 (by simp)) (hp c2 (by simp))
      obtain ⟨v2, h2⟩ := bytes_of (hp c3 (by simp)) (hp c4 (by simp))
      obtain ⟨v3, h3⟩ := bytes_of (hp c5 (by simp)) (hp c6 (by simp))
      obtain ⟨v4, h4⟩ := bytes_of (hp c7 (by simp)) (hp c8 (by simp))
      exact ⟨_, C03_color_with_alpha _ _ _ _ a b _ _ _ _ _ h1 h2 h3 h4 hd wa wb⟩

example : validColour " &h00ff00FF& ".toList = true ∧ validColour "&H12345&".toList = false ∧ validColour "+255".toList = true := by decide

/-- **C142, disagreement.** A decimal colour is accepted, but the parser of colours refuses it — or, if it has six or eight digits, takes
them for hexadecimal ones: `16777215`, white, becomes a colour with blue 0x77, green 0x72 and red 0x15. -/
theorem C142_decimal_violated : validColour "255".toList = true ∧ parseBgrColor "255".toList = none ∧
    validColour "16777215".toList = true ∧ parseBgrColor "16777215".toList = some ⟨0x15, 0x72, 0x77, 0x16⟩ := by decide

/-- **C142, disagreement.** Spellings the parser of colours reads are refused: `0xFF00FF` and bare digits. -/
theorem C142_refused_violated : parseBgrColor "0xFF00FF".toList = some ⟨0xFF, 0, 0xFF, 0⟩ ∧ validColour "0xFF00FF".toList = false ∧
    parseBgrColor "FF00FF".toList = some ⟨0xFF, 0, 0xFF, 0⟩ ∧ validColour "FF00FF".toList = false := by decide

/-! ## Limits -/

/-- **C142, limits.** A check passes exactly if what is asked for stays within the limit; otherwise the error gives both numbers, or says
that the sum does not even fit. -/
theorem C142_limit {current additional limit size : Nat} (hl : limit < 2 ^ 64) :
    (memoryLimit current additional limit = .ok ↔ current + additional ≤ limit) ∧
    (∀ c l, memoryLimit current additional limit = .exceeded c l → c = current + additional ∧ l = limit ∧ l < c) ∧
    (memoryLimit current additional limit = .outOfMemory ↔ 2 ^ 64 ≤ current + additional) ∧
    (sizeLimit size limit = .ok ↔ size ≤ limit) ∧
    (∀ c l, sizeLimit size limit = .exceeded c l → c = size ∧ l = limit ∧ l < c) := by
  unfold memoryLimit sizeLimit
  refine ⟨?_, fun c l h => ?_, ?_, ?_, fun c l h => ?_⟩
  · split
    · split
      · simp; omega
      · simp; omega
    · simp; omega
  · split at h
    · split at h
      · injection h with h1 h2; omega
      · cases h
    · cases h
  · split
    · split
      · simp; omega
      · simp; omega
    · simp; omega
  · split
    · simp; omega
    · simp; omega
  · split at h
    · injection h with h1 h2; omega
    · cases h

example : memoryLimit 100 50 149 = .exceeded 150 149 ∧ memoryLimit 100 50 150 = .ok ∧ memoryLimit (2 ^ 64 - 1) 1 (2 ^ 64 - 1) = .outOfMemory := by
  decide

/-! ## Pieces of a source -/

/-- **C142, pieces.** A piece of the source, standing in it behind `pre`, is found there: its offset is the number of bytes before it, its
line one more than the line feeds before it, its column one more than the characters between the last line feed and it. -/
theorem C142_piece (base : Nat) (pre piece post first rest : Str) (hp : pre = first ++ rest)
    (hf : first = [] ∨ first.getLast? = some '\n') (hr : '\n' ∉ rest) (source span : Slice) (hs : source = ⟨base, pre ++ piece ++ post⟩)
    (ha : Checks.At base pre span.addr) (ht : span.text = piece) :
    validSpan source span = true ∧ spanOffset source span = some (Script.size pre) ∧
    spanLine source span = some (some ((pre.filter (· = '\n')).length + 1)) ∧ spanColumn source span = some (some (rest.length + 1)) := by
  obtain ⟨addr, text⟩ := span
  simp only at ha ht
  subst hs ht
  unfold Checks.At at ha
  have e : Script.size pre = byteLen pre := rfl
  rw [e] at ha ⊢
  have hv : validSpan ⟨base, pre ++ text ++ post⟩ ⟨addr, text⟩ = true := by
    unfold validSpan
    simp only [Bool.and_eq_true, decide_eq_true_eq, byteLen_append]
    omega
  have ho : spanOffset ⟨base, pre ++ text ++ post⟩ ⟨addr, text⟩ = some (byteLen pre) := by
    unfold spanOffset
    rw [if_pos hv]
    congr 1
    show addr - base = _
    omega
  have hb : before ⟨base, pre ++ text ++ post⟩ ⟨addr, text⟩ = some (some pre) := by
    unfold before
    rw [ho, List.append_assoc]
    show some (takeBytes (pre ++ (text ++ post)) (byteLen pre)) = _
    rw [takeBytes_append]
  refine ⟨hv, ho, ?_, ?_⟩
  · unfold spanLine
    rw [hb]
    rfl
  · unfold spanColumn
    rw [hb]
    have : (pre.reverse.takeWhile (· != '\n')) = rest.reverse := by
      rw [hp, List.reverse_append]
      rw [List.takeWhile_append_of_pos (by
        intro c hc
        rw [bne_iff_ne]
        rintro rfl
        exact hr (List.mem_reverse.1 hc))]
      rcases hf with rfl | hf
      · simp
      · rw [← List.head?_reverse] at hf
        cases hfr : first.reverse with
        | nil => simp
        | cons x l =>
          rw [hfr] at hf
          injection hf with hf
          subst hf
          simp
    rw [Option.map_some, Option.map_some, this, List.length_reverse]

/-- **C142, pieces.** A piece that reaches over either end of the source is refused. -/
theorem C142_outside (source span : Slice) (h : span.addr < source.addr ∨ source.addr + Script.size source.text < span.addr + Script.size span.text) :
    validSpan source span = false ∧ spanOffset source span = none ∧ spanLine source span = none ∧ spanColumn source span = none := by
  have hv : validSpan source span = false := by
    unfold validSpan
    rw [Bool.and_eq_false_iff, decide_eq_false_iff_not, decide_eq_false_iff_not]
    rcases h with h | h
    · left; omega
    · right
      have h : source.addr + byteLen source.text < span.addr + byteLen span.text := h
      omega
  have ho : spanOffset source span = none := by unfold spanOffset; rw [if_neg (by rw [hv]; decide)]
  have hb : before source span = none := by unfold before; rw [ho]; rfl
  exact ⟨hv, ho, by unfold spanLine; rw [hb]; rfl, by unfold spanColumn; rw [hb]; rfl⟩

example : spanLine ⟨1000, "ab\ncdé,f".toList⟩ ⟨1007, ",".toList⟩ = some (some 2) ∧
    spanColumn ⟨1000, "ab\ncdé,f".toList⟩ ⟨1007, ",".toList⟩ = some (some 4) ∧ Spec.Checks.At 1000 "ab\ncdé".toList 1007 ∧
    validSpan ⟨1000, "ab".toList⟩ ⟨1001, "bc".toList⟩ = false := by
  unfold Spec.Checks.At
  decide

end Verif.Props.Checks
