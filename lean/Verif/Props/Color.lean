import Verif.Lemmas.Color
/-!
# C03 — colour parsing
-/
namespace Verif.Props
open Verif Verif.Color Verif.Spec

/-- **C03.** Every documented spelling of an 8-digit colour (any letter case, any decoration,
any surrounding blanks) parses to exactly that colour. -/
theorem C03_color_with_alpha (pa pb pg pr w1 w2 t : List Char) (a b g r : Nat)
    (ha : HexByte pa a) (hb : HexByte pb b) (hg : HexByte pg g) (hr : HexByte pr r)
    (ht : Decorated (pa ++ pb ++ pg ++ pr) t)
    (hw1 : ∀ c ∈ w1, isWs c = true) (hw2 : ∀ c ∈ w2, isWs c = true) :
    parseBgrColor (w1 ++ t ++ w2) = some ⟨r, g, b, a⟩ := by
  obtain ⟨a1, a2, a3, a4⟩ := ha.props
  obtain ⟨b1, b2, b3, b4⟩ := hb.props
  obtain ⟨g1, g2, g3, g4⟩ := hg.props
  obtain ⟨r1, r2, r3, r4⟩ := hr.props
  have hall : ∀ c ∈ pa ++ pb ++ pg ++ pr,
      isHexDigit c = true ∧ c ≠ '&' ∧ c ≠ '+' ∧ c.utf8Size = 1 ∧ isWs c = false ∧ c ≠ 'x' := by
    intro c hc
    simp only [List.mem_append] at hc
    rcases hc with ((hc | hc) | hc) | hc
    · exact a1 c hc
    · exact b1 c hc
    · exact g1 c hc
    · exact r1 c hc
  have hlen : (pa ++ pb ++ pg ++ pr).length = 8 := by simp; omega
  have hne : pa ++ pb ++ pg ++ pr ≠ [] := by intro e; rw [e] at hlen; simp at hlen
  obtain ⟨e1, e2, e3⟩ := Decorated.edges (fun c hc => (hall c hc).2.2.2.2.1) hne ht
  unfold parseBgrColor
  rw [trim_pad hw1 hw2 e1 e2 e3,
    hexPart_decorated (fun c hc => ⟨(hall c hc).1, (hall c hc).2.1, (hall c hc).2.2.2.2.2⟩) hne ht]
  simp only
  have hv : digitsVal 16 0 (pa ++ pb ++ pg ++ pr) =
      some (((a * 256 + b) * 256 + g) * 256 + r) := by
    rw [digitsVal_append, digitsVal_append, digitsVal_append, a4]
    simp only [Option.bind_some, b4, g4, r4]
    simp
  rw [parseUnsigned_no_plus hne (fun h => (hall _ h).2.2.1 rfl) hv
    (show _ < 4294967296 by omega)]
  simp only [byteLen_of_ascii (fun c hc => (hall c hc).2.2.2.1), hlen]
  simp only [show ¬ (8 = 6) by decide, if_false, if_true]
  congr 2 <;> omega

example : parseBgrColor " &H80FF7f01& ".toList = some ⟨0x01, 0x7F, 0xFF, 0x80⟩ := by decide

/-- **C03.** The 6-digit spellings parse to the colour with alpha 0. -/
theorem C03_color_without_alpha (pb pg pr w1 w2 t : List Char) (b g r : Nat)
    (hb : HexByte pb b) (hg : HexByte pg g) (hr : HexByte pr r)
    (ht : Decorated (pb ++ pg ++ pr) t)
    (hw1 : ∀ c ∈ w1, isWs c = true) (hw2 : ∀ c ∈ w2, isWs c = true) :
    parseBgrColor (w1 ++ t ++ w2) = some ⟨r, g, b, 0⟩ := by
  obtain ⟨b1, b2, b3, b4⟩ := hb.props
  obtain ⟨g1, g2, g3, g4⟩ := hg.props
  obtain ⟨r1, r2, r3, r4⟩ := hr.props
  have hall : ∀ c ∈ pb ++ pg ++ pr,
      isHexDigit c = true ∧ c ≠ '&' ∧ c ≠ '+' ∧ c.utf8Size = 1 ∧ isWs c = false ∧ c ≠ 'x' := by
    intro c hc
    simp only [List.mem_append] at hc
    rcases hc with (hc | hc) | hc
    · exact b1 c hc
    · exact g1 c hc
    · exact r1 c hc
  have hlen : (pb ++ pg ++ pr).length = 6 := by simp; omega
  have hne : pb ++ pg ++ pr ≠ [] := by intro e; rw [e] at hlen; simp at hlen
  obtain ⟨e1, e2, e3⟩ := Decorated.edges (fun c hc => (hall c hc).2.2.2.2.1) hne ht
  unfold parseBgrColor
  rw [trim_pad hw1 hw2 e1 e2 e3,
    hexPart_decorated (fun c hc => ⟨(hall c hc).1, (hall c hc).2.1, (hall c hc).2.2.2.2.2⟩) hne ht]
  simp only
  have hv : digitsVal 16 0 (pb ++ pg ++ pr) = some ((b * 256 + g) * 256 + r) := by
    rw [digitsVal_append, digitsVal_append, b4]
    simp only [Option.bind_some, g4, r4]
    simp
  rw [parseUnsigned_no_plus hne (fun h => (hall _ h).2.2.1 rfl) hv
    (show _ < 4294967296 by omega)]
  simp only [byteLen_of_ascii (fun c hc => (hall c hc).2.2.2.1), hlen]
  simp only [if_true]
  congr 2 <;> omega

example : parseBgrColor "FF7F01".toList = some ⟨0x01, 0x7F, 0xFF, 0⟩ := by decide

/-- **C03, disagreement.** Not every accepted string has a payload of hexadecimal digits only:
a plus sign is accepted in place of the first digit. -/
theorem C03_rejects_nonhex_violated :
    ¬ ∀ s c, parseBgrColor s = some c →
        ∃ p, Decorated p (trim s) ∧ (∀ d ∈ p, (hexDigit d).isSome) := by
  intro h
  obtain ⟨p, hp, hd⟩ := h "&H+12345".toList ⟨0x45, 0x23, 1, 0⟩ (by decide)
  have ht : trim "&H+12345".toList = "&H+12345".toList := by decide
  rw [ht] at hp
  have hmem : '+' ∈ p := by
    rcases hp with e | e | e | e | e | e
    · exfalso
      have : ("&H+12345".toList).getLast? = some '&' := by rw [e]; exact getLast?_snoc2 _ _ _ _
      revert this; decide
    · exfalso
      have : ("&H+12345".toList).getLast? = some '&' := by rw [e]; exact getLast?_snoc2 _ _ _ _
      revert this; decide
    · have : p = "+12345".toList := by
        have := congrArg (List.drop 2) e
        simpa using this.symm
      rw [this]; decide
    · exfalso; revert e; intro e; have := congrArg (fun l => l[1]?) e; revert this; simp
    · exfalso; have := congrArg (fun l => l[0]?) e; revert this; simp
    · rw [← e]; decide
  have := hd _ hmem
  revert this; decide

/-- **C03.** What acceptance guarantees: the (trimmed) string is a decoration of a payload of
exactly 6 or 8 characters, all hexadecimal digits except that the first may be a plus sign.
(The full claim would exclude the plus sign; see `C03_rejects_nonhex_violated`.) -/
theorem C03_rejects_partial (s : List Char) (c : Rgba) (h : parseBgrColor s = some c) :
    ∃ p, Decorated p (trim s) ∧ (p.length = 6 ∨ p.length = 8) ∧
      ((∀ d ∈ p, (hexDigit d).isSome) ∨ ∃ q, p = '+' :: q ∧ ∀ d ∈ q, (hexDigit d).isSome) := by
  unfold parseBgrColor at h
  split at h
  · simp at h
  · next p hp =>
    have hdec : Decorated p (trim s) := by
      unfold hexPart at hp
      split at hp
      · next hc =>
        simp only [Bool.and_eq_true, Bool.or_eq_true, Option.isSome_iff_exists] at hc
        obtain ⟨hpre, hend⟩ := hc
        have aux : ∀ x, (∃ q, stripPrefix ['&', x] (trim s) = some q) → x ≠ '&' →
            trim s = '&' :: x :: p ++ ['&'] := by
          rintro x ⟨q, hq⟩ hx
          have e := stripPrefix_iff.1 hq
          injection hp with hp
          rw [e] at hp hend
          simp only [List.cons_append, List.nil_append, List.drop_succ_cons, List.drop_zero] at hp
          simp only [endsWithAmp, List.cons_append, List.nil_append, beq_iff_eq] at hend
          cases hq' : q with
          | nil => rw [hq'] at hend; simp [List.getLast?_cons_cons] at hend; exact absurd hend hx
          | cons d ds =>
            rw [hq'] at hend hp
            rw [List.getLast?_cons_cons, List.getLast?_cons_cons] at hend
            rw [e, hq', ← hp]
            have hnn : d :: ds ≠ [] := by simp
            have := List.dropLast_concat_getLast hnn
            have h2 : (d :: ds).getLast hnn = '&' := by
              rw [List.getLast?_eq_some_getLast hnn] at hend; simpa using hend
            rw [h2] at this
            simp [this]
        rcases hpre with hq | hq
        · exact Or.inl (aux 'H' hq (by decide))
        · exact Or.inr (Or.inl (aux 'h' hq (by decide)))
      · split at hp
        · next q hq => injection hp with hp; subst hp; exact Or.inr (Or.inr (Or.inl (stripPrefix_iff.1 hq)))
        · split at hp
          · next q hq =>
            injection hp with hp; subst hp
            exact Or.inr (Or.inr (Or.inr (Or.inl (stripPrefix_iff.1 hq))))
          · split at hp
            · next q hq =>
              injection hp with hp; subst hp
              exact Or.inr (Or.inr (Or.inr (Or.inr (Or.inl (stripPrefix_iff.1 hq)))))
            · split at hp
              · injection hp with hp; subst hp
                exact Or.inr (Or.inr (Or.inr (Or.inr (Or.inr rfl))))
              · simp at hp
    have hdig : ∀ (ds : Str) acc v, digitsVal 16 acc ds = some v →
        ∀ d ∈ ds, (hexDigit d).isSome ∧ d.utf8Size = 1 := by
      intro ds
      induction ds with
      | nil => simp
      | cons d ds ih =>
        intro acc v hv
        rw [digitsVal] at hv
        split at hv
        · next x hx =>
          intro e he
          rcases List.mem_cons.1 he with rfl | he
          · have hlt : e.toNat < 128 := by
              unfold digitVal at hx
              simp only at hx
              split at hx
              · next d' hd' =>
                split at hd'
                · next hc => simp only [Bool.and_eq_true, decide_eq_true_eq] at hc
                             have : e.toNat ≤ 57 := hc.2
                             omega
                · split at hd'
                  · next hc => simp only [Bool.and_eq_true, decide_eq_true_eq] at hc
                               have : e.toNat ≤ 122 := hc.2
                               omega
                  · split at hd'
                    · next hc => simp only [Bool.and_eq_true, decide_eq_true_eq] at hc
                                 have : e.toNat ≤ 90 := hc.2
                                 omega
                    · simp at hd'
              · simp at hx
            have hfin : ∀ n < 128, (digitVal 16 (Char.ofNat n)).isSome →
                (hexDigit (Char.ofNat n)).isSome ∧ (Char.ofNat n).utf8Size = 1 := by decide
            have hof : Char.ofNat e.toNat = e := Char.ofNat_toNat e
            have := hfin e.toNat hlt
            rw [hof, hx] at this
            exact this rfl
          · exact ih _ _ hv e he
        · simp at hv
    split at h
    · simp at h
    · next v hv =>
      have hpl : (∀ d ∈ p, (hexDigit d).isSome ∧ d.utf8Size = 1) ∨
          ∃ q, p = '+' :: q ∧ ∀ d ∈ q, (hexDigit d).isSome ∧ d.utf8Size = 1 := by
        unfold parseUnsigned at hv
        simp only at hv
        split at hv
        · simp at hv
        · split at hv
          · next v' hv' =>
            split at hv'
            · exact Or.inr ⟨_, rfl, hdig _ _ _ hv'⟩
            · exact Or.inl (hdig _ _ _ hv')
          · simp at hv
      have hbl : byteLen p = p.length := by
        rcases hpl with hh | ⟨q, rfl, hh⟩
        · exact byteLen_of_ascii fun d hd => (hh d hd).2
        · apply byteLen_of_ascii
          intro d hd
          rcases List.mem_cons.1 hd with rfl | hd
          · decide
          · exact (hh d hd).2
      refine ⟨p, hdec, ?_, ?_⟩
      · rw [hbl] at h
        by_cases h6 : p.length = 6
        · exact Or.inl h6
        · by_cases h8 : p.length = 8
          · exact Or.inr h8
          · simp [h6, h8] at h
      · rcases hpl with hh | ⟨q, rfl, hh⟩
        · exact Or.inl fun d hd => (hh d hd).1
        · exact Or.inr ⟨q, rfl, fun d hd => (hh d hd).1⟩

example : parseBgrColor "&HGG0000&".toList = none ∧ parseBgrColor "&H12345&".toList = none ∧
    parseBgrColor "".toList = none := by decide

end Verif.Props
