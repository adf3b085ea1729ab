import Verif.Lemmas.Look
/-!
# C105, C106, C107 — the look of a run of text
-/
namespace Verif.Props
open Verif Verif.Look Verif.Spec.Look
open Verif.Spec (HexByte)
open Verif.Color (Rgba digitsVal_append parseUnsigned_no_plus byteLen_of_ascii)
open Verif.Segment (Tags Field Val Seg Fade KaraokeStyle)
open Verif.Spec.Segment (valueOf)

/-! ## Demonstration -/

def demoStyle : Style :=
  ⟨"&H00FFFFFF".toList, "&H000000FF".toList, "&H40000000".toList, "&H80000000".toList, "-1".toList, "0".toList, "0".toList, "0".toList,
   "100".toList, "100".toList, "0".toList, "1".toList, "2".toList, "3".toList⟩

def demoNumber (s : Str) : Option Rat := (parseU32 s).map fun n => (n : Rat)

def demoDefaults : Defaults := Look.defaults demoNumber true 2 (some demoStyle)

/-! ## C105: colours -/

/-- **C105.** A colour of a style in the form `&HAABBGGRR`, with or without a final `&`: `AA` is how transparent it is. -/
theorem C105_style_colour {pa pb pg pr : List Char} {a b g r : Nat} (ha : HexByte pa a) (hb : HexByte pb b) (hg : HexByte pg g)
    (hr : HexByte pr r) (n : Nat) :
    parseAssColor ("&H".toList ++ pa ++ pb ++ pg ++ pr ++ List.replicate n '&') = ⟨r, g, b, 255 - a⟩ := by
  obtain ⟨a1, a2, a3, a4⟩ := ha.props
  obtain ⟨b1, b2, b3, b4⟩ := hb.props
  obtain ⟨g1, g2, g3, g4⟩ := hg.props
  obtain ⟨r1, r2, r3, r4⟩ := hr.props
  have hall : ∀ c ∈ pa ++ pb ++ pg ++ pr, c ≠ '&' ∧ c ≠ '+' ∧ c.utf8Size = 1 := by
    intro c hc
    simp only [List.mem_append] at hc
    rcases hc with ((hc | hc) | hc) | hc
    · exact ⟨(a1 c hc).2.1, (a1 c hc).2.2.1, (a1 c hc).2.2.2.1⟩
    · exact ⟨(b1 c hc).2.1, (b1 c hc).2.2.1, (b1 c hc).2.2.2.1⟩
    · exact ⟨(g1 c hc).2.1, (g1 c hc).2.2.1, (g1 c hc).2.2.2.1⟩
    · exact ⟨(r1 c hc).2.1, (r1 c hc).2.2.1, (r1 c hc).2.2.2.1⟩
  have hlen : (pa ++ pb ++ pg ++ pr).length = 8 := by simp; omega
  generalize hp : pa ++ pb ++ pg ++ pr = p at *
  have hne : p ≠ [] := by intro e; rw [e] at hlen; simp at hlen
  have e1 : "&H".toList ++ pa ++ pb ++ pg ++ pr ++ List.replicate n '&' = ("&H".toList ++ p) ++ List.replicate n '&' := by
    rw [← hp]
    simp only [List.append_assoc]
  have hlast : ∀ c, ("&H".toList ++ p).getLast? = some c → c ≠ '&' := by
    intro c hc
    obtain ⟨q, z, rfl⟩ : ∃ q z, p = q ++ [z] := ⟨p.dropLast, p.getLast hne, (List.dropLast_concat_getLast hne).symm⟩
    rw [← List.append_assoc, List.getLast?_concat] at hc
    cases hc
    exact (hall c (by simp)).1
  have hv : digitsVal 16 0 p = some (((a * 256 + b) * 256 + g) * 256 + r) := by
    rw [← hp, digitsVal_append, digitsVal_append, digitsVal_append, a4]
    simp only [Option.bind_some, b4, g4, r4]
    simp
  unfold parseAssColor
  rw [e1, trimEnd_amps n hlast]
  have e2 : stripPrefix ['&', 'H'] ("&H".toList ++ p) = some p := rfl
  rw [e2]
  dsimp only
  rw [parseUnsigned_no_plus hne (fun h => (hall _ h).2.1 rfl) hv (show _ < 4294967296 by omega)]
  dsimp only
  rw [byteLen_of_ascii (fun c hc => (hall c hc).2.2), hlen, if_pos (by omega)]
  unfold bgr
  congr 1 <;> omega

example : parseAssColor "&H4080FF01&".toList = ⟨0x01, 0xFF, 0x80, 191⟩ := by decide

/-- **C105.** Without `AA` it is opaque. -/
theorem C105_style_colour_short {pb pg pr : List Char} {b g r : Nat} (hb : HexByte pb b) (hg : HexByte pg g)
    (hr : HexByte pr r) (n : Nat) :
    parseAssColor ("&H".toList ++ pb ++ pg ++ pr ++ List.replicate n '&') = ⟨r, g, b, 255⟩ := by
  obtain ⟨b1, b2, b3, b4⟩ := hb.props
  obtain ⟨g1, g2, g3, g4⟩ := hg.props
  obtain ⟨r1, r2, r3, r4⟩ := hr.props
  have hall : ∀ c ∈ pb ++ pg ++ pr, c ≠ '&' ∧ c ≠ '+' ∧ c.utf8Size = 1 := by
    intro c hc
    simp only [List.mem_append] at hc
    rcases hc with (hc | hc) | hc
    · exact ⟨(b1 c hc).2.1, (b1 c hc).2.2.1, (b1 c hc).2.2.2.1⟩
    · exact ⟨(g1 c hc).2.1, (g1 c hc).2.2.1, (g1 c hc).2.2.2.1⟩
    · exact ⟨(r1 c hc).2.1, (r1 c hc).2.2.1, (r1 c hc).2.2.2.1⟩
  have hlen : (pb ++ pg ++ pr).length = 6 := by simp; omega
  generalize hp : pb ++ pg ++ pr = p at *
  have hne : p ≠ [] := by intro e; rw [e] at hlen; simp at hlen
  have e1 : "&H".toList ++ pb ++ pg ++ pr ++ List.replicate n '&' = ("&H".toList ++ p) ++ List.replicate n '&' := by
    rw [← hp]
    simp only [List.append_assoc]
  have hlast : ∀ c, ("&H".toList ++ p).getLast? = some c → c ≠ '&' := by
    intro c hc
    obtain ⟨q, z, rfl⟩ : ∃ q z, p = q ++ [z] := ⟨p.dropLast, p.getLast hne, (List.dropLast_concat_getLast hne).symm⟩
    rw [← List.append_assoc, List.getLast?_concat] at hc
    cases hc
    exact (hall c (by simp)).1
  have hv : digitsVal 16 0 p = some ((b * 256 + g) * 256 + r) := by
    rw [← hp, digitsVal_append, digitsVal_append, b4]
    simp only [Option.bind_some, g4, r4]
    simp
  unfold parseAssColor
  rw [e1, trimEnd_amps n hlast]
  have e2 : stripPrefix ['&', 'H'] ("&H".toList ++ p) = some p := rfl
  rw [e2]
  dsimp only
  rw [parseUnsigned_no_plus hne (fun h => (hall _ h).2.1 rfl) hv (show _ < 4294967296 by omega)]
  dsimp only
  rw [byteLen_of_ascii (fun c hc => (hall c hc).2.2), hlen, if_neg (by omega)]
  unfold bgr
  congr 1 <;> omega

example : parseAssColor "&H80FF01".toList = ⟨0x01, 0xFF, 0x80, 255⟩ := by decide

/-- **C105 is violated**: a small `h` or a decimal number, which overrides and the core library read, makes the style's colour white. -/
theorem C105_style_colour_violated :
    parseAssColor "&h000000FF".toList = ⟨255, 255, 255, 255⟩ ∧ parseAssColor "255".toList = ⟨255, 255, 255, 255⟩ ∧
    Color.parseBgrColor "&h000000FF".toList = some ⟨255, 0, 0, 0⟩ := by decide

theorem colours_of {d : Defaults} {t : Tags} {start stop now : Nat} (hd : d.primary.a ≤ 255 ∧ d.outlineColour.a ≤ 255 ∧ d.back.a ≤ 255)
    (hb : Bytes t) (hx : ∀ n, valueOf t .alpha ≠ some (.byte n)) {k : Rat} (h0 : 0 ≤ k / 255) (h1 : k / 255 ≤ 1) {f : Fade}
    (hf : valueOf t .fade = some (.fade f)) (hk : opacity f start stop now = .ok k) :
    ∃ p o s, Look.colors d t start stop now = .ok (p, o, s) ∧ Painted (valueOf t .primary) (valueOf t .alpha1) d.primary (k / 255) p ∧
      Painted (valueOf t .outline) (valueOf t .alpha3) d.outlineColour (k / 255) o ∧
      Painted (valueOf t .shadow) (valueOf t .alpha4) d.back (k / 255) s := by
  have ha : byteOf t .alpha = none := by
    cases h : byteOf t .alpha with
    | none => rfl
    | some n => exact absurd (byteOf_some.1 h) (hx n)
  unfold Look.colors
  rw [ha, Option.or_none, fadeOf_some.2 hf]
  dsimp only
  rw [hk]
  exact ⟨_, _, _, rfl, painted hd.1 hb h0 h1, painted hd.2.1 hb h0 h1, painted hd.2.2 hb h0 h1⟩

/-- **C105.** Text without a fade has the colours of its tags, or else of its style, and likewise for transparency.
`_partial`: without `\alpha`, which sets only one of the parts, see below. -/
theorem C105_colours_partial {d : Defaults} {t : Tags} (start stop now : Nat)
    (hd : d.primary.a ≤ 255 ∧ d.outlineColour.a ≤ 255 ∧ d.back.a ≤ 255) (hb : Bytes t)
    (hx : ∀ n, valueOf t .alpha ≠ some (.byte n)) (hf : ∀ f, valueOf t .fade ≠ some (.fade f)) :
    ∃ p o s, Look.colors d t start stop now = .ok (p, o, s) ∧ Painted (valueOf t .primary) (valueOf t .alpha1) d.primary 1 p ∧
      Painted (valueOf t .outline) (valueOf t .alpha3) d.outlineColour 1 o ∧ Painted (valueOf t .shadow) (valueOf t .alpha4) d.back 1 s := by
  have ha : byteOf t .alpha = none := by
    cases h : byteOf t .alpha with
    | none => rfl
    | some n => exact absurd (byteOf_some.1 h) (hx n)
  have hfo : fadeOf t = none := by
    cases h : fadeOf t with
    | none => rfl
    | some n => exact absurd (fadeOf_some.1 h) (hf n)
  have key : ∀ (fc fa : Field) (style : Rgba), style.a ≤ 255 →
      Painted (valueOf t fc) (valueOf t fa) style 1 (mixed (colorOf t fc) style (byteOf t fa)) := by
    intro fc fa style hs
    have := painted (fc := fc) (fa := fa) hs hb (k := 1) (by decide) (by decide)
    rw [toU8_nat] at this
    · exact this
    · cases h : byteOf t fa with
      | none => exact hs
      | some n => exact hb _ _ (byteOf_some.1 h)
  unfold Look.colors
  rw [ha, Option.or_none, hfo]
  exact ⟨_, _, _, rfl, key _ _ _ hd.1, key _ _ _ hd.2.1, key _ _ _ hd.2.2⟩

example : Look.colors demoDefaults ⟨[(.primary, .color ⟨1, 2, 3, 0⟩), (.alpha3, .byte 7)], []⟩ 0 100 50 =
    .ok (⟨1, 2, 3, 255⟩, ⟨0, 0, 0, 7⟩, ⟨0, 0, 0, 127⟩) := by decide +kernel

/-- **C105.** With `\fad` the share shown rises from the beginning for the first time and falls for the second time to the end
(times in centiseconds).  `_partial`: without `\alpha`. -/
theorem C105_fad_partial {d : Defaults} {t : Tags} {start stop now : Nat}
    (hd : d.primary.a ≤ 255 ∧ d.outlineColour.a ≤ 255 ∧ d.back.a ≤ 255) (hb : Bytes t)
    (hx : ∀ n, valueOf t .alpha ≠ some (.byte n)) {x y tin tout : Nat} {u v : Option Nat}
    (hf : valueOf t .fade = some (.fade ⟨x, y, tin, tout, none, u, v⟩)) (h1 : start ≤ now) (h2 : now < stop)
    (hr : start + tin < 2 ^ 32) :
    ∃ p o s k, Look.colors d t start stop now = .ok (p, o, s) ∧ Short tin tout start stop now k ∧
      Painted (valueOf t .primary) (valueOf t .alpha1) d.primary k p ∧
      Painted (valueOf t .outline) (valueOf t .alpha3) d.outlineColour k o ∧ Painted (valueOf t .shadow) (valueOf t .alpha4) d.back k s := by
  obtain ⟨s1, s2, s3⟩ := short_ok (tin := tin) (tout := tout) h1 h2
  have hk : opacity ⟨x, y, tin, tout, none, u, v⟩ start stop now = .ok (shortOpacity (start + tin) tin tout start stop now) := by
    unfold opacity
    dsimp only
    rw [add32_ok hr]
  obtain ⟨p, o, s, k1, k2, k3, k4⟩ := colours_of hd hb hx s2 s3 hf hk
  exact ⟨p, o, s, _, k1, s1, k2, k3, k4⟩

example : Look.colors demoDefaults ⟨[(.fade, .fade ⟨0, 0, 20, 30, none, none, none⟩)], []⟩ 100 200 105 =
    .ok (⟨255, 255, 255, 63⟩, ⟨0, 0, 0, 47⟩, ⟨0, 0, 0, 31⟩) := by decide +kernel

/-- **C105.** With `\fade` the transparency moves through its three values at the four times (in centiseconds after the beginning).
`_partial`: without `\alpha`, with ordered times, and not at the very moment of a change that takes no time. -/
theorem C105_fade_partial {d : Defaults} {t : Tags} {start stop now : Nat}
    (hd : d.primary.a ≤ 255 ∧ d.outlineColour.a ≤ 255 ∧ d.back.a ≤ 255) (hb : Bytes t)
    (hx : ∀ n, valueOf t .alpha ≠ some (.byte n)) {a1 a2 a3 t1 t2 t3 t4 : Nat} (g1 : a1 ≤ 255) (g2 : a2 ≤ 255) (g3 : a3 ≤ 255)
    (h12 : t1 ≤ t2) (h34 : t3 ≤ t4)
    (hf : valueOf t .fade = some (.fade ⟨a1, a3, t1, t4, some a2, some (t2 - t1), some (t4 - t3)⟩))
    (hx1 : ¬ (now = start + t1 ∧ t1 = t2)) (hx2 : ¬ (now = start + t3 ∧ t3 = t4)) (hr : start + t2 < 2 ^ 32) (hr' : start + t4 < 2 ^ 32) :
    ∃ p o s a, Look.colors d t start stop now = .ok (p, o, s) ∧
      Long a1 a2 a3 (start + t1) (start + t2) (start + t3) (start + t4) now a ∧
      Painted (valueOf t .primary) (valueOf t .alpha1) d.primary ((255 - a) / 255) p ∧
      Painted (valueOf t .outline) (valueOf t .alpha3) d.outlineColour ((255 - a) / 255) o ∧
      Painted (valueOf t .shadow) (valueOf t .alpha4) d.back ((255 - a) / 255) s := by
  obtain ⟨s1, s2, s3⟩ := long_ok (t1 := start + t1) (t2 := start + t2) (t3 := start + t3) (t4 := start + t4) (now := now) g1 g2 g3
    (by omega) (by omega)
  have hr1 : start + t1 < u32Bound := show _ < 2 ^ 32 by omega
  have hk : opacity ⟨a1, a3, t1, t4, some a2, some (t2 - t1), some (t4 - t3)⟩ start stop now =
      .ok (longOpacity a1 a2 a3 (start + t1) (start + t2) (start + t3) (start + t4) now) := by
    unfold opacity
    dsimp only
    rw [add32_ok hr1]
    dsimp only
    rw [Option.getD_some, add32_ok (show start + t1 + (t2 - t1) < 2 ^ 32 by omega)]
    dsimp only
    rw [add32_ok hr']
    dsimp only
    rw [Option.getD_some, show start + t1 + (t2 - t1) = start + t2 by omega, show start + t4 - (t4 - t3) = start + t3 by omega]
  obtain ⟨p, o, s, k1, k2, k3, k4⟩ := colours_of hd hb hx s2 s3 hf hk
  refine ⟨p, o, s, _, k1, s1, ?_⟩
  have e : ∀ x : Rat, 255 - (255 - x) = x := by intro x; grind
  rw [e]
  exact ⟨k2, k3, k4⟩

example : Look.colors demoDefaults ⟨[(.fade, .fade ⟨255, 255, 10, 90, some 0, some 20, some 20⟩)], []⟩ 100 200 120 =
    .ok (⟨255, 255, 255, 127⟩, ⟨0, 0, 0, 95⟩, ⟨0, 0, 0, 63⟩) := by decide +kernel

/-- **C105 is violated**: `\alpha` should set the transparency of all parts, it leaves outline and shadow opaque. -/
theorem C105_alpha_violated :
    ∃ t, Segment.processBlock (fun _ => none) "\\alpha&HFF&".toList ⟨[], []⟩ = .ok t ∧
      Look.colors demoDefaults t 0 100 50 = .ok (⟨255, 255, 255, 0⟩, ⟨0, 0, 0, 191⟩, ⟨0, 0, 0, 127⟩) := by
  exact ⟨⟨[(.alpha, .byte 0)], []⟩, by decide, by decide +kernel⟩

/-- **C105 is violated**: of `\1a` and a later `\alpha` the earlier counts. -/
theorem C105_alpha_order_violated :
    ∃ t, Segment.processBlock (fun _ => none) "\\1a&H00&\\alpha&HFF&".toList ⟨[], []⟩ = .ok t ∧
      Look.colors demoDefaults t 0 100 50 = .ok (⟨255, 255, 255, 255⟩, ⟨0, 0, 0, 191⟩, ⟨0, 0, 0, 127⟩) := by
  exact ⟨⟨[(.alpha, .byte 0), (.alpha1, .byte 255)], []⟩, by decide, by decide +kernel⟩

/-- **C105 is violated**: a `\fade` that appears at once (first and second time 0) is invisible in the first frame, and one that
vanishes at once is still visible at that time. -/
theorem C105_fade_violated :
    ¬ ∀ a1 a2 a3 t1 t2 t3 t4 now : Nat, a1 ≤ 255 → a2 ≤ 255 → a3 ≤ 255 → t1 ≤ t2 → t2 ≤ t3 → t3 ≤ t4 →
      Long a1 a2 a3 t1 t2 t3 t4 now (255 - longOpacity a1 a2 a3 t1 t2 t3 t4 now) := by
  intro h
  have := h 255 0 255 0 0 50 60 0 (by decide) (by decide) (by decide) (by decide) (by decide) (by decide)
  cases this with
  | before h => omega
  | toMiddle _ h => omega
  | middle _ _ _ h => revert h; decide +kernel
  | toEnd _ _ h => omega
  | after _ _ h => omega

/-- **C105 is violated**: the fade of an event near the end of the range of times panics. -/
theorem C105_overflow_violated :
    Look.colors demoDefaults ⟨[(.fade, .fade ⟨0, 0, 20, 30, none, none, none⟩)], []⟩ 4294967290 4294967295 4294967292 = .panic := by decide

end Verif.Props
