import Verif.Lemmas.Color
import Verif.Lemmas.Str
import Verif.Lemmas.Formats
import Verif.Lemmas.EventCmd
import Verif.Lemmas.SrtDoc
import Verif.Props.Color
import Verif.Spec.Transform
/-! # Animated transforms -/
namespace Verif.Transform
open Verif
open Verif.Spec Verif.Spec.Transform
open Verif.Color (Rgba parseBgrColor)

/-! ## Progress -/

theorem clamp_range (t : Rat) : 0 ≤ clamp t ∧ clamp t ≤ 1 := by unfold clamp; grind

theorem clamp_mono {s t : Rat} (h : s ≤ t) : clamp s ≤ clamp t := by unfold clamp; grind

theorem mul_mono {s t u v : Rat} (h0 : 0 ≤ s) (h : s ≤ t) (h1 : 0 ≤ u) (h2 : u ≤ v) : s * u ≤ t * v := by
  have := Rat.mul_le_mul_of_nonneg_left h2 h0
  have := Rat.mul_le_mul_of_nonneg_right h (show 0 ≤ v by grind)
  grind

theorem mul_unit {s t : Rat} (h0 : 0 ≤ s) (h1 : s ≤ 1) (h2 : 0 ≤ t) (h3 : t ≤ 1) : 0 ≤ s * t ∧ s * t ≤ 1 := by
  refine ⟨Rat.mul_nonneg h0 h2, ?_⟩
  have := mul_mono h0 h1 h2 h3
  grind

theorem curve_range {powf : Rat → Rat → Rat} (hw : PowerLaw powf) (sinPi : Rat → Rat) (t : Rat) {accel : Rat} (ha : 0 ≤ accel) :
    0 ≤ curve powf sinPi t accel ∧ curve powf sinPi t accel ≤ 1 := by
  obtain ⟨h0, h1⟩ := clamp_range t
  unfold curve
  generalize clamp t = t at h0 h1
  simp only
  split
  · exact ⟨h0, h1⟩
  split
  · have := mul_unit (s := 1 - t) (t := 1 - t) (by grind) (by grind) (by grind) (by grind)
    grind
  split
  · exact mul_unit h0 h1 h0 h1
  split
  · have := mul_unit h0 h1 h0 h1
    exact mul_unit this.1 this.2 h0 h1
  rw [if_neg (by grind)]
  exact hw.range _ _ h0 h1 ha

theorem curve_mono {powf : Rat → Rat → Rat} (hw : PowerLaw powf) (sinPi : Rat → Rat) {s t : Rat} {accel : Rat} (ha : 0 ≤ accel)
    (h : s ≤ t) : curve powf sinPi s accel ≤ curve powf sinPi t accel := by
  have hm := clamp_mono h
  obtain ⟨s0, s1⟩ := clamp_range s
  obtain ⟨t0, t1⟩ := clamp_range t
  unfold curve
  generalize clamp s = s at *
  generalize clamp t = t at *
  simp only
  by_cases h1 : abs (accel - 1) < 1 / 1000
  · rw [if_pos h1, if_pos h1]; exact hm
  rw [if_neg h1, if_neg h1]
  by_cases h2 : abs (accel - 1 / 2) < 1 / 1000
  · rw [if_pos h2, if_pos h2]
    have := mul_mono (s := 1 - t) (t := 1 - s) (u := 1 - t) (v := 1 - s) (by grind) (by grind) (by grind) (by grind)
    grind
  rw [if_neg h2, if_neg h2]
  by_cases h3 : abs (accel - 2) < 1 / 1000
  · rw [if_pos h3, if_pos h3]; exact mul_mono s0 hm s0 hm
  rw [if_neg h3, if_neg h3]
  by_cases h4 : abs (accel - 3) < 1 / 1000
  · rw [if_pos h4, if_pos h4]
    exact mul_mono (Rat.mul_nonneg s0 s0) (mul_mono s0 hm s0 hm) s0 hm
  rw [if_neg h4, if_neg h4, if_neg (by grind), if_neg (by grind)]
  exact hw.mono _ _ _ s0 hm t1 ha

theorem div_mono {a b c : Nat} (hc : 0 < c) (h : a ≤ b) : (a : Rat) / (c : Rat) ≤ (b : Rat) / (c : Rat) := by
  have h1 : (a : Rat) ≤ (b : Rat) := Rat.natCast_le_natCast.2 h
  have hc : (0 : Rat) < (c : Rat) := Rat.natCast_lt_natCast.2 hc
  rw [Rat.div_def, Rat.div_def]
  apply Rat.mul_le_mul_of_nonneg_right h1
  exact Rat.le_of_lt (Rat.inv_pos.2 hc)

/-! ## Values in between -/

theorem way_zero (a b : Rat) : way a b 0 = a := by unfold way; grind
theorem way_one (a b : Rat) : way a b 1 = b := by unfold way; grind

theorem way_le {a b p : Rat} (h : a ≤ b) (hp : 0 ≤ p) (hp1 : p ≤ 1) : a ≤ way a b p ∧ way a b p ≤ b := by
  have h1 := Rat.mul_nonneg (a := b - a) (b := p) (by grind) hp
  have h2 := Rat.mul_nonneg (a := b - a) (b := 1 - p) (by grind) (by grind)
  unfold way
  grind

theorem way_ge {a b p : Rat} (h : b ≤ a) (hp : 0 ≤ p) (hp1 : p ≤ 1) : b ≤ way a b p ∧ way a b p ≤ a := by
  have := way_le (a := b) (b := a) (p := 1 - p) h (by grind) (by grind)
  unfold way at *
  grind

theorem way_between {a b p : Rat} (hp : 0 ≤ p) (hp1 : p ≤ 1) : Between a b (way a b p) := by
  by_cases h : a ≤ b
  · exact Or.inl (way_le h hp hp1)
  · exact Or.inr (way_ge (by grind) hp hp1)

theorem whole_between {a b v : Nat} {p : Rat} (hp : 0 ≤ p) (hp1 : p ≤ 1) (h : Whole (way a b p) v) : Between a b v := by
  obtain ⟨h1, h2⟩ := h
  have key : ∀ m n : Nat, (m : Rat) ≤ way a b p → way a b p ≤ (n : Rat) → m ≤ v ∧ v ≤ n := by
    intro m n hm hn
    constructor
    · have h : (m : Rat) < ((v + 1 : Nat) : Rat) := by
        rw [Rat.natCast_add]
        exact Std.lt_of_le_of_lt hm h2
      have := Rat.natCast_lt_natCast.1 h
      omega
    · exact Rat.natCast_le_natCast.1 (Std.le_trans h1 hn)
  rcases way_between (a := a) (b := b) hp hp1 with ⟨k1, k2⟩ | ⟨k1, k2⟩
  · exact Or.inl (key _ _ k1 k2)
  · exact Or.inr (key _ _ k1 k2)

theorem part_between {p : Rat} (hp : 0 ≤ p) (hp1 : p ≤ 1) {a b v : Val} (h : Part p a b v) : ValBetween a b v := by
  cases a <;> cases b <;> cases v <;> simp only [Part] at h <;> simp only [ValBetween]
  · rw [h]; exact way_between hp hp1
  · exact whole_between hp hp1 h
  · exact ⟨whole_between hp hp1 h.1, whole_between hp hp1 h.2.1, whole_between hp hp1 h.2.2.1, whole_between hp hp1 h.2.2.2⟩

theorem mixByte_whole {a b : Nat} {p : Rat} (ha : a ≤ 255) (hb : b ≤ 255) (hp : 0 ≤ p) (hp1 : p ≤ 1) :
    Whole (way a b p) (mixByte a b p) := by
  have hr : 0 ≤ way a b p ∧ way a b p ≤ 255 := by
    have ha' : (a : Rat) ≤ ((255 : Nat) : Rat) := Rat.natCast_le_natCast.2 ha
    have hb' : (b : Rat) ≤ ((255 : Nat) : Rat) := Rat.natCast_le_natCast.2 hb
    have ha0 : ((0 : Nat) : Rat) ≤ (a : Rat) := Rat.natCast_le_natCast.2 (Nat.zero_le _)
    have hb0 : ((0 : Nat) : Rat) ≤ (b : Rat) := Rat.natCast_le_natCast.2 (Nat.zero_le _)
    rcases way_between (a := a) (b := b) hp hp1 with ⟨k1, k2⟩ | ⟨k1, k2⟩
    · exact ⟨Std.le_trans ha0 k1, Std.le_trans k2 hb'⟩
    · exact ⟨Std.le_trans hb0 k1, Std.le_trans k2 ha'⟩
  show Whole (way a b p) (asU8 (way a b p))
  generalize way a b p = x at hr
  have f0 : 0 ≤ x.floor := Rat.le_floor_iff.2 hr.1
  have f1 : x.floor ≤ 255 := by
    have : x.floor < 256 := Rat.floor_lt_iff.2 (by
      have := hr.2
      show x < ((256 : Int) : Rat)
      have h : (255 : Rat) < ((256 : Int) : Rat) := by decide
      exact Std.lt_of_le_of_lt this h)
    omega
  have e : ((asU8 x : Nat) : Int) = x.floor := by unfold asU8; omega
  have e' : ((asU8 x : Nat) : Rat) = ((x.floor : Int) : Rat) := by rw [← e]; rfl
  unfold Whole
  rw [e']
  refine ⟨Rat.floor_le x, ?_⟩
  have := Rat.lt_floor_add_one x
  rw [Rat.intCast_add] at this
  exact this

/-! ## Fields -/

/-- The values that the function starts from. -/
def startOf (d : Defaults) : Field → Val
  | .fontSize => .number d.size
  | .scaleX | .scaleY => .number 100
  | .spacing | .rotationZ | .rotationX | .rotationY | .border | .shadowDepth | .blur => .number 0
  | .primary => .color d.primary
  | .secondary => .color d.secondary
  | .outline => .color d.outline
  | .shadow => .color d.shadow
  | .alpha => .byte 0

theorem setFinal_own (s : State) (t : Tag) : read (setFinal s t) (fieldOf t) = some (target t) := by cases t <;> rfl

theorem setFinal_other (s : State) (t : Tag) {f : Field} (h : fieldOf t ≠ f) : read (setFinal s t) f = read s f := by
  cases t <;> cases f <;> first | rfl | exact absurd rfl h

theorem setMixed_other (d : Defaults) (p : Rat) (s : State) (t : Tag) {f : Field} (h : fieldOf t ≠ f) :
    read (setMixed d p s t) f = read s f := by
  cases t <;> cases f <;> first | rfl | exact absurd rfl h

theorem number_part (o : Option Rat) (e v p : Rat) :
    Part p ((o.map Val.number).getD (.number e)) (.number v) (.number (mixNumber (o.getD e) v p)) := by
  cases o <;> rfl

theorem color_part (o : Option Rgba) (e c : Rgba) {p : Rat} (hp : 0 ≤ p) (hp1 : p ≤ 1) (hc : (Val.color c).Ok)
    (ho : ((o.map Val.color).getD (.color e)).Ok) :
    Part p ((o.map Val.color).getD (.color e)) (.color c) (.color (mixColor (o.getD e) c p)) := by
  have key : ∀ x : Rgba, (Val.color x).Ok → Part p (.color x) (.color c) (.color (mixColor x c p)) := by
    intro x hx
    exact ⟨mixByte_whole hx.1 hc.1 hp hp1, mixByte_whole hx.2.1 hc.2.1 hp hp1, mixByte_whole hx.2.2.1 hc.2.2.1 hp hp1,
      mixByte_whole hx.2.2.2 hc.2.2.2 hp hp1⟩
  cases o with
  | none => exact key _ ho
  | some x => exact key _ ho

theorem byte_part (o : Option Nat) (e n : Nat) {p : Rat} (hp : 0 ≤ p) (hp1 : p ≤ 1) (hc : (Val.byte n).Ok)
    (ho : ((o.map Val.byte).getD (.byte e)).Ok) :
    Part p ((o.map Val.byte).getD (.byte e)) (.byte n) (.byte (mixByte (o.getD e) n p)) := by
  cases o with
  | none => exact mixByte_whole ho hc hp hp1
  | some x => exact mixByte_whole ho hc hp hp1

theorem setMixed_own (d : Defaults) {p : Rat} (hp : 0 ≤ p) (hp1 : p ≤ 1) (s : State) (t : Tag) (ht : (target t).Ok)
    (hs : ((read s (fieldOf t)).getD (startOf d (fieldOf t))).Ok) :
    ∃ v, read (setMixed d p s t) (fieldOf t) = some v ∧
      Part p ((read s (fieldOf t)).getD (startOf d (fieldOf t))) (target t) v := by
  cases t
  case fontSize v => exact ⟨_, rfl, number_part _ _ _ _⟩
  case scaleX v => exact ⟨_, rfl, number_part _ _ _ _⟩
  case scaleY v => exact ⟨_, rfl, number_part _ _ _ _⟩
  case spacing v => exact ⟨_, rfl, number_part _ _ _ _⟩
  case rotationZ v => exact ⟨_, rfl, number_part _ _ _ _⟩
  case rotationX v => exact ⟨_, rfl, number_part _ _ _ _⟩
  case rotationY v => exact ⟨_, rfl, number_part _ _ _ _⟩
  case border v => exact ⟨_, rfl, number_part _ _ _ _⟩
  case shadowDepth v => exact ⟨_, rfl, number_part _ _ _ _⟩
  case blur v => exact ⟨_, rfl, number_part _ _ _ _⟩
  case primary c => exact ⟨_, rfl, color_part _ _ _ hp hp1 ht hs⟩
  case secondary c => exact ⟨_, rfl, color_part _ _ _ hp hp1 ht hs⟩
  case outline c => exact ⟨_, rfl, color_part _ _ _ hp hp1 ht hs⟩
  case shadow c => exact ⟨_, rfl, color_part _ _ _ hp hp1 ht hs⟩
  case alpha n => exact ⟨_, rfl, byte_part _ _ _ hp hp1 ht hs⟩

theorem fold_other {g : State → Tag → State} (hg : ∀ s t f, fieldOf t ≠ f → read (g s t) f = read s f) {f : Field} :
    ∀ {tags : List Tag} {s : State}, (∀ t ∈ tags, fieldOf t ≠ f) → read (tags.foldl g s) f = read s f
  | [], _, _ => rfl
  | t :: tags, s, h => by
    rw [List.foldl_cons, fold_other hg (fun t ht => h t (by simp [ht])), hg s t f (h t (by simp))]

theorem fold_own {g : State → Tag → State} (hg : ∀ s t f, fieldOf t ≠ f → read (g s t) f = read s f) {t : Tag}
    {tags : List Tag} : ∀ {s : State}, (tags.map fieldOf).Nodup → t ∈ tags →
      ∃ s', read s' (fieldOf t) = read s (fieldOf t) ∧ read (tags.foldl g s) (fieldOf t) = read (g s' t) (fieldOf t) := by
  induction tags with
  | nil => intro s _ h; cases h
  | cons u tags ih =>
    intro s hn ht
    rw [List.map_cons, List.nodup_cons] at hn
    rw [List.foldl_cons]
    by_cases hu : t = u
    · subst hu
      refine ⟨s, rfl, fold_other hg ?_⟩
      intro u hu he
      exact hn.1 (he ▸ List.mem_map_of_mem hu)
    · have h : t ∈ tags := by
        rcases List.mem_cons.1 ht with h | h
        · exact absurd h hu
        · exact h
      obtain ⟨s', h1, h2⟩ := ih (s := g s u) hn.2 h
      refine ⟨s', ?_, h2⟩
      rw [h1]
      have hne : fieldOf u ≠ fieldOf t := fun he => hn.1 (he ▸ List.mem_map_of_mem h)
      exact hg s u _ hne

/-! ## Parsing -/

theorem alpha_arg {s h : Str} {m : Nat} (hh : HexByte h m) (hs : s = "&H".toList ++ h ∨ s = "&h".toList ++ h) :
    parseAlphaArg s = some (255 - m) := by
  obtain ⟨h1, h2, h3, h4⟩ := hh.props
  have hno : ∀ c d, c = '&' → stripPrefix [c, d] h = none := by
    intro c d hc
    rw [stripPrefix_eq_none]
    intro t e
    exact (h1 c (by rw [e]; simp)).2.1 hc
  have hparse : parseUnsigned 16 256 h = some m := by
    apply Color.parseUnsigned_no_plus (by intro e; rw [e] at h2; cases h2) (fun hm => (h1 _ hm).2.2.1 rfl) _ h3
    have := h4 0
    simpa using this
  have stop : ∀ n d, trimStartStr ['&', d] n h = h := by
    intro n d
    cases n with
    | zero => rfl
    | succ n => rw [trimStartStr, hno _ _ rfl]
  have hlen : ∀ p : Str, p.length = 2 → (p ++ h).length = 3 + 1 := by intro p hp; rw [List.length_append, hp, h2]
  unfold parseAlphaArg
  rcases hs with rfl | rfl
  · have e : trimStartStr "&H".toList ("&H".toList ++ h).length ("&H".toList ++ h) = h := by
      rw [hlen _ rfl, trimStartStr, stripPrefix_append]
      exact stop _ _
    simp only [e]
    rw [show trimStartStr "&h".toList ("&H".toList ++ h).length h = h from stop _ _, hparse]
    rfl
  · have e : trimStartStr "&H".toList ("&h".toList ++ h).length ("&h".toList ++ h) = "&h".toList ++ h := by
      rw [hlen _ rfl, trimStartStr]
      have : stripPrefix "&H".toList ("&h".toList ++ h) = none := by
        rw [stripPrefix_eq_none]
        intro t e
        simp at e
      rw [this]
    simp only [e]
    have e2 : trimStartStr "&h".toList ("&h".toList ++ h).length ("&h".toList ++ h) = h := by
      rw [hlen _ rfl, trimStartStr, stripPrefix_append]
      exact stop _ _
    rw [e2, hparse]
    rfl

theorem color_arg {f32 : Str → Option Rat} {s : Str} {c : Rgba} (h : Denotes f32 s (.color c)) : parseBgrColor s = some c := by
  rcases h with ⟨pb, pg, pr, h1, h2, h3, h4, h5⟩ | ⟨pa, pb, pg, pr, h1, h2, h3, h4, h5⟩
  · have := Verif.Props.C03_color_without_alpha pb pg pr [] [] s c.b c.g c.r h1 h2 h3 h5 (by simp) (by simp)
    rw [List.nil_append, List.append_nil] at this
    rw [this, ← h4]
  · have := Verif.Props.C03_color_with_alpha pa pb pg pr [] [] s c.a c.b c.g c.r h1 h2 h3 h4 h5 (by simp) (by simp)
    rwa [List.nil_append, List.append_nil] at this

theorem create_ok {f32 : Str → Option Rat} {i : Item} (h : i.Ok f32) : createTag f32 i.name i.arg = some i.tag := by
  obtain ⟨tag, name, arg⟩ := i
  obtain ⟨hn, hd, _, _⟩ := h
  simp only at hn hd ⊢
  have num : ∀ {v : Rat} (g : Rat → Tag), f32 arg = some v → (f32 arg).map g = some (g v) := by
    intro v g h; rw [h]; rfl
  have col : ∀ {c : Rgba} (g : Rgba → Tag), Denotes f32 arg (.color c) → (parseBgrColor arg).map g = some (g c) := by
    intro c g h; rw [color_arg h]; rfl
  cases tag
  case fontSize v => cases List.mem_singleton.1 hn; exact num _ hd
  case scaleX v => cases List.mem_singleton.1 hn; exact num _ hd
  case scaleY v => cases List.mem_singleton.1 hn; exact num _ hd
  case spacing v => cases List.mem_singleton.1 hn; exact num _ hd
  case rotationZ v =>
    rcases List.mem_cons.1 hn with hn | hn
    · cases hn; exact num _ hd
    · cases List.mem_singleton.1 hn; exact num _ hd
  case rotationX v => cases List.mem_singleton.1 hn; exact num _ hd
  case rotationY v => cases List.mem_singleton.1 hn; exact num _ hd
  case primary v =>
    rcases List.mem_cons.1 hn with hn | hn
    · cases hn; exact col _ hd
    · cases List.mem_singleton.1 hn; exact col _ hd
  case secondary v => cases List.mem_singleton.1 hn; exact col _ hd
  case outline v => cases List.mem_singleton.1 hn; exact col _ hd
  case shadow v => cases List.mem_singleton.1 hn; exact col _ hd
  case alpha n =>
    cases List.mem_singleton.1 hn
    obtain ⟨hx, m, h1, h2, h3⟩ := hd
    show (parseAlphaArg arg).map Tag.alpha = some (.alpha _)
    rw [alpha_arg h1 h3, h2]
    rfl
  case border v => cases List.mem_singleton.1 hn; exact num _ hd
  case shadowDepth v => cases List.mem_singleton.1 hn; exact num _ hd
  case blur v =>
    rcases List.mem_cons.1 hn with hn | hn
    · cases hn; exact num _ hd
    · cases List.mem_singleton.1 hn; exact num _ hd

/-- A name: letters, perhaps behind a digit. -/
def isName : Str → Bool
  | [] => false
  | d :: l => if isDigit d then l.all isLetter else (d :: l).all isLetter

theorem names_ok : ∀ (f : Field), ∀ n ∈ names f, isName n = true := by intro f; cases f <;> decide

theorem takeWhile_stop {p : Char → Bool} {a b : Str} (ha : ∀ c ∈ a, p c = true) (hb : ∀ c, b.head? = some c → p c = false) :
    (a ++ b).takeWhile p = a ∧ (a ++ b).dropWhile p = b := by
  rw [List.takeWhile_append_of_pos ha, List.dropWhile_append_of_pos ha]
  cases b with
  | nil => simp
  | cons c b =>
    have := hb c rfl
    simp [this]

theorem tagName_eq {n r : Str} (hn : isName n = true) (hr : ∀ c, r.head? = some c → isLetter c = false) : tagName (n ++ r) = (n, r) := by
  cases n with
  | nil => cases hn
  | cons d l =>
    rw [isName] at hn
    rw [List.cons_append, tagName]
    by_cases hd : isDigit d = true
    · rw [if_pos hd] at hn
      rw [if_pos hd]
      obtain ⟨h1, h2⟩ := takeWhile_stop (List.all_eq_true.1 hn) hr
      rw [h1, h2]
    · rw [if_neg hd] at hn
      rw [if_neg hd]
      obtain ⟨h1, h2⟩ := takeWhile_stop (List.all_eq_true.1 hn) hr
      rw [← List.cons_append, h1, h2]

theorem isLetter_false {c : Char} (h : ¬ (('a' ≤ c ∧ c ≤ 'z') ∨ ('A' ≤ c ∧ c ≤ 'Z'))) : isLetter c = false := by
  unfold isLetter
  simpa using h

theorem itemsText_head (l : List Item) : ∀ c, (itemsText l).head? = some c → c = '\\' := by
  intro c h
  cases l with
  | nil => cases h
  | cons i l =>
    have : (itemsText (i :: l)).head? = some '\\' := rfl
    rw [this] at h
    exact (Option.some.inj h).symm

theorem tags_back {f32 : Str → Option Rat} : ∀ {l : List Item} {n : Nat}, (∀ i ∈ l, i.Ok f32) → (itemsText l).length ≤ n →
    parseTags f32 n (itemsText l) = l.map (·.tag)
  | [], n, _, _ => by cases n <;> rfl
  | i :: l, 0, _, hn => absurd hn (by
      rw [show itemsText (i :: l) = '\\' :: (i.name ++ i.arg ++ itemsText l) from rfl]
      simp)
  | i :: l, n + 1, h, hn => by
    have e : itemsText (i :: l) = '\\' :: (i.name ++ (i.arg ++ itemsText l)) := by
      show '\\' :: (i.name ++ i.arg ++ itemsText l) = _
      rw [List.append_assoc]
    rw [e] at hn ⊢
    rw [parseTags, if_pos rfl]
    have hi := h i (by simp)
    obtain ⟨h1, h2, h3, h4⟩ := id hi
    have hne : i.name ≠ [] := by
      intro hz
      have := names_ok _ _ h1
      rw [hz] at this
      cases this
    have ht : tagName (i.name ++ (i.arg ++ itemsText l)) = (i.name, i.arg ++ itemsText l) := by
      refine tagName_eq (names_ok _ _ h1) ?_
      intro c hc
      cases ha : i.arg with
      | nil =>
        rw [ha, List.nil_append] at hc
        rw [itemsText_head l c hc]
        decide
      | cons d t =>
        rw [ha, List.cons_append, List.head?_cons] at hc
        have : d = c := Option.some.inj hc
        subst this
        exact isLetter_false (h4 d (by rw [ha]; rfl))
    simp only [ht]
    rw [if_neg hne]
    obtain ⟨k1, k2⟩ := takeWhile_stop (p := (· != '\\')) (a := i.arg) (b := itemsText l)
      (fun c hc => by simpa using fun (e : c = '\\') => h3 (e ▸ hc))
      (fun c hc => by rw [itemsText_head l c hc]; decide)
    rw [k1, k2, create_ok hi, tags_back (fun i hi => h i (by simp [hi])) (by
      rw [List.length_cons, List.length_append, List.length_append] at hn
      omega)]
    rfl

theorem trimEndChar_snoc {c : Char} {s : Str} (h : s.getLast? ≠ some c) : trimEndChar c (s ++ [c]) = s := by
  unfold trimEndChar
  rw [List.reverse_append, List.reverse_singleton, List.singleton_append, List.dropWhile_cons, if_pos (by simp)]
  cases hs : s.reverse with
  | nil =>
    have : s = [] := by simpa using hs
    rw [this]
    rfl
  | cons d r =>
    have hd : s.getLast? = some d := by rw [List.getLast?_eq_head?_reverse, hs]; rfl
    have : d ≠ c := fun e => h (e ▸ hd)
    rw [List.dropWhile_cons, if_neg (by simpa using this), ← hs, List.reverse_reverse]

theorem getLast_no {s : Str} {c : Char} (h : c ∉ s) : s.getLast? ≠ some c := fun e => h (List.mem_of_getLast? e)

theorem dec_ok (n : Nat) : ',' ∉ Nat.toDigits 10 n ∧ '\\' ∉ Nat.toDigits 10 n ∧ trim (Nat.toDigits 10 n) = Nat.toDigits 10 n ∧
    Nat.toDigits 10 n ≠ [] :=
  ⟨Formats.showNat_no n ',' (by decide), Formats.showNat_no n '\\' (by decide), (SrtDoc.showNat_line n).1, showNat_ne_nil n⟩

theorem getLast_append_ne {a b : Str} (hb : b ≠ []) : (a ++ b).getLast? = b.getLast? := by
  rw [List.getLast?_append]
  cases h : b.getLast? with
  | none => exact absurd (List.getLast?_eq_none_iff.1 h) hb
  | some c => rfl

/-- The acceleration alone is understood below ten only. -/
def HeadOk (f32 : Str → Option Rat) (s : Str) : Prop := ∀ a v, s = a ++ [','] → ',' ∉ a → f32 a = some v → v < 10

theorem params_eq {f32 : Str → Option Rat} {s : Str} {t1 t2 : Nat} {v : Rat} (h : Head f32 s t1 t2 v) (hk : HeadOk f32 s) :
    params f32 s = (t1, t2, v) := by
  cases h with
  | nothing => rfl
  | @accel a v hb hv =>
    obtain ⟨b1, b2, b3, b4⟩ := hb
    unfold params
    rw [trimEndChar_snoc (getLast_no b2), splitOn_of_not_mem b2, List.map_singleton, EventCmd.trimmed_trim b4]
    simp only
    rw [if_neg b1, hv]
    simp only
    rw [if_pos (hk a v rfl b2 hv)]
  | times h1 h2 =>
    obtain ⟨d1, d2, d3, d4⟩ := dec_ok t1
    obtain ⟨e1, e2, e3, e4⟩ := dec_ok t2
    unfold params
    rw [trimEndChar_snoc (by rw [getLast_append_ne e4]; exact getLast_no e1), List.append_assoc, List.singleton_append,
      splitOn_append_sep _ d1, splitOn_of_not_mem e1]
    simp only [List.map_cons, List.map_nil, d3, e3]
    have p1 : parseU32 (Nat.toDigits 10 t1) = some t1 := parseU32_showNat h1
    have p2 : parseU32 (Nat.toDigits 10 t2) = some t2 := parseU32_showNat h2
    rw [p1, p2]
    rfl
  | @all _ _ a v h1 h2 hb hv =>
    obtain ⟨d1, d2, d3, d4⟩ := dec_ok t1
    obtain ⟨e1, e2, e3, e4⟩ := dec_ok t2
    obtain ⟨b1, b2, b3, b4⟩ := hb
    unfold params
    rw [trimEndChar_snoc (by rw [getLast_append_ne b1]; exact getLast_no b2)]
    rw [show Nat.toDigits 10 t1 ++ [','] ++ Nat.toDigits 10 t2 ++ [','] ++ a =
      Nat.toDigits 10 t1 ++ ',' :: (Nat.toDigits 10 t2 ++ ',' :: a) by simp]
    rw [splitOn_append_sep _ d1, splitOn_append_sep _ e1, splitOn_of_not_mem b2]
    simp only [List.map_cons, List.map_nil, d3, e3, EventCmd.trimmed_trim b4]
    have p1 : parseU32 (Nat.toDigits 10 t1) = some t1 := parseU32_showNat h1
    have p2 : parseU32 (Nat.toDigits 10 t2) = some t2 := parseU32_showNat h2
    rw [p1, p2, hv]
    rfl

theorem head_plain {f32 : Str → Option Rat} {s : Str} {t1 t2 : Nat} {v : Rat} (h : Head f32 s t1 t2 v) : '\\' ∉ s := by
  cases h with
  | nothing => simp
  | accel hb _ => simp [hb.2.2.1]
  | times => simp [(dec_ok t1).2.1, (dec_ok t2).2.1]
  | all _ _ hb _ => simp [(dec_ok t1).2.1, (dec_ok t2).2.1, hb.2.2.1]

theorem parse_back {f32 : Str → Option Rat} {s : Str} {t1 t2 : Nat} {v : Rat} (h : Head f32 s t1 t2 v) (hk : HeadOk f32 s)
    {l : List Item} (hl : l ≠ []) (hi : ∀ i ∈ l, i.Ok f32) :
    parse f32 ('(' :: (s ++ itemsText l ++ [')'])) = some ⟨t1, t2, v, l.map (·.tag)⟩ := by
  have ht : trim ('(' :: (s ++ itemsText l ++ [')'])) = '(' :: (s ++ itemsText l ++ [')']) := by
    apply Color.trim_of_edges
    · intro c hc
      rw [List.head?_cons] at hc
      rw [← Option.some.inj hc]
      decide
    · intro c hc
      rw [← List.cons_append, List.getLast?_append, List.getLast?_singleton] at hc
      rw [← Option.some.inj hc]
      decide
  unfold parse
  simp only [ht]
  rw [if_pos ⟨rfl, by rw [← List.cons_append, List.getLast?_append]; rfl⟩]
  simp only [List.drop_succ_cons, List.drop_zero, List.dropLast_concat]
  obtain ⟨i, l, rfl⟩ : ∃ i l', l = i :: l' := by cases l with | nil => exact absurd rfl hl | cons i l' => exact ⟨i, l', rfl⟩
  have hmem : '\\' ∈ s ++ itemsText (i :: l) := List.mem_append_right _ (by
    show '\\' ∈ '\\' :: (i.name ++ i.arg ++ itemsText l)
    exact List.mem_cons_self)
  rw [if_pos hmem]
  obtain ⟨k1, k2⟩ := takeWhile_stop (p := (· != '\\')) (a := s) (b := itemsText (i :: l))
    (fun c hc => by simpa using fun (e : c = '\\') => head_plain h (e ▸ hc))
    (fun c hc => by rw [itemsText_head _ c hc]; decide)
  rw [k1, k2, params_eq h hk, tags_back hi (Nat.le_refl _)]
  rfl

end Verif.Transform
