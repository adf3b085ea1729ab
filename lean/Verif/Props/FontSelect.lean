import Verif.Spec.FontSelect
import Verif.Lemmas.EventCmd
/-! Property C126: which font a text is drawn with. -/
namespace Verif.Props
open Verif
open Verif.FontSelect
open Verif.Spec.FontSelect
open Verif.Spec.EventCmd (Lacks)

section
variable {Id : Type}

theorem countGlyphs_eq (g : Char → Bool) : ∀ (t : Str) (n : Nat), countGlyphs g t n = n + (t.filter g).length
  | [], n => by simp [countGlyphs]
  | c :: t, n => by
    rw [countGlyphs, countGlyphs_eq g t, List.filter_cons]
    cases g c
    · simp
    · simp; omega

theorem support_ok {db : Db Id} {id : Id} {t : Str} {n : Nat} : support db id t = .ok n ↔ Shows db id t n := by
  unfold support Shows
  cases db.glyphs id with
  | none => simp
  | some g =>
    simp only [Outcome.ok.injEq, Option.some.injEq, countGlyphs_eq]
    constructor
    · rintro rfl; exact ⟨g, rfl, by omega⟩
    · rintro ⟨_, rfl, rfl⟩; omega

theorem shows_exists {db : Db Id} (h : Readable db) {id : Id} (hm : id ∈ db.faces) (t : Str) : ∃ n, support db id t = .ok n := by
  obtain ⟨g, hg⟩ := h id hm
  exact ⟨_, support_ok.2 ⟨g, hg, rfl⟩⟩

theorem shows_le {db : Db Id} {id : Id} {t : Str} {n : Nat} (h : Shows db id t n) : n ≤ t.length := by
  obtain ⟨g, _, rfl⟩ := h
  exact List.length_filter_le _ _

theorem shows_unique {db : Db Id} {id : Id} {t : Str} {n m : Nat} (h : Shows db id t n) (h' : Shows db id t m) : n = m := by
  obtain ⟨g, e, rfl⟩ := h
  obtain ⟨g', e', rfl⟩ := h'
  rw [e] at e'; cases e'; rfl

theorem query_first (db : Db Id) (b i : Bool) : ∀ fs, FirstOf db b i fs (query db b i fs)
  | [] => .nil
  | f :: fs => by
    rw [query]
    cases h : db.face f b i with
    | some id => exact .here h
    | none => exact .later h (query_first db b i fs)

theorem query_append (db : Db Id) (b i : Bool) : ∀ fs gs, query db b i (fs ++ gs) = match query db b i fs with
    | some id => some id
    | none => query db b i gs
  | [], gs => rfl
  | f :: fs, gs => by
    rw [List.cons_append, query, query]
    cases db.face f b i with
    | some id => rfl
    | none => exact query_append db b i fs gs

theorem first_unique {db : Db Id} {b i : Bool} {fs : List Family} {o o' : Option Id} (h : FirstOf db b i fs o) (h' : FirstOf db b i fs o') :
    o = o' := by
  induction h with
  | nil => cases h'; rfl
  | here h => cases h' with
    | here h1 => rw [h] at h1; exact h1
    | later h1 _ => rw [h] at h1; simp at h1
  | later h _ ih => cases h' with
    | here h1 => rw [h] at h1; simp at h1
    | later _ h2 => exact ih h2

theorem tryNames_eq (db : Db Id) (b i : Bool) : ∀ ns : List String, tryNames db b i ns = query db b i (ns.map (fun n => Family.name n.toList))
  | [] => rfl
  | n :: ns => by
    rw [tryNames, List.map_cons, query, query, query, tryNames_eq db b i ns]
    cases db.face (.name n.toList) b i <;> rfl

theorem has_iff {p s : Str} : has p s = true ↔ ∃ a b, s = a ++ p ++ b := by
  unfold has
  cases h : splitOnceStr p s with
  | none =>
    have := splitOnceStr_none.1 h
    simp only [Option.isSome_none, Bool.false_eq_true, false_iff]
    rintro ⟨a, b, e⟩
    exact this a b e
  | some ab => simpa using ⟨ab.1, ab.2, by simpa using (splitOnceStr_some h).1⟩

theorem japanese_iff {f : Str} : japanese f = true ↔ Japanese f := by
  unfold japanese Japanese
  simp only [Bool.or_eq_true, has_iff, List.mem_cons, List.not_mem_nil, or_false, exists_eq_or_imp, exists_eq_left, or_assoc]

/-- The font a family stands for. -/
theorem findFont_eq (db : Db Id) (family : Str) (b i : Bool) :
    findFont db family b i = match query db b i (wanted family (japanese family)) with
      | some id => .ok id
      | none => match db.faces with
        | id :: _ => .ok id
        | [] => .err := by
  unfold findFont wanted
  rw [List.append_assoc, query_append]
  cases h : query db b i [.name family, .sansSerif] with
  | some id => rfl
  | none =>
    dsimp only
    have hs : db.face .sansSerif b i = none := by
      rw [query, query, query] at h
      cases h1 : db.face (.name family) b i with
      | some x => rw [h1] at h; simp at h
      | none =>
        rw [h1] at h
        cases h2 : db.face .sansSerif b i with
        | some x => rw [h2] at h; simp at h
        | none => rfl
    have ha : anyFont db b i = match query db b i [Family.serif] with
        | some id => .ok id
        | none => match db.faces with
          | id :: _ => .ok id
          | [] => .err := by
      unfold anyFont
      rw [query, hs]
      rfl
    rw [query_append]
    cases hj : japanese family with
    | false =>
      rw [if_neg (by decide), if_neg (by decide), query]
      dsimp only
      rw [ha]
    | true =>
      rw [if_pos rfl, if_pos rfl, tryNames_eq]
      show (match query db b i (japaneseFallbacks.map (fun n => Family.name n.toList)) with
        | some id => Outcome.ok id
        | none => anyFont db b i) = _
      rw [show japaneseFallbacks = ["Hiragino Sans", "Hiragino Kaku Gothic Pro", "Yu Gothic", "MS Gothic", "Meiryo", "Noto Sans CJK JP",
        "Noto Sans JP"] from rfl]
      cases query db b i (["Hiragino Sans", "Hiragino Kaku Gothic Pro", "Yu Gothic", "MS Gothic", "Meiryo", "Noto Sans CJK JP",
        "Noto Sans JP"].map (fun n => Family.name n.toList)) with
      | some id => rfl
      | none => exact ha

theorem cjk_iff {c : Char} : cjk c = true ↔ EastAsian c := by
  unfold cjk EastAsian
  simp only [Bool.or_eq_true, Bool.and_eq_true, decide_eq_true_eq, List.mem_cons, List.not_mem_nil, or_false, exists_eq_or_imp,
    exists_eq_left, or_assoc]

theorem hasCjk_iff {t : Str} : hasCjk t = true ↔ ∃ c ∈ t, EastAsian c := by
  unfold hasCjk
  rw [List.any_eq_true]
  simp only [cjk_iff]

theorem query_one (db : Db Id) (b i : Bool) (f : Family) : query db b i [f] = db.face f b i := by
  rw [query, query]
  cases db.face f b i <;> rfl

theorem scanNames_best (db : Db Id) (hr : Readable db) (hsd : Sound db) (b i : Bool) (t : Str) (len : Nat) : ∀ (ns : List String) (best : Option Id) (most : Nat),
    ∃ o, scanNames db b i t len ns best most = .ok o ∧
      (∀ id, o = .inl id → Shows db id t len ∧ ∃ n ∈ ns, db.face (.name n.toList) b i = some id) ∧
      (∀ o', o = .inr o' → ∃ m, ((o' = best ∧ m = most) ∨
          ∃ id, o' = some id ∧ Shows db id t m ∧ most < m ∧ ∃ n ∈ ns, db.face (.name n.toList) b i = some id) ∧
        ∀ n ∈ ns, ∀ id k, db.face (.name n.toList) b i = some id → Shows db id t k → k ≤ m)
  | [], best, most => ⟨_, rfl, by simp, by rintro o' ⟨⟩; exact ⟨most, Or.inl ⟨rfl, rfl⟩, by simp⟩⟩
  | n :: ns, best, most => by
    rw [scanNames, query_one]
    cases hf : db.face (.name n.toList) b i with
    | none =>
      dsimp only
      obtain ⟨o, h1, h2, h3⟩ := scanNames_best db hr hsd b i t len ns best most
      refine ⟨o, h1, ?_, ?_⟩
      · intro id e
        obtain ⟨g1, x, hx, g2⟩ := h2 id e
        exact ⟨g1, x, by simp [hx], g2⟩
      · intro o' e
        obtain ⟨m, g1, g2⟩ := h3 o' e
        refine ⟨m, ?_, ?_⟩
        · rcases g1 with g1 | ⟨id, g1, g3, g4, x, hx, g5⟩
          · exact Or.inl g1
          · exact Or.inr ⟨id, g1, g3, g4, x, by simp [hx], g5⟩
        · intro x hx id k hid hk
          rcases List.mem_cons.1 hx with rfl | hx
          · rw [hf] at hid; simp at hid
          · exact g2 x hx id k hid hk
    | some f =>
      dsimp only
      obtain ⟨k, hk⟩ := shows_exists hr (hsd _ _ _ _ hf) t
      rw [hk]
      dsimp only
      have hs := support_ok.1 hk
      by_cases hl : k = len
      · rw [if_pos hl]
        subst hl
        refine ⟨_, rfl, ?_, by simp⟩
        rintro id ⟨⟩
        exact ⟨hs, n, by simp, hf⟩
      · rw [if_neg hl]
        by_cases hm : most < k
        · rw [if_pos hm]
          obtain ⟨o, h1, h2, h3⟩ := scanNames_best db hr hsd b i t len ns (some f) k
          refine ⟨o, h1, ?_, ?_⟩
          · intro id e
            obtain ⟨g1, x, hx, g2⟩ := h2 id e
            exact ⟨g1, x, by simp [hx], g2⟩
          · intro o' e
            obtain ⟨m, g1, g2⟩ := h3 o' e
            have hkm : k ≤ m := by rcases g1 with ⟨_, g1⟩ | ⟨_, _, _, g1, _⟩ <;> omega
            refine ⟨m, ?_, ?_⟩
            · right
              rcases g1 with ⟨g1, rfl⟩ | ⟨id, g1, g3, g4, x, hx, g5⟩
              · exact ⟨f, g1, hs, hm, n, by simp, hf⟩
              · exact ⟨id, g1, g3, by omega, x, by simp [hx], g5⟩
            · intro x hx id j hid hj
              rcases List.mem_cons.1 hx with rfl | hx
              · rw [hf] at hid; cases hid
                rw [shows_unique hj hs]; exact hkm
              · exact g2 x hx id j hid hj
        · rw [if_neg hm]
          obtain ⟨o, h1, h2, h3⟩ := scanNames_best db hr hsd b i t len ns best most
          refine ⟨o, h1, ?_, ?_⟩
          · intro id e
            obtain ⟨g1, x, hx, g2⟩ := h2 id e
            exact ⟨g1, x, by simp [hx], g2⟩
          · intro o' e
            obtain ⟨m, g1, g2⟩ := h3 o' e
            have hkm : most ≤ m := by rcases g1 with ⟨_, g1⟩ | ⟨_, _, _, g1, _⟩ <;> omega
            refine ⟨m, ?_, ?_⟩
            · rcases g1 with g1 | ⟨id, g1, g3, g4, x, hx, g5⟩
              · exact Or.inl g1
              · exact Or.inr ⟨id, g1, g3, g4, x, by simp [hx], g5⟩
            · intro x hx id j hid hj
              rcases List.mem_cons.1 hx with rfl | hx
              · rw [hf] at hid; cases hid
                rw [shows_unique hj hs]; omega
              · exact g2 x hx id j hid hj

theorem scanFaces_best [DecidableEq Id] (db : Db Id) (hr : Readable db) (t : Str) (len : Nat) (hlen : t.length ≤ len) (primary : Id) (k0 : Nat)
    (h0 : Shows db primary t k0) : ∀ (ids : List Id) (best : Id) (most : Nat), (∀ x ∈ ids, x ∈ db.faces) →
      Shows db best t most → k0 ≤ most →
    ∃ r n, scanFaces db t len primary ids best most = .ok r ∧ (r = best ∨ r ∈ ids) ∧ Shows db r t n ∧ most ≤ n ∧
      ∀ id ∈ ids, ∀ k, Shows db id t k → k ≤ n
  | [], best, most, _, hb, _ => ⟨best, most, rfl, Or.inl rfl, hb, Nat.le_refl _, by simp⟩
  | id :: ids, best, most, hin, hb, h0m => by
    have hin' : ∀ x ∈ ids, x ∈ db.faces := fun x hx => hin x (by simp [hx])
    rw [scanFaces]
    have keep : (∀ k, Shows db id t k → k ≤ most) → ∃ r n, scanFaces db t len primary ids best most = .ok r ∧
        (r = best ∨ r ∈ id :: ids) ∧ Shows db r t n ∧ most ≤ n ∧ ∀ x ∈ id :: ids, ∀ k, Shows db x t k → k ≤ n := by
      intro hk
      obtain ⟨r, n, h1, h2, h3, h4, h5⟩ := scanFaces_best db hr t len hlen primary k0 h0 ids best most hin' hb h0m
      refine ⟨r, n, h1, ?_, h3, h4, ?_⟩
      · rcases h2 with h2 | h2
        · exact Or.inl h2
        · exact Or.inr (by simp [h2])
      · intro x hx k hxk
        rcases List.mem_cons.1 hx with rfl | hx
        · exact Nat.le_trans (hk k hxk) h4
        · exact h5 x hx k hxk
    by_cases hp : id = primary
    · rw [if_pos hp]
      exact keep (fun k hk => by subst hp; rw [shows_unique hk h0]; exact h0m)
    · rw [if_neg hp]
      obtain ⟨k, hk⟩ := shows_exists hr (hin id (by simp)) t
      rw [hk]
      dsimp only
      have hs := support_ok.1 hk
      by_cases hm : most < k
      · rw [if_pos hm]
        by_cases hl : k = len
        · rw [if_pos hl]
          refine ⟨id, k, rfl, Or.inr (by simp), hs, by omega, ?_⟩
          intro x _ j hj
          have := shows_le hj
          omega
        · rw [if_neg hl]
          obtain ⟨r, n, h1, h2, h3, h4, h5⟩ := scanFaces_best db hr t len hlen primary k0 h0 ids id k hin' hs (by omega)
          refine ⟨r, n, h1, ?_, h3, by omega, ?_⟩
          · rcases h2 with rfl | h2
            · exact Or.inr (by simp)
            · exact Or.inr (by simp [h2])
          · intro x hx j hj
            rcases List.mem_cons.1 hx with rfl | hx
            · rw [shows_unique hj hs]; exact h4
            · exact h5 x hx j hj
      · rw [if_neg hm]
        exact keep (fun j hj => by rw [shows_unique hj hs]; omega)

/-- **C126.** The requested font: if the first face found for the family — by its name, as the generic sans-serif, under the Japanese names
for a Japanese family, as the generic serif — has all characters of the text, the text is drawn with it, whatever other fonts there are. -/
theorem C126_requested [DecidableEq Id] (db : Db Id) (family text : Str) (bold italic jp : Bool) (p : Id) (hj : jp = true ↔ Japanese family)
    (hp : FirstOf db bold italic (wanted family jp) (some p)) (ht : text ≠ []) (hs : ShowsAll db p text) :
    findFontForText db family bold italic text = .ok p := by
  have hjp : japanese family = jp := by
    have := japanese_iff (f := family)
    cases jp
    · cases h : japanese family
      · rfl
      · exact absurd (hj.2 (this.1 h)) (by decide)
    · exact this.2 (hj.1 rfl)
  unfold findFontForText
  rw [findFont_eq, hjp, ← first_unique hp (query_first db bold italic _)]
  dsimp only
  unfold improve
  obtain ⟨g, hg, hall⟩ := hs
  have : support db p text = .ok text.length := support_ok.2 ⟨g, hg, by rw [List.filter_eq_self.2 hall]⟩
  rw [this]
  dsimp only
  have hl : 0 < text.length := List.length_pos_iff.2 ht
  rw [if_pos (by omega)]

theorem findFont_primary (db : Db Id) (family : Str) (b i : Bool) {p : Id} (h : findFont db family b i = .ok p) : Primary db family b i p := by
  refine ⟨japanese family, japanese_iff, ?_⟩
  have hq := query_first db b i (wanted family (japanese family))
  rw [findFont_eq] at h
  cases hc : query db b i (wanted family (japanese family)) with
  | some id => rw [hc] at h hq; cases h; exact Or.inl hq
  | none =>
    rw [hc] at h hq
    right
    refine ⟨hq, ?_⟩
    dsimp only at h
    cases hfs : db.faces with
    | nil => rw [hfs] at h; simp at h
    | cons a l => rw [hfs] at h; simpa using h

theorem findFont_mem (db : Db Id) (hs : Sound db) (family : Str) (b i : Bool) {p : Id} (h : findFont db family b i = .ok p) : p ∈ db.faces := by
  obtain ⟨jp, _, h | ⟨_, h⟩⟩ := findFont_primary db family b i h
  · generalize wanted family jp = fs at h
    generalize ho : some p = o at h
    induction h with
    | nil => cases ho
    | here h => cases ho; exact hs _ _ _ _ h
    | later _ _ ih => exact ih ho
  · exact List.mem_of_mem_head? h

/-- **C126, partial.** If every font can be read: as soon as there is a font, a text gets one of the database; it shows at least as many
of its characters as the requested one; as many as any of the curated fonts, if it has East Asian characters; as many as any font of the
database, if it has none.

Missing: the best font of the database for texts with East Asian characters, and fonts that cannot be read (where it fails, see below). -/
theorem C126_coverage_partial [DecidableEq Id] (db : Db Id) (family text : Str) (bold italic : Bool) (hr : Readable db) (hs : Sound db)
    (hf : db.faces ≠ []) :
    ∃ id p k n, findFontForText db family bold italic text = .ok id ∧ id ∈ db.faces ∧ Primary db family bold italic p ∧
      Shows db p text k ∧ Shows db id text n ∧ k ≤ n ∧
      ((∃ c ∈ text, EastAsian c) → ∀ name ∈ curated, ∀ f m, db.face (.name name.toList) bold italic = some f → Shows db f text m → m ≤ n) ∧
      ((¬ ∃ c ∈ text, EastAsian c) → ∀ f ∈ db.faces, ∀ m, Shows db f text m → m ≤ n) := by
  have hex : ∃ p, findFont db family bold italic = .ok p := by
    rw [findFont_eq]
    cases query db bold italic (wanted family (japanese family)) with
    | some id => exact ⟨id, rfl⟩
    | none =>
      cases hfs : db.faces with
      | nil => exact absurd hfs hf
      | cons a l => exact ⟨a, rfl⟩
  obtain ⟨p, hp⟩ := hex
  have hpm := findFont_mem db hs family bold italic hp
  obtain ⟨k, hk⟩ := shows_exists hr hpm text
  have hsk := support_ok.1 hk
  have hpr := findFont_primary db family bold italic hp
  unfold findFontForText
  rw [hp]
  dsimp only
  unfold improve
  rw [hk]
  dsimp only
  have hmax : ∀ m f, Shows db f text m → m ≤ max text.length 1 := fun m f h => by have := shows_le h; omega
  by_cases hl : k = max text.length 1
  · rw [if_pos hl]
    refine ⟨p, p, k, k, rfl, hpm, hpr, hsk, hsk, Nat.le_refl _, ?_, ?_⟩
    · intro _ _ _ f m _ h; rw [hl]; exact hmax m f h
    · intro _ f _ m h; rw [hl]; exact hmax m f h
  · rw [if_neg hl]
    unfold fromCurated
    obtain ⟨r, n, s1, s2, s3, s4, s5⟩ := scanFaces_best db hr text (max text.length 1) (by omega) p k hsk db.faces p k (fun _ h => h) hsk (Nat.le_refl _)
    have hrm : r ∈ db.faces := by rcases s2 with rfl | s2; exact hpm; exact s2
    by_cases hc : hasCjk text = true
    · rw [if_pos hc]
      obtain ⟨o, h1, h2, h3⟩ := scanNames_best db hr hs bold italic text (max text.length 1) curated none k
      rw [h1]
      cases o with
      | inl id =>
        obtain ⟨g1, x, hx, g2⟩ := h2 id rfl
        refine ⟨id, p, k, _, rfl, hs _ _ _ _ g2, hpr, hsk, g1, hmax k p hsk, ?_, ?_⟩
        · intro _ _ _ f m _ h; exact hmax m f h
        · intro hn; exact absurd (hasCjk_iff.1 hc) hn
      | inr o =>
        dsimp only
        obtain ⟨m, g1, g2⟩ := h3 o rfl
        rcases g1 with ⟨rfl, rfl⟩ | ⟨id, rfl, g3, g4, x, hx, g5⟩
        · dsimp only
          refine ⟨r, p, m, n, s1, hrm, hpr, hsk, s3, s4, ?_, ?_⟩
          · intro _ name hn f j hfj hj
            exact Nat.le_trans (g2 name hn f j hfj hj) s4
          · intro hn; exact absurd (hasCjk_iff.1 hc) hn
        · dsimp only
          refine ⟨id, p, k, m, rfl, hs _ _ _ _ g5, hpr, hsk, g3, by omega, ?_, ?_⟩
          · intro _ name hn f j hfj hj
            exact g2 name hn f j hfj hj
          · intro hn; exact absurd (hasCjk_iff.1 hc) hn
    · rw [if_neg hc]
      dsimp only
      refine ⟨r, p, k, n, s1, hrm, hpr, hsk, s3, s4, ?_, ?_⟩
      · intro hn; exact absurd (hasCjk_iff.2 hn) hc
      · intro _ f hfm m hm; exact s5 f hfm m hm

/-- **C126.** Without any font there is an error. -/
theorem C126_none [DecidableEq Id] (db : Db Id) (family text : Str) (bold italic : Bool) (hs : Sound db) (hf : db.faces = []) :
    findFontForText db family bold italic text = .err := by
  have hq : ∀ fs, query db bold italic fs = none := by
    intro fs
    induction fs with
    | nil => rfl
    | cons f fs ih =>
      rw [query]
      cases h : db.face f bold italic with
      | some id => have := hs _ _ _ _ h; rw [hf] at this; simp at this
      | none => exact ih
  unfold findFontForText
  rw [findFont_eq, hq, hf]

end

/-- The fonts of the example by name. -/
def fontNamed (faces : List Nat) (n : Str) : Option Nat :=
  if n = "Arial".toList then some 0 else if n = "SimSun".toList ∧ 1 ∈ faces then some 1
  else if n = "Noto Sans JP".toList ∧ 2 ∈ faces then some 2 else none

/-- The example: font 0 is the sans-serif with Latin letters, 1 is `SimSun` with one ideograph more, 2 a font with everything, 3 cannot be
read. -/
def fonts (faces : List Nat) : Db Nat where
  faces := faces
  face f _ _ := match f with
    | .sansSerif => some 0
    | .name n => fontNamed faces n
    | .serif => none
  glyphs id := if id = 0 then some (fun c => decide (c.toNat < 128)) else if id = 1 then some (fun c => decide (c.toNat < 0x4E01))
    else if id = 2 then some (fun _ => true) else none

/-- Without the unreadable font it meets the conditions of `C126_coverage_partial`. -/
example : Sound (fonts [0, 1, 2]) ∧ Readable (fonts [0, 1, 2]) := by
  refine ⟨?_, ?_⟩
  rotate_left
  · intro id h
    have h : id ∈ [0, 1, 2] := h
    simp only [List.mem_cons, List.not_mem_nil, or_false] at h
    rcases h with rfl | rfl | rfl <;> exact ⟨_, rfl⟩
  intro f b i id h
  cases f with
  | sansSerif => cases h; decide
  | serif => cases h
  | name n =>
    have h : fontNamed [0, 1, 2] n = some id := h
    unfold fontNamed at h
    split at h
    · cases h; decide
    · split at h
      · cases h; decide
      · split at h
        · cases h; decide
        · cases h

example : findFontForText (fonts [0, 1, 2]) "Arial".toList false false "Hello".toList = .ok 0 := by decide +kernel
example : findFontForText (fonts [0, 1, 2]) "Arial".toList false false "é☃".toList = .ok 1 := by decide +kernel

/-- **C126 fails** for East Asian texts: a curated font with one of the characters is taken, although another font of the database has all
of them. -/
theorem C126_curated_violated : ∃ (db : Db Nat) (text : Str), findFontForText db "Arial".toList false false text = .ok 1 ∧
    Shows db 1 text 1 ∧ 5 ∈ db.faces ∧ Shows db 5 text 2 ∧ text.length = 2 := by
  refine ⟨{ faces := [0, 1, 5], face := (fonts [0, 1]).face, glyphs := fun id => if id = 5 then some (fun _ => true) else (fonts []).glyphs id },
    [Char.ofNat 0x4E00, Char.ofNat 0x4E01], by decide +kernel, ⟨_, rfl, by decide +kernel⟩, by decide, ⟨_, rfl, by decide +kernel⟩, rfl⟩

/-- **C126 fails** where one font of the database cannot be read: a text with a character the requested font lacks gets no font at all. -/
theorem C126_unreadable_violated : ∃ db : Db Nat, ShowsAll db 0 "Hell".toList ∧ Shows db 0 "Hell☃".toList 4 ∧ 3 ∈ db.faces ∧ 0 ∈ db.faces ∧
    findFontForText db "Arial".toList false false "Hell☃".toList = .err :=
  ⟨fonts [0, 3], ⟨_, rfl, by decide⟩, ⟨_, rfl, by decide +kernel⟩, by decide, by decide, by decide +kernel⟩

/-- **C126 fails** for the empty text: the requested font is not enough, and all fonts are read. -/
theorem C126_empty_violated : ∃ db : Db Nat, ShowsAll db 0 [] ∧ Primary db "Arial".toList false false 0 ∧
    findFontForText db "Arial".toList false false [] = .err :=
  ⟨fonts [0, 3], ⟨_, rfl, by simp⟩, findFont_primary _ _ _ _ (by decide +kernel), by decide +kernel⟩

/-- **C126 fails** for a missing Japanese font: where there is a sans-serif, the Japanese names are not tried. -/
theorem C126_japanese_violated : ∃ db : Db Nat, Japanese "Meiryo".toList ∧ db.face (.name "Meiryo".toList) false false = none ∧
    db.face (.name "Noto Sans JP".toList) false false = some 2 ∧ ShowsAll db 2 "Hello".toList ∧
    findFontForText db "Meiryo".toList false false "Hello".toList = .ok 0 :=
  ⟨fonts [0, 2], ⟨"Meiryo", by decide, [], [], by decide⟩, by decide +kernel, by decide +kernel, ⟨_, rfl, by simp⟩, by decide +kernel⟩

end Verif.Props
