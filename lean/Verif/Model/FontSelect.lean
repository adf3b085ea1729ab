import Verif.Model.Outcome
import Verif.Model.StrX
/-!
# Which font a text is drawn with — `crates/ass-renderer/src/pipeline/shaping/font_select.rs`

The fonts of the `fontdb` database are what it gives: its faces in order, the face it finds for one family, weight and slant, and the
characters a face has glyphs for (`none` where the file cannot be read or parsed).  `fontdb::Database::query` tries the families of a query
in their order.
-/
namespace Verif.FontSelect
open Verif

/-- `fontdb::Family`, the three kinds used. -/
inductive Family where
  | name (s : Str)
  | sansSerif
  | serif
deriving DecidableEq

/-- `fontdb::Database`. -/
structure Db (Id : Type) where
  faces : List Id
  face : Family → Bool → Bool → Option Id
  glyphs : Id → Option (Char → Bool)

variable {Id : Type}

/-- `fontdb::Database::query`. -/
def query (db : Db Id) (bold italic : Bool) : List Family → Option Id
  | [] => none
  | f :: fs => match db.face f bold italic with
    | some id => some id
    | none => query db bold italic fs

/-- `str::contains`. -/
def has (p s : Str) : Bool := (splitOnceStr p s).isSome

/-- lines 39-44. -/
def japanese (family : Str) : Bool :=
  has "CJK".toList family || has "Noto Sans JP".toList family || has "Hiragino".toList family || has "Yu Gothic".toList family ||
    has "MS Gothic".toList family || has "Meiryo".toList family

/-- lines 48-56. -/
def japaneseFallbacks : List String :=
  ["Hiragino Sans", "Hiragino Kaku Gothic Pro", "Yu Gothic", "MS Gothic", "Meiryo", "Noto Sans CJK JP", "Noto Sans JP"]

/-- The loop of lines 58-77. -/
def tryNames (db : Db Id) (bold italic : Bool) : List String → Option Id
  | [] => none
  | n :: ns => match query db bold italic [.name n.toList] with
    | some id => some id
    | none => tryNames db bold italic ns

/-- lines 80-111. -/
def anyFont (db : Db Id) (bold italic : Bool) : Outcome Id :=
  match query db bold italic [.sansSerif, .serif] with
  | some id => .ok id
  | none => match db.faces with
    | id :: _ => .ok id
    | [] => .err

/-- `find_font`, lines 12-112. -/
def findFont (db : Db Id) (family : Str) (bold italic : Bool) : Outcome Id :=
  match query db bold italic [.name family, .sansSerif] with
  | some id => .ok id
  | none =>
    match (if japanese family then tryNames db bold italic japaneseFallbacks else none) with
    | some id => .ok id
    | none => anyFont db bold italic

/-- lines 116-128, one character. -/
def cjk (c : Char) : Bool :=
  (decide (0x4E00 ≤ c.toNat) && decide (c.toNat ≤ 0x9FFF)) || (decide (0x3400 ≤ c.toNat) && decide (c.toNat ≤ 0x4DBF)) ||
  (decide (0x20000 ≤ c.toNat) && decide (c.toNat ≤ 0x2A6DF)) || (decide (0xAC00 ≤ c.toNat) && decide (c.toNat ≤ 0xD7AF)) ||
  (decide (0x1100 ≤ c.toNat) && decide (c.toNat ≤ 0x11FF)) || (decide (0x3040 ≤ c.toNat) && decide (c.toNat ≤ 0x30FF))

/-- `text_has_cjk_or_hangul`, lines 115-129. -/
def hasCjk (text : Str) : Bool := text.any cjk

/-- The counting loop of `font_support_count`, lines 164-169. -/
def countGlyphs (g : Char → Bool) : Str → Nat → Nat
  | [], n => n
  | c :: t, n => countGlyphs g t (if g c then n + 1 else n)

/-- `font_support_count`, lines 132-171. -/
def support (db : Db Id) (id : Id) (text : Str) : Outcome Nat :=
  match db.glyphs id with
  | none => .err
  | some g => .ok (countGlyphs g text 0)

/-- The curated names, lines 192-230, the lists one after another. -/
def curated : List String :=
  ["Noto Sans CJK SC", "Noto Sans SC", "Source Han Sans CN", "PingFang SC", "Microsoft YaHei", "SimHei", "SimSun",
   "Noto Sans CJK TC", "Noto Sans TC", "Source Han Sans TW", "PingFang TC", "Heiti TC",
   "Noto Sans CJK JP", "Noto Sans JP", "Hiragino Sans", "Hiragino Kaku Gothic Pro", "Yu Gothic", "MS Gothic", "Meiryo",
   "Noto Sans CJK KR", "Noto Sans KR", "Apple SD Gothic Neo", "Malgun Gothic",
   "Source Han Sans", "Noto Sans CJK"]

/-- The loop over the curated names, lines 235-262: a font with all characters ends it (`inl`), otherwise the best one so far is kept
(`inr`). -/
def scanNames (db : Db Id) (bold italic : Bool) (text : Str) (len : Nat) : List String → Option Id → Nat → Outcome (Sum Id (Option Id))
  | [], best, _ => .ok (.inr best)
  | n :: ns, best, most =>
    match query db bold italic [.name n.toList] with
    | none => scanNames db bold italic text len ns best most
    | some id => match support db id text with
      | .ok k =>
        if k = len then .ok (.inl id)
        else if most < k then scanNames db bold italic text len ns (some id) k
        else scanNames db bold italic text len ns best most
      | .err => .err
      | .panic => .panic

/-- The loop over all faces, lines 272-286. -/
def scanFaces [DecidableEq Id] (db : Db Id) (text : Str) (len : Nat) (primary : Id) : List Id → Id → Nat → Outcome Id
  | [], best, _ => .ok best
  | id :: ids, best, most =>
    if id = primary then scanFaces db text len primary ids best most
    else match support db id text with
      | .ok k =>
        if most < k then
          if k = len then .ok id else scanFaces db text len primary ids id k
        else scanFaces db text len primary ids best most
      | .err => .err
      | .panic => .panic

/-- lines 191-267. -/
def fromCurated (db : Db Id) (bold italic : Bool) (text : Str) (len most : Nat) : Outcome (Option Id) :=
  if hasCjk text then
    match scanNames db bold italic text len curated none most with
    | .ok (.inl id) => .ok (some id)
    | .ok (.inr o) => .ok o
    | .err => .err
    | .panic => .panic
  else .ok none

/-- lines 183-288. -/
def improve [DecidableEq Id] (db : Db Id) (bold italic : Bool) (text : Str) (primary : Id) : Outcome Id :=
  match support db primary text with
  | .ok k =>
    if k = max text.length 1 then .ok primary
    else match fromCurated db bold italic text (max text.length 1) k with
      | .ok (some id) => .ok id
      | .ok none => scanFaces db text (max text.length 1) primary db.faces primary k
      | .err => .err
      | .panic => .panic
  | .err => .err
  | .panic => .panic

/-- `find_font_for_text`, lines 174-289. -/
def findFontForText [DecidableEq Id] (db : Db Id) (family : Str) (bold italic : Bool) (text : Str) : Outcome Id :=
  match findFont db family bold italic with
  | .ok primary => improve db bold italic text primary
  | .err => .err
  | .panic => .panic

end Verif.FontSelect
