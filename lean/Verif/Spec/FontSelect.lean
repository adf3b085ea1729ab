import Verif.Model.FontSelect
/-!
# Specification: choosing a font

Of the model only the data types are used.
-/
namespace Verif.Spec.FontSelect
open Verif.FontSelect (Db Family)

variable {Id : Type}

/-- The number of characters of the text a readable face has glyphs for. -/
def Shows (db : Db Id) (id : Id) (text : List Char) (n : Nat) : Prop := ∃ g, db.glyphs id = some g ∧ n = (text.filter g).length

/-- The face has glyphs for the whole text. -/
def ShowsAll (db : Db Id) (id : Id) (text : List Char) : Prop := ∃ g, db.glyphs id = some g ∧ ∀ c ∈ text, g c = true

/-- Every font file can be read. -/
def Readable (db : Db Id) : Prop := ∀ id ∈ db.faces, ∃ g, db.glyphs id = some g

/-- The faces found for families are faces of the database. -/
def Sound (db : Db Id) : Prop := ∀ f b i id, db.face f b i = some id → id ∈ db.faces

/-- The character belongs to one of the scripts with curated fonts: ideographs (with extensions A and B), Hangul (syllables and letters),
Hiragana, Katakana. -/
def EastAsian (c : Char) : Prop :=
  ∃ r ∈ [(0x4E00, 0x9FFF), (0x3400, 0x4DBF), (0x20000, 0x2A6DF), (0xAC00, 0xD7AF), (0x1100, 0x11FF), (0x3040, 0x30FF)],
    r.1 ≤ c.toNat ∧ c.toNat ≤ r.2

/-- `x` is what the first of the families with a face gives. -/
inductive FirstOf (db : Db Id) (b i : Bool) : List Family → Option Id → Prop
  | nil : FirstOf db b i [] none
  | here {f fs id} : db.face f b i = some id → FirstOf db b i (f :: fs) (some id)
  | later {f fs o} : db.face f b i = none → FirstOf db b i fs o → FirstOf db b i (f :: fs) o

/-- The family is one for which Japanese fonts are tried. -/
def Japanese (family : List Char) : Prop :=
  ∃ w ∈ ["CJK", "Noto Sans JP", "Hiragino", "Yu Gothic", "MS Gothic", "Meiryo"], ∃ a b, family = a ++ w.toList ++ b

/-- The families tried for a requested one, in order. -/
def wanted (family : List Char) (jp : Bool) : List Family :=
  [.name family, .sansSerif] ++
    (if jp then ["Hiragino Sans", "Hiragino Kaku Gothic Pro", "Yu Gothic", "MS Gothic", "Meiryo", "Noto Sans CJK JP", "Noto Sans JP"].map
      (fun n => Family.name n.toList) else []) ++ [.serif]

/-- The requested font, or the first one where the family stands for none. -/
def Primary (db : Db Id) (family : List Char) (bold italic : Bool) (p : Id) : Prop :=
  ∃ jp, (jp = true ↔ Japanese family) ∧ (FirstOf db bold italic (wanted family jp) (some p) ∨
    (FirstOf db bold italic (wanted family jp) none ∧ db.faces.head? = some p))

end Verif.Spec.FontSelect
