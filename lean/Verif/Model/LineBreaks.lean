import Verif.Model.StrX
import Verif.Model.Override
/-!
# Line breaks of a text — `crates/ass-core/analysis/events/line_breaks.rs` and the counts of
`crates/ass-core/analysis/events/text_analysis/{helpers,parser}.rs`
-/
namespace Verif.LineBreaks
open Verif

/-- `LineBreakType`, line_breaks.rs lines 10-15. -/
inductive Kind where
  | hard | soft
deriving DecidableEq

/-- `TextWithLineBreaks`, line_breaks.rs lines 28-35. -/
structure Broken where
  text : Str
  breaks : List (Nat × Kind)
  spaces : List Nat
deriving DecidableEq

/-- One special sequence with its second character, line_breaks.rs lines 50-84. -/
def special (drawing : Bool) (next : Char) (b : Broken) : Broken :=
  if next = 'N' then (if drawing then b else ⟨b.text ++ ['\n'], b.breaks ++ [(byteLen b.text, .hard)], b.spaces⟩)
  else if next = 'n' then (if drawing then b else ⟨b.text ++ ['\n'], b.breaks ++ [(byteLen b.text, .soft)], b.spaces⟩)
  else if next = 'h' then (if drawing then b else ⟨b.text ++ ['\u00A0'], b.breaks, b.spaces ++ [byteLen b.text]⟩)
  else ⟨b.text ++ ['\\', next], b.breaks, b.spaces⟩

/-- The loop of `from_text`, line_breaks.rs lines 47-92. -/
def scan (drawing : Bool) (b : Broken) : Str → Broken
  | [] => b
  | [c] => ⟨b.text ++ [c], b.breaks, b.spaces⟩
  | c :: d :: s => if c = '\\' then scan drawing (special drawing d b) s else scan drawing ⟨b.text ++ [c], b.breaks, b.spaces⟩ (d :: s)

/-- `TextWithLineBreaks::from_text`, line_breaks.rs lines 40-99. -/
def fromText (text : Str) (drawing : Bool) : Broken := scan drawing ⟨[], [], []⟩ text

/-- `get_break_type_at`, line_breaks.rs lines 103-108. -/
def breakAt (b : Broken) (pos : Nat) : Option Kind := (b.breaks.find? (fun x => x.1 == pos)).map (·.2)

/-- `is_nbsp_at`, line_breaks.rs lines 112-114. -/
def spaceAt (b : Broken) (pos : Nat) : Bool := b.spaces.contains pos

/-- `count_lines`, helpers.rs lines 82-101. -/
def countLines (text : Str) : Nat :=
  if text = [] then 1
  else
    let n := (text.filter (· == '\n')).length
    if n = 0 then 1
    else if text.all (· == '\n') then n + 1
    else max (lines text).length 1

/-- `detect_bidi_text`, helpers.rs lines 104-106. -/
def detectBidi (text : Str) : Bool :=
  text.any (fun c => (0x0590 ≤ c.toNat && c.toNat ≤ 0x05FF) || (0x0600 ≤ c.toNat && c.toNat ≤ 0x06FF) ||
    (0x0750 ≤ c.toNat && c.toNat ≤ 0x077F) || (0x08A0 ≤ c.toNat && c.toNat ≤ 0x08FF))

/-- `detect_complex_unicode`, helpers.rs lines 109-114. -/
def detectComplex (text : Str) : Bool :=
  text.any (fun c => 0x00FF < c.toNat || c.toNat ≤ 0x001F || (0x007F ≤ c.toNat && c.toNat ≤ 0x009F) ||
    (0x200C ≤ c.toNat && c.toNat ≤ 0x200D) || (0x2060 ≤ c.toNat && c.toNat ≤ 0x206F))

/-- The figures of `TextAnalysis`, parser.rs lines 126-139. -/
structure Figures where
  chars : Nat
  lines : Nat
  bidi : Bool
  complex : Bool
deriving DecidableEq

/-- What `analyze` says about the plain text, parser.rs lines 126-129. -/
def figures (plain : Str) : Figures := ⟨plain.length, countLines plain, detectBidi plain, detectComplex plain⟩

end Verif.LineBreaks
