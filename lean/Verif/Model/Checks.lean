import Verif.Model.Color
import Verif.Model.Utf8
/-!
# Checks of names, colours, sizes and pieces of a source — `crates/ass-core/utils/{fields,spans}.rs`,
`crates/ass-core/utils/errors/{format,resource}.rs`

A `usize` has 64 bits.  The texts of errors are left out.
-/
namespace Verif.Checks
open Verif

/-- `validate_ass_name`, fields.rs lines 46-53. -/
def validName (n : Str) : Bool :=
  !n.isEmpty && !n.contains ',' && !n.contains ':' && !n.contains '{' && !n.contains '}' &&
    n.all (fun c => !Utf8.isControl c || c == '\t')

/-- The hexadecimal part, format.rs lines 86-90; the slice is exact because the first two signs and the last are single bytes and
there are at least three. -/
def colourPart (t : Str) : Str := if Color.endsWithAmp t then (t.drop 2).dropLast else t.drop 2

/-- `validate_color_format`, format.rs lines 77-113. -/
def validColour (s : Str) : Bool :=
  let t := trim s
  if t.isEmpty then false
  else if (stripPrefix ['&', 'H'] t).isSome || (stripPrefix ['&', 'h'] t).isSome then
    if byteLen (colourPart t) ≠ 6 ∧ byteLen (colourPart t) ≠ 8 then false else (colourPart t).all isHexDigit
  else (parseU32 t).isSome

/-- What a limit check says. -/
inductive Limit where
  | ok
  | outOfMemory
  | exceeded (current limit : Nat)
deriving DecidableEq, Repr

/-- `check_memory_limit`, resource.rs lines 82-96. -/
def memoryLimit (current additional limit : Nat) : Limit :=
  if current + additional < 2 ^ 64 then
    if current + additional > limit then .exceeded (current + additional) limit else .ok
  else .outOfMemory

/-- `check_input_size_limit`, resource.rs lines 111-116, and `check_depth_limit`, lines 131-140. -/
def sizeLimit (size limit : Nat) : Limit := if size > limit then .exceeded size limit else .ok

/-- A `&str`: its address and its text. -/
structure Slice where
  addr : Nat
  text : Str

/-- `Spans::validate_span`, spans.rs lines 30-38. -/
def validSpan (source span : Slice) : Bool :=
  decide (span.addr ≥ source.addr) && decide (span.addr + byteLen span.text ≤ source.addr + byteLen source.text)

/-- `span_offset`, lines 42-51. -/
def spanOffset (source span : Slice) : Option Nat := if validSpan source span then some (span.addr - source.addr) else none

/-- The text before the span: `self.source[..offset]`; the outer `none`: outside, the inner one: a panic. -/
def before (source span : Slice) : Option (Option Str) := (spanOffset source span).map (fun o => takeBytes source.text o)

/-- `span_line`, lines 55-58. -/
def spanLine (source span : Slice) : Option (Option Nat) :=
  (before source span).map (fun b => b.map (fun p => (p.filter (· == '\n')).length + 1))

/-- `span_column`, lines 62-67: the text after the last line feed. -/
def spanColumn (source span : Slice) : Option (Option Nat) :=
  (before source span).map (fun b => b.map (fun p => (p.reverse.takeWhile (· != '\n')).length + 1))

end Verif.Checks
