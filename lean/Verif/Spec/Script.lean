import Verif.Model.Parser
import Verif.Spec.EventCmd
import Verif.Spec.InfoCmd
/-!
# What a script says

A source is a list of lines.  A line whose first visible sign is `[` opens a section; the lines up to the next such line
are its body.  What a body says is given line by line.
-/
namespace Verif.Spec.Script
open Verif.Ast
open Verif.Spec.EventCmd (White csv)
open Verif.Spec.InfoCmd (Stripped)

abbrev Line := List Char

/-- Bytes of a text. -/
def size (s : List Char) : Nat := (s.map Char.utf8Size).sum

/-- The source of some lines. -/
def unlines : List Line → List Char
  | [] => []
  | [l] => l
  | l :: m :: ls => l ++ '\n' :: unlines (m :: ls)

/-- The first visible sign of the line is `[`. -/
def Opens (l : Line) : Prop := ∃ w r, l = w ++ '[' :: r ∧ ∀ c ∈ w, White c

/-- The line is a section header; `raw` stands between the brackets. -/
def Header (l : Line) (raw : List Char) : Prop :=
  ∃ w r, l = w ++ '[' :: raw ++ ']' :: r ∧ (∀ c ∈ w, White c) ∧ ']' ∉ raw

/-- A section of a source: what stands between the brackets, the offset of its first line, its lines. -/
structure Seg where
  raw : List Char
  at_ : Nat
  body : List Line

/-- The bytes of lines with their ends. -/
def sizes : List Line → Nat
  | [] => 0
  | l :: ls => size l + 1 + sizes ls

/-- Lines, the first at offset `o`, that fall into sections. -/
inductive Segments : Nat → List Line → List Seg → Prop
  | nil (o : Nat) : Segments o [] []
  | cons {o : Nat} {h : Line} {raw : List Char} {body rest : List Line} {segs : List Seg} :
      Header h raw → (∀ l ∈ body, ¬ Opens l) → Segments (o + size h + 1 + sizes body) rest segs →
      Segments o (h :: (body ++ rest)) (⟨raw, o + size h + 1, body⟩ :: segs)

/-- The source (after a byte order mark) falls into these sections; lines before the first header are in none. -/
def Document (src : List Char) (segs : List Seg) : Prop :=
  ∃ (bom junk rest : List _) (lines : List Line), src = bom ++ rest ∧
    (bom = [Char.ofNat 0xFEFF] ∨ (bom = [] ∧ rest.head? ≠ some (Char.ofNat 0xFEFF))) ∧
    rest = unlines (junk ++ lines) ∧ (∀ l ∈ junk ++ lines, '\n' ∉ l) ∧ (∀ l ∈ junk, ¬ Opens l) ∧
    Segments (size bom + sizes junk) lines segs

/-- A blank of the kind that may precede a comment. -/
def Space (c : Char) : Prop := c = ' ' ∨ c = '\t' ∨ c = '\r'

/-- A blank line or a comment. -/
def Silent (l : Line) : Prop :=
  (∀ c ∈ l, White c) ∨ ∃ w c r, l = w ++ c :: r ∧ (∀ x ∈ w, Space x) ∧ (c = ';' ∨ c = '#')

/-- The line says `x`. -/
def Says (l : Line) (x : List Char) : Prop := ¬ Silent l ∧ Stripped l x

/-- What a script info section says: the fields. -/
inductive InfoOf : List Line → List (List Char × List Char) → Prop
  | nil : InfoOf [] []
  | silent {l ls fs} : Silent l → InfoOf ls fs → InfoOf (l :: ls) fs
  | field {l ls fs k v k' v'} : Says l (k ++ ':' :: v) → ':' ∉ k → Stripped k k' → Stripped v v' → InfoOf ls fs →
      InfoOf (l :: ls) ((k', v') :: fs)
  | other {l ls fs x} : Says l x → ':' ∉ x → InfoOf ls fs → InfoOf (l :: ls) fs

/-- The names of a format line. -/
def Names (d : List Char) (names : List (List Char)) : Prop :=
  ∃ parts : List (List Char), parts ≠ [] ∧ d = csv parts ∧ (∀ p ∈ parts, ',' ∉ p) ∧ parts.length = names.length ∧
    ∀ q ∈ parts.zip names, Stripped q.1 q.2

/-- The bytes `a` to `b` of the source are the line at offset `o` without the blanks before it. -/
def Spans (o : Nat) (l : Line) (a b : Nat) : Prop :=
  ∃ w x, l = w ++ x ∧ (∀ c ∈ w, Space c) ∧ (∀ c, x.head? = some c → ¬ Space c) ∧ a = o + size w ∧ b = o + size l

/-- The bytes `a` to `b` of the source are a whole line `x`, without the blanks before it. -/
def LineAt (src : List Char) (a b : Nat) (x : List Char) : Prop :=
  ∃ pre w post, src = pre ++ w ++ x ++ post ∧ a = size (pre ++ w) ∧ b = size (pre ++ w ++ x) ∧
    pre.getLast? = some '\n' ∧ (∀ c ∈ w, Space c) ∧ (∀ c, x.head? = some c → ¬ Space c) ∧ '\n' ∉ x ∧
    (post = [] ∨ post.head? = some '\n')

/-- What an events section says, its first line at offset `o`, reading by a field list (`none`: the usual one) that
format lines change.  The events are given with their places. -/
inductive EventsOf : Option (List (List Char)) → Nat → List Line → List (Event × Nat × Nat) →
    Option (List (List Char)) → Prop
  | nil {f o} : EventsOf f o [] [] f
  | silent {f o l ls es f'} : Silent l → EventsOf f (o + size l + 1) ls es f' → EventsOf f o (l :: ls) es f'
  | format {f o l d names ls es f'} : Says l ("Format:".toList ++ d) → Names d names →
      EventsOf (some names) (o + size l + 1) ls es f' → EventsOf f o (l :: ls) es f'
  | event {f o l x e a b ls es f'} : Says l x → parseEvent x (f.getD []) = some e → Spans o l a b →
      EventsOf f (o + size l + 1) ls es f' → EventsOf f o (l :: ls) ((e, a, b) :: es) f'
  | other {f o l x ls es f'} : Says l x → (∀ d, x ≠ "Format:".toList ++ d) → parseEvent x (f.getD []) = none →
      EventsOf f (o + size l + 1) ls es f' → EventsOf f o (l :: ls) es f'

/-- The same for a styles section. -/
inductive StylesOf : Option (List (List Char)) → Nat → List Line → List (Style × Nat × Nat) →
    Option (List (List Char)) → Prop
  | nil {f o} : StylesOf f o [] [] f
  | silent {f o l ls es f'} : Silent l → StylesOf f (o + size l + 1) ls es f' → StylesOf f o (l :: ls) es f'
  | format {f o l d names ls es f'} : Says l ("Format:".toList ++ d) → Names d names →
      StylesOf (some names) (o + size l + 1) ls es f' → StylesOf f o (l :: ls) es f'
  | style {f o l d d' e a b ls es f'} : Says l ("Style:".toList ++ d) → Stripped d d' →
      parseStyle d' (f.getD []) = some e → Spans o l a b →
      StylesOf f (o + size l + 1) ls es f' → StylesOf f o (l :: ls) ((e, a, b) :: es) f'
  | short {f o l d d' ls es f'} : Says l ("Style:".toList ++ d) → Stripped d d' → parseStyle d' (f.getD []) = none →
      StylesOf f (o + size l + 1) ls es f' → StylesOf f o (l :: ls) es f'
  | other {f o l x ls es f'} : Says l x → (∀ d, x ≠ "Format:".toList ++ d) → (∀ d, x ≠ "Style:".toList ++ d) →
      StylesOf f (o + size l + 1) ls es f' → StylesOf f o (l :: ls) es f'

/-- The line `key: name`. -/
def Names1 (key : List Char) (l : Line) (name : List Char) : Prop :=
  ∃ k v, l = k ++ ':' :: v ∧ ':' ∉ k ∧ Stripped k key ∧ Stripped v name

/-- A blank line or a `#` remark ends embedded data. -/
def EndsData (l : Line) : Prop := ∃ x, Stripped l x ∧ (x = [] ∨ x = ['#'] ∨ ∃ y, x = '#' :: ' ' :: y)

/-- A line within embedded data taken for a remark. -/
def Remark (l : Line) : Prop := ∃ x, Stripped l x ∧ (x.head? = some ';' ∨ x.head? = some '!')

/-- The data lines. -/
inductive Data : List Line → List Line → Prop
  | nil : Data [] []
  | line {l ls d} : ¬ EndsData l → ¬ Remark l → Data ls d → Data (l :: ls) (l :: d)
  | remark {l ls d} : ¬ EndsData l → Remark l → Data ls d → Data (l :: ls) d

/-- What a section of embedded files says: names and data lines. -/
inductive FilesOf (key : List Char) : List Line → List (List Char × List Line) → Prop
  | nil : FilesOf key [] []
  | other {l ls fs} : (∀ n, ¬ Names1 key l n) → FilesOf key ls fs → FilesOf key (l :: ls) fs
  | file {l n ds d ls fs} : Names1 key l n → Data ds d → (∀ m, ls.head? = some m → EndsData m) → FilesOf key ls fs →
      FilesOf key (l :: (ds ++ ls)) ((n, d) :: fs)

/-- The format a styles section leaves behind. -/
def kept (f : Option (List (List Char))) (l : List (Style × Nat × Nat)) : Option (List (List Char)) :=
  match f with
  | some f => some f
  | none => if l.isEmpty then none else some styleFormat

open Verif.Parser (Section Span Media)

/-- What remains of a parsed section when line numbers are left aside. -/
inductive Said where
  | info (fields : List (List Char × List Char))
  | styles (l : List (Style × Nat × Nat))
  | events (l : List (Event × Nat × Nat))
  | fonts (l : List (List Char × List Line))
  | graphics (l : List (List Char × List Line))

/-- Events and styles with their places. -/
def place {α : Type} (p : α × Span) : α × Nat × Nat := (p.1, p.2.start, p.2.stop)

/-- A parsed section without line numbers. -/
def said : Section → Said
  | .info fields _ => .info fields
  | .styles l => .styles (l.map place)
  | .events l => .events (l.map place)
  | .fonts l => .fonts (l.map (fun m => (m.filename, m.data)))
  | .graphics l => .graphics (l.map (fun m => (m.filename, m.data)))

/-- The names of styles sections. -/
def StylesName (n : List Char) : Prop :=
  n = "V4+ Styles".toList ∨ n = "V4 Styles".toList ∨ n = "V4++ Styles".toList

/-- The names of sections the library knows. -/
def Known (n : List Char) : Prop :=
  n = "Script Info".toList ∨ StylesName n ∨ n = "Events".toList ∨ n = "Fonts".toList ∨ n = "Graphics".toList

/-- What the sections of a source say, in order: those known, their formats (of styles and events), and the names of the
unknown ones. -/
inductive SectionsOf : Option (List (List Char)) → Option (List (List Char)) → List Seg → List Said →
    Option (List (List Char)) → Option (List (List Char)) → List (List Char) → Prop
  | nil {sf ef} : SectionsOf sf ef [] [] sf ef []
  | info {sf ef g gs fs ss sf' ef' us} : Stripped g.raw "Script Info".toList → InfoOf g.body fs →
      SectionsOf sf ef gs ss sf' ef' us → SectionsOf sf ef (g :: gs) (.info fs :: ss) sf' ef' us
  | styles {sf ef g gs n l f ss sf' ef' us} : Stripped g.raw n → StylesName n → StylesOf none g.at_ g.body l f →
      SectionsOf (kept f l) ef gs ss sf' ef' us → SectionsOf sf ef (g :: gs) (.styles l :: ss) sf' ef' us
  | events {sf ef g gs l f ss sf' ef' us} : Stripped g.raw "Events".toList → EventsOf none g.at_ g.body l f →
      SectionsOf sf f gs ss sf' ef' us → SectionsOf sf ef (g :: gs) (.events l :: ss) sf' ef' us
  | fonts {sf ef g gs l ss sf' ef' us} : Stripped g.raw "Fonts".toList → FilesOf "fontname".toList g.body l →
      SectionsOf sf ef gs ss sf' ef' us → SectionsOf sf ef (g :: gs) (.fonts l :: ss) sf' ef' us
  | graphics {sf ef g gs l ss sf' ef' us} : Stripped g.raw "Graphics".toList → FilesOf "filename".toList g.body l →
      SectionsOf sf ef gs ss sf' ef' us → SectionsOf sf ef (g :: gs) (.graphics l :: ss) sf' ef' us
  | unknown {sf ef g gs n ss sf' ef' us} : Stripped g.raw n → ¬ Known n →
      SectionsOf sf ef gs ss sf' ef' us → SectionsOf sf ef (g :: gs) ss sf' ef' (g.raw :: us)

/-- The unknown sections reported. -/
def unknowns (l : List Verif.Parser.Issue) : List (List Char) :=
  l.filterMap (fun i => match i with | .unknown n _ => some n | _ => none)

end Verif.Spec.Script
