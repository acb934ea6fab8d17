import Verif.CardFloat
import Verif.KeyParse
/-!
# Writing key files

What a program that writes a key file does: keyword lines, cards with fields of fixed widths, comments. This is the
specification of property C106; the reading functions are the models of `KeyParse`, `KeyFile` and `Card`.
-/

namespace Dyna.Key

/-- A value in a field of a card. Part of the specification, models no code. -/
inductive Value where
  /-- no value: the field has blanks only -/
  | none
  | int (v : Int)
  | real (n : Card.Numeral)
  | word (t : Bytes)

/-- Part of the specification, models no code. -/
def Value.text : Value → Bytes
  | .none => []
  | .int v => bs (toString v)
  | .real n => n.text
  | .word t => t

/-- Characters that separate lines, values or comments: NUL, newline, carriage return, blank, '$'.
Part of the specification, models no code. -/
def special : Bytes := [0, 10, 13, 32, 36]

/-- The values that can be written: integers of 64 bit (except for the smallest one), decimal numbers with an exponent of 32
bit, and words without special characters that do not begin with a '*'. Part of the specification, models no code. -/
def Value.Ok : Value → Prop
  | .none => True
  | .int v => v.natAbs ≤ 9223372036854775807
  | .real n => n.Valid ∧ n.expFits
  | .word t => t ≠ [] ∧ (∀ c ∈ t, c ∉ special) ∧ t.head? ≠ some 42

/-- A field of a card: the value with blanks around. Part of the specification, models no code. -/
structure Field where
  value : Value
  before : Nat
  after : Nat

/-- Part of the specification, models no code. -/
def Field.write (f : Field) : Bytes := List.replicate f.before 32 ++ f.value.text ++ List.replicate f.after 32

/-- Part of the specification, models no code. -/
def Field.width (f : Field) : Nat := f.before + f.value.text.length + f.after

/-- A line: the text, a comment behind it, and how the line ends. Part of the specification, models no code. -/
structure OutLine where
  text : Bytes
  remark : Option Bytes := none
  cr : Bool := false

/-- Part of the specification, models no code. -/
def OutLine.body (l : OutLine) : Bytes :=
  l.text ++ (match l.remark with | none => [] | some r => 36 :: r) ++ (if l.cr then [13] else [])

/-- Part of the specification, models no code. -/
def OutLine.write (l : OutLine) : Bytes := l.body ++ [10]

/-- The comment does not have newlines or NUL characters. Part of the specification, models no code. -/
def RemarkOk (r : Bytes) : Prop := 10 ∉ r ∧ 0 ∉ r

/-- A comment line: the comment, and if the line ends with a carriage return.
Part of the specification, models no code. -/
structure Note where
  remark : Bytes
  cr : Bool := false

/-- Part of the specification, models no code. -/
def Note.line (n : Note) : OutLine := ⟨[], some n.remark, n.cr⟩

/-- A card, with the comment lines in front of it and the comment behind it.
Part of the specification, models no code. -/
structure OutCard where
  above : List Note := []
  fields : List Field
  remark : Option Bytes := none
  cr : Bool := false

/-- Part of the specification, models no code. -/
def OutCard.text (c : OutCard) : Bytes := c.fields.flatMap Field.write

/-- Part of the specification, models no code. -/
def OutCard.lines (c : OutCard) : List OutLine := c.above.map Note.line ++ [⟨c.text, c.remark, c.cr⟩]

/-- The values can be written, the card has at most 255 characters and, if it has none, no comment (which would be a comment
line). Part of the specification, models no code. -/
structure OutCard.Ok (c : OutCard) : Prop where
  above : ∀ n ∈ c.above, RemarkOk n.remark
  values : ∀ f ∈ c.fields, f.value.Ok
  length : c.text.length ≤ 255
  remark : ∀ r, c.remark = some r → RemarkOk r ∧ c.text ≠ []

/-- A keyword with its cards: blanks in front of the '*' and behind the name, a comment behind it, comment lines in front of it.
Part of the specification, models no code. -/
structure OutBlock where
  above : List Note := []
  indent : Nat := 0
  name : Bytes
  after : Nat := 0
  remark : Option Bytes := none
  cr : Bool := false
  cards : List OutCard

/-- Part of the specification, models no code. -/
def OutBlock.header (b : OutBlock) : OutLine :=
  ⟨List.replicate b.indent 32 ++ 42 :: b.name ++ List.replicate b.after 32, b.remark, b.cr⟩

/-- Part of the specification, models no code. -/
def OutBlock.lines (b : OutBlock) : List OutLine :=
  b.above.map Note.line ++ b.header :: b.cards.flatMap OutCard.lines

/-- The name is not empty, has no special characters, is not END and does not begin with INCLUDE; the keyword line, with its
comment, has less than 82 characters. Part of the specification, models no code. -/
structure OutBlock.Ok (b : OutBlock) : Prop where
  above : ∀ n ∈ b.above, RemarkOk n.remark
  nonempty : b.name ≠ []
  name : ∀ c ∈ b.name, c ∉ special
  noEnd : b.name ≠ bs "END"
  noInclude : ¬ bs "INCLUDE" <+: b.name
  remark : ∀ r, b.remark = some r → RemarkOk r
  length : b.header.body.length < 82
  cards : ∀ c ∈ b.cards, c.Ok

/-- What is read: the name and the text of the cards. Part of the specification, models no code. -/
def OutBlock.keyword (b : OutBlock) : Keyword := ⟨b.name, b.cards.map OutCard.text⟩

/-- A key file: keywords, comment lines at the end, and maybe `*END` with anything behind it.
Part of the specification, models no code. -/
structure OutFile where
  blocks : List OutBlock
  foot : List Note := []
  ending : Option Bytes := none

/-- Part of the specification, models no code. -/
def OutFile.lines (f : OutFile) : List OutLine := f.blocks.flatMap OutBlock.lines ++ f.foot.map Note.line

/-- The content of the file. Part of the specification, models no code. -/
def OutFile.write (f : OutFile) : Bytes :=
  f.lines.flatMap OutLine.write ++ (match f.ending with | none => [] | some rest => bs "*END\n" ++ rest)

/-- There is a keyword, and everything can be written.
Part of the specification, models no code. -/
structure OutFile.Ok (f : OutFile) : Prop where
  nonempty : f.blocks ≠ []
  blocks : ∀ b ∈ f.blocks, b.Ok
  foot : ∀ n ∈ f.foot, RemarkOk n.remark

/-- The keywords of the file. Part of the specification, models no code. -/
def OutFile.keywords (f : OutFile) : List Keyword := f.blocks.map OutBlock.keyword

/-- What a program does to get to a field: `card_parse_next_width` with the widths of the fields in front of it.
Part of the specification, models no code. -/
def walk (card : Card.Card) : List Nat → Res Card.Card
  | [] => .ok card
  | w :: ws => do
    let card ← card.nextWidth w
    walk card ws

end Dyna.Key
