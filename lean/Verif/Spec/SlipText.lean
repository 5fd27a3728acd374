import Verif.Model.Text

/-!
The texts of slip system files.
-/

namespace DefDAP.Spec

/-- A whole number with spaces before and after it. -/
structure Cell where
  before : Nat
  value : Int
  after : Nat

/-- The text of a cell. -/
def Cell.text (c : Cell) : Str :=
  List.replicate c.before ' ' ++ (intStr c.value ++ List.replicate c.after ' ')

/-- A line: the cells, with tabs between them, and perhaps a comment. -/
structure SlipLine where
  cells : List Cell
  comment : Option Str

/-- The text of a line, without line break. -/
def SlipLine.text (l : SlipLine) : Str :=
  ['\t'].intercalate (l.cells.map Cell.text) ++
    match l.comment with
    | none => []
    | some c => '#' :: c

/-- The numbers of a line. -/
def SlipLine.numbers (l : SlipLine) : List Int := l.cells.map Cell.value

/-- A slip system file: a title, the colours with commas between them, and lines. -/
def slipFileText (title : Str) (colours : List Str) (lines : List SlipLine) : Str :=
  (([title, [','].intercalate colours] ++ lines.map SlipLine.text).map fun l => l ++ ['\n']).flatten

/-- The rows of numbers: the lines with numbers on them. -/
def slipFileRows (lines : List SlipLine) : List (List Int) :=
  (lines.map SlipLine.numbers).filter fun r => !r.isEmpty

/-- The title is one line; there are colours, without white space or commas; comments end with the
line; the numbers have eight bits. -/
structure SlipFileOk (title : Str) (colours : List Str) (lines : List SlipLine) : Prop where
  oneLine : '\n' ∉ title
  some : colours ≠ []
  colour : ∀ c ∈ colours, c ≠ [] ∧ ∀ x ∈ c, x ≠ ',' ∧ isWs x = false
  comment : ∀ l ∈ lines, ∀ c ∈ l.comment, '\n' ∉ c
  value : ∀ l ∈ lines, ∀ c ∈ l.cells, -128 ≤ c.value ∧ c.value ≤ 127

end DefDAP.Spec
