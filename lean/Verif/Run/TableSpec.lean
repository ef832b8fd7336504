/-
What a table looks like on the screen.
-/
import Verif.Run.Table

namespace Verif.Run

/-- What is to be seen of a text: control sequences are invisible. -/
def visible (c : Cell) : Str := (c.filter fun p => !isAnsi p).flatten

/-- A text filled up with spaces. -/
def padded (w : Nat) (c : Cell) : Str := visible c ++ List.replicate (w - (visible c).length) 32

/-- A line of a table: the cells, separated by vertical lines. -/
def lineText (widths : List Nat) (row : List Cell) : Str := Py.join p!" │ " ((row.zip widths).map fun cw => padded cw.2 cw.1)

/-- The line below the heading. -/
def ruleText (widths : List Nat) : Str := Py.join p!"─┼─" (widths.map fun w => List.replicate w 9472)

/-- Where the column number `k` begins. -/
def colStart (widths : List Nat) (k : Nat) : Nat := ((widths.take k).map (· + 3)).sum

/-- The part of a line from `start` on of length `len`. -/
def part (start len : Nat) (line : Str) : Str := (line.drop start).take len

/-- The cells of the row are to be found in their columns, with a vertical line after each but the last. -/
def Aligned (widths : List Nat) (row : List Cell) (line : Str) : Prop :=
  ∀ k c w, row[k]? = some c → widths[k]? = some w →
    part (colStart widths k) w line = padded w c
      ∧ (k + 1 < row.length → part (colStart widths k + w) 3 line = p!" │ ")

/-- The length of the longest text of the column number `k`. -/
def longest (k : Nat) (rows : List (List Cell)) : Nat := (rows.map fun row => (row[k]?.map fun c => (visible c).length).getD 0).foldl max 0

end Verif.Run
