import Verif.KeyPage
import Verif.SpecCipher

/-!
# Reading the page of a printed key
-/

namespace K431.Spec

/-- What is relied on of `blox`: a text of lines that are not empty and have no line breaks in them is divided into these lines; an empty line may be added at the end.  The second separator is below the id, and the
position kept is below it and not below the four lines of the head. -/
structure _root_.K431.Blox.Lawful (E : Blox) : Prop where
  lb : E.lb = [10] ∨ E.lb = [13, 10]
  lines : ∀ (br : Runes) (ls : List Runes) (text : Runes), br = E.lb ∨ br = [10] → (∀ l ∈ ls, l ≠ [] ∧ ∀ c ∈ l, c ≠ 10 ∧ c ≠ 13) →
    text = joinWith br ls ∨ text = ls.flatMap (fun l => l ++ br) → E.lines text = ls ∨ E.lines text = ls ++ [[]]
  rows : 1 < E.ruleRow ∧ E.ruleRow < E.top ∧ E.top ≤ 4

/-- The characters other than blanks in the given row, in the first `width` columns. -/
def marksIn (p : Page) (row width : Nat) : Runes := ((List.range width).map (p.cell row)).filter (fun c => c ≠ 32)

/-- The characters other than blanks in `count` rows from `row` on, in the first `width` columns, read row by row. -/
def readRows (p : Page) (row count width : Nat) : Runes := (List.range count).flatMap (fun i => marksIn p (row + i) width)

/-- The text stands in the page from row `row` and column `col` on, not cut off. -/
def Displays (p : Page) (row col : Nat) (text : Runes) : Prop :=
  row < p.rows ∧ col + text.length ≤ p.cols ∧ ∀ (j : Nat) (c : Rune), text[j]? = some c → p.cell row (col + j) = c

end K431.Spec
