import Verif.Print
import Verif.Summary
import Verif.RecipTable

/-!
# Model of `Key.String` (print.go:40-85)

The page is drawn with the library `blox`, whose source is not part of the program.  Its canvas is modelled as cells in rows and columns that are blank at first; putting a text writes
its characters, line by line, from a position on, and nothing outside of the canvas.  How `blox` divides a text into lines is a parameter (`Blox.lines`), and so are the
rows it reaches with `PutLine` and `MoveDown` (print.go:81: `Blox.ruleRow`, the row of the second separator, which is drawn with `Blox.mark`, and `Blox.top`, the row of the position kept by `PushPos`).  `Blox.Lawful`
says what is relied on.  The method `String` of the canvas, which turns the rows into text and removes blanks at the ends of lines, is not modelled.
-/

namespace K431

/-- What `Key.String` takes from `blox` and `dtg`; `lb` is `LineBreak`. -/
structure Blox where
  lb : Runes
  lines : Runes → List Runes
  ruleRow : Nat
  top : Nat
  mark : Rune
  date : Int → Runes

/-- A canvas: `cell r c` is the character in row `r` and column `c`. -/
structure Page where
  cols : Nat
  rows : Nat
  cell : Nat → Nat → Rune

/-- `blox.New().SetColumnsAndRows(cols, rows)`, print.go:79. -/
def Page.blank (cols rows : Nat) : Page := ⟨cols, rows, fun _ _ => 32⟩

/-- `PutText` and `PutLine` with the position at row `y` and column `x` and the given line spacing, print.go:80-84. -/
def Page.put (p : Page) (y x spacing : Nat) (lines : List Runes) : Page :=
  { p with cell := fun r c =>
      if y ≤ r ∧ (r - y) % spacing = 0 ∧ x ≤ c ∧ r < p.rows ∧ c < p.cols then ((lines.getD ((r - y) / spacing) [])[c - x]?).getD (p.cell r c)
      else p.cell r c }

/-- `DrawSeparator` in row `y`, print.go:80 and 81. -/
def Page.rule (p : Page) (y : Nat) (mark : Rune) : Page :=
  { p with cell := fun r c => if r = y ∧ r < p.rows ∧ c < p.cols then mark else p.cell r c }

/-- `blox.MaximumLineLength`, also the number of columns of `blox.RowAndColumnCount`, print.go:46 and 52. -/
def widest (lines : List Runes) : Nat := (lines.map List.length).foldr max 0

/-- `PutTextRightAligned` in row `y`, print.go:80 and 82. -/
def Page.putRight (p : Page) (y : Nat) (lines : List Runes) : Page := p.put y (p.cols - widest lines) 1 lines

/-- `diana.ReciprocalTable`, diana/diana.go:57-58, is the text of the file `reciprocal-table.txt`: each line ends with a line feed. -/
def reciprocalText : Runes := reciprocalTable.flatMap (fun l => Spec.lit l ++ [10])

/-- `KeyFooter`, print.go:25-30: each line ends with a line break. -/
def footerText (lb : Runes) : Runes := keyFooter.flatMap (fun l => l ++ lb)

/-- `groups`, print.go:47-51; `GroupsBlock` is keys.go:198-200, its error is ignored. -/
def keyGroups (lb : Runes) (inst : Inst) (k : Key) : Runes :=
  match groups lb (some k.runes) inst.groupSize inst.keyColumns with
  | .ok g => goStr g
  | _ => []

/-- `header`, print.go:71-76. -/
def keyHeader (date : Int → Runes) (k : Key) : Runes :=
  Spec.lit "/ KEEPERS: " ++ (if k.keepers.length > 0 then joinRunes (Spec.lit ",") k.names else Spec.lit "NIL") ++
  Spec.lit " / EXPIRES: " ++ date k.expires ++ Spec.lit " / CREATED: " ++ date k.created ++
  Spec.lit " / USED: [" ++ (if k.used then Spec.lit "X" else Spec.lit " ") ++ Spec.lit "]"

/-- `groupsLineSpacing`, print.go:53-56. -/
def groupsSpacing (rtLines groupsLines : Nat) : Nat := if (groupsLines : Int) * 2 - 1 ≤ rtLines then 2 else 1

/-- `cols`, print.go:58-61. -/
def pageCols (columns rtLength groupsLength : Nat) : Nat :=
  if columns > rtLength + 3 + groupsLength then columns else rtLength + 3 + groupsLength

/-- `rows`, print.go:63-68. -/
def pageRows (footerLines rtLines groupsLines spacing : Nat) : Nat :=
  4 + footerLines + (if rtLines > groupsLines * spacing then rtLines else groupsLines * spacing)

/-- The canvas of `Key.String` before it is turned into text, print.go:42-84. -/
def keyPage (E : Blox) (inst : Inst) (k : Key) : Page :=
  let footer := E.lines (footerText E.lb)
  let rt := E.lines reciprocalText
  let gs := E.lines (keyGroups E.lb inst k)
  let spacing := groupsSpacing rt.length gs.length
  let rows := pageRows footer.length rt.length gs.length spacing
  let p := Page.blank (pageCols inst.columns (widest rt) (widest gs)) rows
  let p := (p.rule 0 95).putRight 0 [keyHeader E.date k]
  let p := (p.put 1 0 1 [k.id.val]).rule E.ruleRow E.mark
  let p := (p.putRight E.top rt).put E.top 0 spacing gs
  p.put (rows - footer.length) 0 1 footer

end K431
