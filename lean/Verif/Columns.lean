import Verif.Functions

/-!
# `ColumnSizes` (functions.go)
-/

namespace K431

/-- The inner loop of `ColumnSizes`, functions.go:267-281, from column `col` on.  Headers are strings, of which `len` counts the bytes; `headerFields[col]` outside the slice panics. -/
def columnLoop (headers : List (List Nat)) : List Runes → Nat → List Nat → Outcome (List Nat)
  | [], _, sizes => .ok sizes
  | cell :: cells, col, sizes =>
    let ilen : Outcome Nat :=
      if headers.length ≥ col then
        match headers[col]? with
        | none => .panic
        | some h => .ok (if h.length > cell.length then h.length else cell.length)
      else .ok cell.length
    match ilen with
    | .ok n =>
      columnLoop headers cells (col + 1)
        (if sizes.length ≤ col then sizes ++ [n] else if sizes.getD col 0 < n then sizes.set col n else sizes)
    | .err e => .err e
    | .panic => .panic

/-- the outer loop of `ColumnSizes`, functions.go:266-282 -/
def rowLoop (headers : List (List Nat)) : List (List Runes) → List Nat → Outcome (List Nat)
  | [], sizes => .ok sizes
  | row :: rows, sizes =>
    match columnLoop headers row 0 sizes with
    | .ok sizes => rowLoop headers rows sizes
    | .err e => .err e
    | .panic => .panic

/-- `ColumnSizes`, functions.go:265-285. -/
def columnSizes (rows : List (List Runes)) (headers : List (List Nat)) : Outcome (List Nat) := rowLoop headers rows []

end K431
