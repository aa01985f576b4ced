import Verif.Store

/-!
# Model of parts of `print.go`: the coding legend and the division into pages

The page of a key (`Key.String`) is in `KeyPage.lean`, the text of a message (`Message.String`) in `Traffic.lean`; both use the library `blox`.  The PDF library is not modelled:
the number of lines of an item is a parameter.
-/

namespace K431

/-- `KeyFooter`, print.go:26-30, line by line. -/
def keyFooter : List Runes :=
  [Spec.lit "CODING LEGEND                                              > Switch table (Z)",
   Spec.lit "IDX A B C D E F G H I J K L M N O P Q R S T U V W X Y Z    ¤ Toggle binary mode (W)",
   Spec.lit "CT1 A B C D E F G H I J K L M N O P   R S T U V W X Y >    ↕ Toggle case (X)",
   Spec.lit "CT2 0 1 2 3 4 5 6 7 8 9 ? - Å Ä Ö . Q , Z : + / ¤ ↕ → >    → Change key (Y)"]

/-- The loop of `KeysPDF` (print.go:250-274) and `MessagesPDF` (print.go:293-317): `lines x` is `textLines`, a page is the list of the
items on it, `rowCount` and `page` are the variables of the loop.  The result lists the pages in the order of `AddPage`. -/
def pagesLoop {α : Type} (maxRows : Nat) (lines : α → Nat) : List α → Nat → List α → List (List α)
  | [], _, page => [page]
  | x :: xs, rowCount, page =>
    if lines x > maxRows then [x] :: pagesLoop maxRows lines xs 0 page
    else if rowCount + lines x > maxRows then page :: pagesLoop maxRows lines xs (lines x) [x]
    else pagesLoop maxRows lines xs (rowCount + lines x) (page ++ [x])

/-- `KeysPDF`, print.go:235-276: nothing is written if no key passes the filter.  `count` is `blox.LineCount` of the printed key. -/
def keysPDF (filter : Key → Bool) (count : Key → Nat) (keys : List Key) : Option (List (List Key)) :=
  let kp := keys.filter filter
  if kp.length = 0 then none else some (pagesLoop 87 (fun k => count k + 5) kp 0 [])

/-- `MessagesPDF`, print.go:278-319. -/
def messagesPDF (filter : Msg → Bool) (count : Msg → Nat) (messages : List Msg) : Option (List (List Msg)) :=
  let mp := messages.filter filter
  if mp.length = 0 then none else some (pagesLoop 65 (fun m => count m + 2) mp 0 [])

end K431
