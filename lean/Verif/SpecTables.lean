import Verif.Spec
import Verif.Summary

/-!
# Tables: what the summaries are said to look like
-/

namespace K431
open Spec

/-- The line holds the fields in columns of the widths `ws`: every field but the last is followed by blanks, at least one, up to the width of its
column, so that the next begins where the widths say; the last may be followed by blanks. -/
def InColumns : List Nat → List Runes → Runes → Prop
  | [], [f], line => ∃ n, line = f ++ List.replicate n 32
  | w :: ws, f :: fs, line => f.length < w ∧ ∃ rest, line = f ++ List.replicate (w - f.length) 32 ++ rest ∧ InColumns ws fs rest
  | _, _, _ => False

/-- the names joined by commas -/
def commas : List Runes → Runes
  | [] => []
  | [x] => x
  | x :: xs => x ++ [44] ++ commas xs

/-- the headings of the table of keys -/
def keyHeads : List Runes := [lit "ID", lit "KEEPERS", lit "CREATED", lit "EXPIRES", lit "USED", lit "COMPROMISED", lit "COMMENT"]
/-- the headings of the table of messages -/
def msgHeads : List Runes := [lit "ID", lit "DTG", lit "TO", lit "DE", lit "DIGEST"]

/-- what the line of a key shows -/
def keyFields (date : Int → Runes) (k : Key) : List Runes :=
  [k.id.val, if k.names = [] then lit "Anonymous" else commas (k.names.map goStr), date k.created, date k.expires,
    if k.used then lit "Yes" else lit "No", if k.compromised then lit "Yes" else lit "No", k.comment]

/-- what the line of a message shows -/
def msgFields (date : Int → Runes) (digest : Msg → Runes) (m : Msg) : List Runes :=
  [m.id, date m.dtg, if m.recipients = [] then lit "NIL" else commas (m.recipients.map goStr), if m.from_ = [] then lit "NIL" else m.from_, digest m]

/-- the messages the filter selects, as they are after the call -/
def selected (filter : Msg → Bool) (before after : List Msg) : List Msg := ((before.zip after).filter (fun p => filter p.1)).map Prod.snd

end K431
