import Verif.Print
import Verif.Summary

/-!
# Model of `Message.String` (print.go:90-153), `KeysAsText` and `MessagesAsText` (print.go:160-201)

The header of a message and the printed form of a key are drawn with the library `blox`: they are parameters, as are `blox.WrapString`,
`blox.WithoutLineBreaks` and the printed form of times (library `dtg`).
-/

namespace K431

/-- What `Message.String` takes from `blox` and `dtg`: `header m` is `b.String()` of print.go:120-129, `wrap s` is
`blox.WrapString(s, w)`, `flat` is `blox.WithoutLineBreaks`, `date` is `dtg.DTG.String`, `lb` is `LineBreak`. -/
structure PrintEnv where
  lb : Runes
  header : Msg → Runes
  wrap : Runes → Runes
  flat : Runes → Runes
  date : Int → Runes

/-- `%d` of a number that is not negative -/
def decimal (n : Nat) : Runes := (Nat.toDigits 10 n).map (fun c => (c.toNat : Int))

/-- `groupsPrependedWithKey`, print.go:132-144.  `Message.Groups` is messages.go:365-368; its error is ignored. -/
def keyAndGroups (lb : Runes) (groupSize : Nat) (m : Msg) : Runes :=
  let g := match groups lb (some m.cipherText) groupSize 0 with
    | .ok g => g
    | _ => []
  if g.length > 0 then goStr m.keyId.val ++ [32] ++ goStr g else []

/-- The line of `=TRAFFIC=EXAMPLE=` before it is wrapped, print.go:148-149. -/
def trafficLine (U : Unicode) (P : PrintEnv) (groupSize : Nat) (m : Msg) : Runes :=
  let g := keyAndGroups P.lb groupSize m
  let count := (fieldsFunc U.isSpace (P.wrap g)).length
  trimSpace U (joinRunes [32] m.recipients ++ Spec.lit " DE " ++ goStr m.from_ ++ [32] ++ P.date m.dtg ++ [32] ++ decimal count ++
    Spec.lit " = " ++ g ++ Spec.lit " = K")

/-- `Message.String`, print.go:90-153. -/
def messageString (U : Unicode) (P : PrintEnv) (groupSize : Nat) (m : Msg) : Runes :=
  let text := P.wrap (P.flat (goStr m.plainText))
  let cipher := P.wrap (keyAndGroups P.lb groupSize m)
  P.header m ++
    (if text.length > 0 then Spec.lit "=TEXT=" ++ P.lb ++ text ++ P.lb else []) ++
    (if cipher.length > 0 then
      Spec.lit "=CIPHER=" ++ P.lb ++ cipher ++ P.lb ++
      Spec.lit "=TRAFFIC=EXAMPLE=" ++ P.lb ++ P.wrap (trafficLine U P groupSize m) ++ P.lb
    else [])

/-- The loop `output += x.String() + LineBreak`, print.go:173-175 and 195-197. -/
def textLoop {α : Type} (lb : Runes) (print : α → Runes) : List α → Runes → Runes
  | [], output => output
  | x :: xs, output => textLoop lb print xs (output ++ (print x ++ lb))

/-- `KeysAsText`, print.go:160-177, and `MessagesAsText`, print.go:183-199: the text, and whether there was nothing to format (a notice on
standard error). -/
def itemsAsText {α : Type} (lb : Runes) (print : α → Runes) (filter : α → Bool) (items : List α) : Runes × Bool :=
  let kp := items.filter filter
  if kp.length = 0 then ([], true) else (textLoop lb print kp [], false)

end K431
