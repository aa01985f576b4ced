import Verif.Summary

/-!
# Model of the diagnostic form (`%#v`) of keys and messages: `Key.GoString` (keys.go:14-17), `Message.GoString` (messages.go:97-100)

The text of a date (library `dtg`), the text of the pointer to the instance (`%p`) and the quoted text of the field
`Binary` (`%q`, a field that is otherwise never read or written) are parameters.
-/

namespace K431
open Spec

/-- the verb `%t` of package fmt -/
def fmtBool (b : Bool) : Runes := if b then lit "true" else lit "false"

/-- `Key.GoString`, keys.go:14-17. -/
def Key.goString (date : Int → Runes) (ptr : Runes) (k : Key) : Runes :=
  lit "Key{Id:" ++ (goStr k.id.val ++ (lit " Runes:\"" ++ (goStr k.runes ++ (lit "\" Keepers:[" ++ (joinRunes (lit ",") k.names ++
  (lit "] Created:" ++ (date k.created ++ (lit " Expires:" ++ (date k.expires ++ (lit " Used:" ++ (fmtBool k.used ++
  (lit " Compromised:" ++ (fmtBool k.compromised ++ (lit " Comment:\"" ++ (goStr k.comment ++
  (lit "\" instance:" ++ (ptr ++ lit "}")))))))))))))))))

/-- `Message.GoString`, messages.go:97-100. -/
def Msg.goString (date : Int → Runes) (ptr binary : Runes) (m : Msg) : Runes :=
  lit "Message{Recipients:[" ++ (joinRunes (lit ",") m.recipients ++ (lit "] From:" ++ (goStr m.from_ ++ (lit " DTG:" ++ (date m.dtg ++
  (lit " KeyId:" ++ (goStr m.keyId.val ++ (lit " PlainText:\"" ++ (goStr m.plainText ++ (lit "\" Binary:" ++ (binary ++
  (lit " CipherText:\"" ++ (goStr m.cipherText ++ (lit "\" Radiogram:\"" ++ (goStr m.radiogram ++
  (lit "\" instance:" ++ (ptr ++ lit "}")))))))))))))))))

end K431
