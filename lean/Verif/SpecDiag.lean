import Verif.Store

/-!
# What the diagnostic form of keys and messages should tell

Said of any way of writing keys or messages as text; nothing here refers to how the program writes them.
-/

namespace K431

/-- names that can be told apart in a list: none is empty, none contains a comma or a closing bracket, all can be written -/
def PlainNames (l : List Runes) : Prop := ∀ w ∈ l, w ≠ [] ∧ (44 : Rune) ∉ w ∧ (93 : Rune) ∉ w ∧ goStr w = w

/-- a text without quotation marks that can be written -/
def PlainWords (t : Runes) : Prop := (34 : Rune) ∉ t ∧ goStr t = t

/-- a word without blanks that can be written -/
def PlainWord (t : Runes) : Prop := (32 : Rune) ∉ t ∧ goStr t = t

/-- a key as the program makes them: a word as name, letters without quotation marks, names that can be told apart -/
def PlainKey (k : Key) : Prop := PlainWord k.id.val ∧ PlainWords k.runes ∧ PlainNames k.names ∧ goStr k.comment = k.comment

/-- a message whose fields contain no marks that also separate the fields; the radiogram may contain any -/
def PlainMsg (m : Msg) : Prop :=
  PlainNames m.recipients ∧ PlainWord m.from_ ∧ PlainWord m.keyId.val ∧ PlainWords m.plainText ∧ PlainWords m.cipherText ∧
  goStr m.radiogram = m.radiogram

/-- the keys have the same contents -/
def Key.Same (k k' : Key) : Prop :=
  k.id.val = k'.id.val ∧ k.runes = k'.runes ∧ k.names = k'.names ∧ k.created = k'.created ∧ k.expires = k'.expires ∧
  k.used = k'.used ∧ k.compromised = k'.compromised ∧ k.comment = k'.comment

/-- the messages have the same contents, but for the name of the message -/
def Msg.SameButId (m m' : Msg) : Prop :=
  m.recipients = m'.recipients ∧ m.from_ = m'.from_ ∧ m.dtg = m'.dtg ∧ m.keyId.val = m'.keyId.val ∧ m.plainText = m'.plainText ∧
  m.cipherText = m'.cipherText ∧ m.radiogram = m'.radiogram

/-- the messages have the same contents -/
def Msg.Same (m m' : Msg) : Prop := m.id = m'.id ∧ m.SameButId m'

/-- the dates are written as words, no two alike -/
def PlainDates (date : Int → Runes) : Prop := (∀ a, (32 : Rune) ∉ date a) ∧ ∀ a b, date a = date b → a = b

end K431
