import Verif.SpecCli

/-!
# Deciphering by hand

How a reader with the printed coding legend, the DIANA table and the pads deciphers a ciphertext.  Nothing here uses
the coder of the model.
-/

namespace K431
open Spec

/-- The first line of the coding legend, below the columns A to Y; column Z is "switch table". -/
def firstTable : List Int := lit "ABCDEFGHIJKLMNOP RSTUVWXY"
/-- The second line, below the columns A to V; W, X, Y, Z are "binary", "case", "change key" and "switch table". -/
def secondTable : List Int := lit "0123456789?-ÅÄÖ.Q,Z:+/"

/-- "Binary" of the second table: W. -/
def binaryLetter : Int := 87
/-- "Case" of the second table: X. -/
def caseLetter : Int := 88
/-- "Change key" of the second table: Y. -/
def keyLetter : Int := 89
/-- "Switch table": Z. -/
def switchLetter : Int := 90

/-- The letter `e` stands for the character `c` in the table. -/
def Codes (second : Bool) (e c : Int) : Prop :=
  IsLetter e ∧ (if second then secondTable else firstTable)[(pos e).toNat]? = some c

instance (b : Bool) (e c : Int) : Decidable (Codes b e c) := by unfold Codes; infer_instance

instance (x y z : Int) : Decidable (Trigraph x y z) := by unfold Trigraph; infer_instance

/-- Letter by letter, the letters of `z` are those of `e` enciphered with the first letters of `pad`. -/
def Enciphered : (pad e z : Runes) → Prop
  | _, [], [] => True
  | p :: pad, e :: es, z :: zs => Trigraph p e z ∧ Enciphered pad es zs
  | _, _, _ => False

/-- The id, without surrounding blanks and in capitals, is that of the key. -/
def IdOf (U : Unicode) (id : Runes) (k : Key) : Prop := toUpperStr U (trimSpace U (goStr id)) = k.id.val

instance (U : Unicode) (id : Runes) (k : Key) : Decidable (IdOf U id k) := by unfold IdOf; infer_instance

/-- Where the reader is: the letters left on the pad, in which table, and whether letters are small. -/
structure Reader where
  pad : Runes
  second : Bool
  small : Bool

/-- A reader with a new pad. -/
def Reader.fresh (pad : Runes) : Reader := ⟨pad, false, false⟩

/-- A letter of the tables, or its small form -/
def cased (small : Bool) (c : Int) : Int := if small then smallOf c else c

/-- Reading one thing: a character, a change of table, a change of case, or a change of key.  Letters read, text found,
ids of pads taken, and where the reader is then. -/
inductive ReadsOne (g : Nat) (keys : List Key) : Reader → Runes → Runes → List Runes → Reader → Prop
  | char {p e z c : Rune} {pad : Runes} {second small : Bool} : Trigraph p e z → Codes second e c →
      ReadsOne g keys ⟨p :: pad, second, small⟩ [z] [if small then smallOf c else c] [] ⟨pad, second, small⟩
  | switch {p z : Rune} {pad : Runes} {second small : Bool} : Trigraph p switchLetter z →
      ReadsOne g keys ⟨p :: pad, second, small⟩ [z] [] [] ⟨pad, !second, small⟩
  | case {p z : Rune} {pad : Runes} {small : Bool} : Trigraph p caseLetter z →
      ReadsOne g keys ⟨p :: pad, true, small⟩ [z] [] [] ⟨pad, true, !small⟩
  | key {p z : Rune} {pad zs : Runes} {small : Bool} {k : Key} : Trigraph p keyLetter z → k ∈ keys → k.id.val.length = g →
      Enciphered pad k.id.val zs → ReadsOne g keys ⟨p :: pad, true, small⟩ (z :: zs) [] [k.id.val] (Reader.fresh k.runes)

/-- Reading on, thing after thing. -/
inductive ReadsOn (g : Nat) (keys : List Key) : Reader → Runes → Runes → List Runes → Reader → Prop
  | nil {r : Reader} : ReadsOn g keys r [] [] [] r
  | cons {r r' r'' : Reader} {z zs t ts : Runes} {i is : List Runes} : ReadsOne g keys r z t i r' → ReadsOn g keys r' zs ts is r'' →
      ReadsOn g keys r (z ++ zs) (t ++ ts) (i ++ is) r''

/-- What may be left at the end: nothing; "change key" with fewer letters than an id has; or "binary" as the last letter. -/
inductive MayEnd (g : Nat) : Reader → Runes → Prop
  | nothing {r : Reader} : MayEnd g r []
  | key {p z : Rune} {pad es zs : Runes} {small : Bool} : Trigraph p keyLetter z → Enciphered pad es zs → es.length < g → MayEnd g ⟨p :: pad, true, small⟩ (z :: zs)
  | binary {p z : Rune} {pad : Runes} {small : Bool} : Trigraph p binaryLetter z → MayEnd g ⟨p :: pad, true, small⟩ [z]

/-- The whole ciphertext is readable: it gives this text, and pads with these ids are taken on the way. -/
def ByHand (g : Nat) (keys : List Key) (r : Reader) (cipher text : Runes) (ids : List Runes) : Prop :=
  ∃ a b r', cipher = a ++ b ∧ ReadsOn g keys r a text ids r' ∧ MayEnd g r' b

end K431
