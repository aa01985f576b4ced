import Verif.Spec
import Verif.UnicodeTables

/-!
# Ground types of the model

Runes are Go `rune` (= `int32`).  They are modelled by unbounded `Int`: the program does
arithmetic on runes only after checking them to be within `A..Z`, so no overflow can occur.
-/

namespace K431

/-- Go `rune`. -/
notation "Rune" => Int
/-- Go `[]rune` (contents only; a nil slice and an empty slice are both `[]`). -/
notation "Runes" => List Int

/-- The error values the modelled functions distinguish.  Formatted errors are reduced to a tag. -/
inductive Err where
  | nilPointer            -- ErrNilPointer (diana.go:60, krypto431.go)
  | outOfRange            -- diana.ErrOutOfRange
  | negativeKeyIndex      -- diana.ErrNegativeKeyIndex
  | keyIndexOutOfBounds   -- diana.ErrKeyIndexOutOfBounds
  | tableOutOfRange       -- gotoTable
  | binaryMode            -- "binary mode not implemented yet" returned as an error
  | invalidCoding         -- ErrInvalidCoding
  | tableTooShort         -- ErrTableTooShort
  | invalidControlChar    -- ErrInvalidControlChar
  | unsupportedTable      -- ErrUnsupportedTable
  | keyNotFound           -- GetKey / MarkKeyUsed
  | emptyPlainText        -- EnrichWithKey
  | keyIdLength           -- EnrichWithKey
  | keyIdUsed             -- EnrichWithKey
  | keyIdCompromised      -- EnrichWithKey
  | keyIdUnknown          -- EnrichWithKey
  | cipherTextWithoutKey  -- EnrichWithKey
  | noKeyFound            -- EnrichWithKey, FindKey returned nil
  | outOfKeys             -- ErrOutOfKeys
  | keyTooShort           -- Encipher / Decipher
  | noKey                 -- ErrNoKey
  | cipherTextTooShort    -- ErrCipherTextTooShort
  | notCipherText         -- ErrNotCipherText
  | other                 -- any other error
  deriving DecidableEq, Repr

/-- Result of a Go call: a value, a returned error, or a panic. -/
inductive Outcome (α : Type) where
  | ok (a : α)
  | err (e : Err)
  | panic
  deriving DecidableEq, Repr

namespace Outcome
/-- did the call succeed? -/
def isOk {α : Type} : Outcome α → Bool
  | ok _ => true
  | _ => false
/-- the value of a successful call -/
def val? {α : Type} : Outcome α → Option α
  | ok a => some a
  | _ => none
end Outcome

/-- The part of Go's `unicode` package the program uses (cipher.go:73-96, 751-755;
functions.go; messages.go).  A parameter of the model: the real tables are not transcribed. -/
structure Unicode where
  isUpper : Rune → Bool
  isLower : Rune → Bool
  isSpace : Rune → Bool
  toUpper : Rune → Rune
  toLower : Rune → Rune

/-- Facts about Go's `unicode` tables that theorems may assume. All of them are facts about
Unicode; none mentions the program. -/
structure Unicode.Lawful (U : Unicode) : Prop where
  /-- the capital letters of the legend -/
  capital : ∀ c ∈ Spec.capitals, U.isUpper c = true ∧ U.isLower c = false ∧
      U.toUpper c = c ∧ U.toLower c = c + 32
  /-- the small letters of the legend -/
  small : ∀ c ∈ Spec.smalls, U.isUpper c = false ∧ U.isLower c = true ∧
      U.toUpper c = c - 32 ∧ U.toLower c = c
  /-- digits and punctuation of the legend have no case -/
  neutral : ∀ c ∈ Spec.neutrals, U.isUpper c = false ∧ U.isLower c = false ∧
      U.toUpper c = c ∧ U.toLower c = c
  dotlessI : U.isUpper Spec.dotlessI = false ∧ U.isLower Spec.dotlessI = true ∧
      U.toUpper Spec.dotlessI = 73
  longS : U.isUpper Spec.longS = false ∧ U.isLower Spec.longS = true ∧
      U.toUpper Spec.longS = 83
  /-- the only runes whose upper case lies in the legend -/
  preimage : ∀ c, U.toUpper c ∈ Spec.capitals ++ Spec.neutrals →
      c ∈ Spec.alphabet ∨ c = Spec.dotlessI ∨ c = Spec.longS
  toUpper_idem : ∀ c, U.toUpper (U.toUpper c) = U.toUpper c
  isSpace_blank : ∀ c ∈ [(9 : Int), 10, 11, 12, 13, 32], U.isSpace c = true
  isSpace_legend : ∀ c ∈ Spec.alphabet, c ≠ 32 → U.isSpace c = false
  isSpace_equals : U.isSpace 61 = false
  isSpace_toUpper : ∀ c, U.isSpace (U.toUpper c) = U.isSpace c
  toUpper_blank : ∀ c ∈ [(9 : Int), 10, 11, 12, 13, 32], U.toUpper c = c
  /-- U+212A, the Kelvin sign: a capital letter that equals K when case is ignored -/
  kelvin : U.isSpace Spec.kelvin = false ∧ U.toUpper Spec.kelvin = Spec.kelvin

/-- Package `unicode` with the tables of Unicode 15.0.0: `IsUpper`, `IsLower`, `IsSpace`, `ToUpper`, `ToLower` (called in cipher.go:73-96 and
752-755, and by package strings elsewhere).  Like Go, it does without the tables below 256; `latin1_tables` (`BasicLemmas.lean`) shows that they say
the same there.  All examples and counterexamples are about this instance. -/
def unicode15 : Unicode where
  isUpper c := if c < 256 then (65 ≤ c ∧ c ≤ 90) ∨ (192 ≤ c ∧ c ≤ 222 ∧ c ≠ 215) else tableLu.any fun r => r.has c
  isLower c := if c < 256 then (97 ≤ c ∧ c ≤ 122) ∨ c = 181 ∨ (223 ≤ c ∧ c ≤ 255 ∧ c ≠ 247) else tableLl.any fun r => r.has c
  isSpace c := if c < 256 then (9 ≤ c ∧ c ≤ 13) ∨ c = 32 ∨ c = 133 ∨ c = 160 else tableSpace.any fun r => r.has c
  toUpper c := if c < 256 then
      (if (97 ≤ c ∧ c ≤ 122) ∨ (224 ≤ c ∧ c ≤ 254 ∧ c ≠ 247) then c - 32 else if c = 181 then 924 else if c = 255 then 376 else c)
    else mappedBy tableToUpper c
  toLower c := if c < 256 then (if (65 ≤ c ∧ c ≤ 90) ∨ (192 ≤ c ∧ c ≤ 222 ∧ c ≠ 215) then c + 32 else c)
    else mappedBy tableToLower c

end K431
