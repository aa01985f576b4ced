/-!
# Specification vocabulary

Everything in this file is written without looking at how the program works.  The property
theorems are stated in these words; the model files do not use them.
-/

namespace K431.Spec

/-- The code points of a literal. -/
def lit (s : String) : List Int := s.toList.map (fun c => (c.toNat : Int))

/-- The capital letters `A..Z` (code points 65 to 90). -/
def IsLetter (c : Int) : Prop := 65 ≤ c ∧ c ≤ 90

instance (c : Int) : Decidable (IsLetter c) := by unfold IsLetter; infer_instance

/-- a capital or small letter or a digit -/
def IsAlnum (c : Int) : Prop := (65 ≤ c ∧ c ≤ 90) ∨ (97 ≤ c ∧ c ≤ 122) ∨ (48 ≤ c ∧ c ≤ 57)

/-- Position of a letter in the alphabet, `A` = 0. -/
def pos (c : Int) : Int := c - 65

/-- The relation that defines the DIANA table: three letters form a trigraph if their positions
add up to 25 modulo 26 (e.g. A, A, Z). -/
def Trigraph (x y z : Int) : Prop :=
  IsLetter x ∧ IsLetter y ∧ IsLetter z ∧ (pos x + pos y + pos z) % 26 = 25

/-- Capital letters of the coding legend: A-Z and Å Ä Ö. -/
def capitals : List Int := lit "ABCDEFGHIJKLMNOPQRSTUVWXYZÅÄÖ"
/-- The corresponding small letters. -/
def smalls : List Int := lit "abcdefghijklmnopqrstuvwxyzåäö"
/-- Digits, space and punctuation of the coding legend. -/
def neutrals : List Int := lit "0123456789 ?-.,:+/"

/-- The characters a user can put in a message according to the printed coding legend. -/
def alphabet : List Int := capitals ++ smalls ++ neutrals

/-- Characters of the alphabet that sit in the first table of the coding legend as they are
(capital letters except Q and Z, and space). -/
def firstTable : List Int := lit "ABCDEFGHIJKLMNOPRSTUVWXY "

/-- U+0131, small dotless i: its upper case is `I`. -/
def dotlessI : Int := 305
/-- U+017F, small long s: its upper case is `S`. -/
def longS : Int := 383

/-- U+212A, Kelvin sign: its lower case is `k`, its upper case is itself. -/
def kelvin : Int := 8490

/-- No two entries are equal. -/
abbrev Distinct {α : Type} (l : List α) : Prop := l.Nodup

/-- all words of `n` letters -/
def allWords : Nat → List (List Int)
  | 0 => [[]]
  | n + 1 => (capitals.take 26).flatMap (fun c => (allWords n).map (fun w => c :: w))

end K431.Spec
