import Mathlib.Data.Set.Defs
import Verif.Spec

/-! # Specification vocabulary: random choices

The system's random source is uniform: of the tapes of a given length, each is equally likely.  An event is as likely as
another if equally many tapes of each length lead to it.
-/

namespace K431.Spec

/-- the words are 64-bit words -/
def Words (t : List Nat) : Prop := ∀ w ∈ t, w < 2 ^ 64

/-- tapes of `L` words for which the condition holds -/
def Tapes (L : Nat) (C : List Nat → Prop) : Set (List Nat) := {t | Words t ∧ t.length = L ∧ C t}

/-- `k` letters A to Z -/
def LetterString (k : Nat) (s : List Int) : Prop := s.length = k ∧ ∀ c ∈ s, IsLetter c

/-- `k` letters or digits -/
def AlnumString (k : Nat) (s : List Int) : Prop := s.length = k ∧ ∀ c ∈ s, IsAlnum c

end K431.Spec
