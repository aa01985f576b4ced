import Verif.Krypto

/-!
# Vocabulary for keys of the persistence file and passwords
-/

namespace K431.Spec

/-- the sixteen hex digits in lower case, as bytes -/
def lowerHex : List Nat := ascii "0123456789abcdef"
/-- the six capital hex digits -/
def upperHex : List Nat := ascii "ABCDEF"

/-- a string of hex digits for `n` bytes, in either case -/
def HexString (n : Nat) (s : List Nat) : Prop := s.length = 2 * n ∧ ∀ c ∈ s, c ∈ lowerHex ∨ c ∈ upperHex

instance (n : Nat) (s : List Nat) : Decidable (HexString n s) := by unfold HexString; infer_instance

/-- the string in lower case -/
def lower (s : List Nat) : List Nat := s.map (fun c => if c ∈ upperHex then c + 32 else c)

/-- bytes -/
def Bytes (n : Nat) (b : List Nat) : Prop := b.length = n ∧ ∀ x ∈ b, x < 256

instance (n : Nat) (s : List Nat) : Decidable (Bytes n s) := by unfold Bytes; infer_instance

end K431.Spec
