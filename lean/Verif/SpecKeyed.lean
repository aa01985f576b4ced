import Verif.Cli

/-!
# Having the file key
-/

namespace K431

namespace Spec

/-- The file key can be got from what the user gives: a key in hexadecimal form, or a password (as option or entered) with whatever salt. -/
def Provided (E : PwEnv) (pfk : Option (List Nat)) (passwords : List (Option (List Nat))) (key : List Nat) : Prop :=
  (∃ t b, pfk = some t ∧ hexDecode t = some b ∧ b.take 32 = key) ∨ (∃ pw salt, some pw ∈ passwords ∧ (E.kdf pw salt).take 32 = key)

/-- The file is one that `Save` has written with this key, or the beginning of one. -/
def SealedWith (C : Codec) (disk : Disk) (path key : List Nat) : Prop := ∃ n w i, disk path = some ((C.enc key n w).take i)

/-- The command ends with an error, prints nothing and has not written to any file. -/
def Refused (r : Course) (disk : Disk) : Prop := r.outcome ≠ .ok () ∧ r.state.printed = [] ∧ r.state.touched = [] ∧ r.state.disk = disk

end Spec

end K431
