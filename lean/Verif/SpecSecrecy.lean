import Verif.SpecRandom
import Verif.SpecStore
import Verif.Cipher
import Mathlib.Data.Set.Card
import Mathlib.Data.List.Forall2

/-!
# What the letters of the keys tell and what they hide

A store is given except for the letters of its keys.  All strings of letters are equally likely; a statement "with probability p" is a
statement about the number of possibilities.
-/

namespace K431.Spec

/-- the keys, with these letters -/
def withPads (keys : List Key) (pads : List Runes) : List Key := List.zipWith (fun k w => { k with runes := w }) keys pads

/-- a string of letters for each key, as long as the key -/
def PadsFor (keys : List Key) : Set (List Runes) := {pads | List.Forall₂ (fun k w => LetterString k.runes.length w) keys pads}

/-- Messages are enciphered one after the other; what they become, if all can be enciphered. -/
def sendAll (U : Unicode) (noise : Nat → Rune) (f : Runes) : Inst → List Msg → Option (List Msg)
  | _, [] => some []
  | inst, m :: ms =>
    match encipher U noise f inst m with
    | (.ok _, inst', m') => (sendAll U noise f inst' ms).map (fun l => m' :: l)
    | _ => none

/-- what an eavesdropper gets: key ids and ciphertexts -/
def onAir (ms : List Msg) : List (Runes × Runes) := ms.map (fun m => (m.keyId.val, m.cipherText))

/-- number of letters of ciphertext -/
def airLength (air : List (Runes × Runes)) : Nat := (air.map (fun p => p.2.length)).sum

/-- the choices of letters for which these messages go on the air as these key ids and ciphertexts -/
def Explains (U : Unicode) (noise : Nat → Rune) (f : Runes) (inst : Inst) (ms : List Msg) (air : List (Runes × Runes)) : Set (List Runes) :=
  {pads | pads ∈ PadsFor inst.keys ∧ ∃ sent, sendAll U noise f { inst with keys := withPads inst.keys pads } ms = some sent ∧ onAir sent = air}

end K431.Spec
