import Verif.SpecForge

/-!
# Reading over one text what another says

What somebody does who has two ciphertexts made with the letters of one pad, and knows or guesses one of the two texts.
-/

namespace K431
open Spec

/-- The character above a letter in the first line of the coding legend: the blank is above Q, each other character is above itself. -/
def charAbove (c : Int) : Int := if c = 81 then 32 else c

/-- Letter by letter, the text `t` is shifted by the difference of its ciphertext `z` to the other ciphertext `z'`.  There is no pad here. -/
def readOver : (t z z' : List Int) → List Int
  | t :: ts, z :: zs, z' :: zs' => charAbove (65 + (pos (letterFor t) + pos z - pos z') % 26) :: readOver ts zs zs'
  | _, _, _ => []

end K431
