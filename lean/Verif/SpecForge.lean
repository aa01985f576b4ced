import Verif.SpecLegend

/-!
# Altering a ciphertext on the way

What somebody between the two stations does, who knows or guesses the text but has none of the pads.
-/

namespace K431
open Spec

/-- The letter that stands for a character of the first line of the coding legend: the blank is below Q, each other character is below itself. -/
def letterFor (c : Int) : Int := if c = 32 then 81 else c

/-- Letter by letter, the ciphertext `z` of the text `t` is shifted by the difference to the text wanted; what follows the text is left as it is.  There is no pad here. -/
def forge : (t wanted z : List Int) → List Int
  | t :: ts, w :: ws, z :: zs => (65 + (pos z + pos (letterFor t) - pos (letterFor w)) % 26) :: forge ts ws zs
  | _, _, zs => zs

end K431
