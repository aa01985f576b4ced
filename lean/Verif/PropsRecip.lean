import Verif.RecipTable

/-!
# The printed reciprocal table agrees with the program (C03)
-/

namespace K431
open Spec

/-- **C03.** Every cell of the printed table: the header is the alphabet, the capital letter is the
row letter, and the small letter is the trigraph the program computes. -/
theorem C03_printed_table :
    reciprocalTable.length = 27 ∧
    ∀ r < 26, ∀ c < 26,
      recHeader c = 65 + (c : Int) ∧ recRow r c = 65 + (r : Int) ∧
      trigraphRune (some 0) (some (recRow r c)) (some (recHeader c)) =
        (.ok (), some (recCell r c - 32)) := by
  decide +kernel

end K431
