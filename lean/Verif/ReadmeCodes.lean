import Verif.SpecReadme

/-!
# The code points of the tables in README.md, and all pairs of letters looked up in them
-/

namespace K431
open Spec

/-- the code points of the first table -/
def readmeTableCodes : List (List Int) := [
  [65, 32, 32, 66, 32, 32, 67, 32, 32, 68, 32, 32, 69, 32, 32, 70, 32, 32, 71, 32, 32, 72, 32, 32, 73, 32, 32, 74, 32, 32, 75, 32, 32, 76, 32, 32, 77, 32, 32, 78, 32, 32, 79, 32, 32, 80, 32, 32, 81, 32, 32, 82, 32, 32, 83, 32, 32, 84, 32, 32, 85, 32, 32, 86, 32, 32, 87, 32, 32, 88, 32, 32, 89, 32, 32, 90],
  [65, 122, 32, 65, 121, 32, 65, 120, 32, 65, 119, 32, 65, 118, 32, 65, 117, 32, 65, 116, 32, 65, 115, 32, 65, 114, 32, 65, 113, 32, 65, 112, 32, 65, 111, 32, 65, 110, 32, 65, 109, 32, 65, 108, 32, 65, 107, 32, 65, 106, 32, 65, 105, 32, 65, 104, 32, 65, 103, 32, 65, 102, 32, 65, 101, 32, 65, 100, 32, 65, 99, 32, 65, 98, 32, 65, 97],
  [66, 121, 32, 66, 120, 32, 66, 119, 32, 66, 118, 32, 66, 117, 32, 66, 116, 32, 66, 115, 32, 66, 114, 32, 66, 113, 32, 66, 112, 32, 66, 111, 32, 66, 110, 32, 66, 109, 32, 66, 108, 32, 66, 107, 32, 66, 106, 32, 66, 105, 32, 66, 104, 32, 66, 103, 32, 66, 102, 32, 66, 101, 32, 66, 100, 32, 66, 99, 32, 66, 98, 32, 66, 97, 32, 66, 122],
  [67, 120, 32, 67, 119, 32, 67, 118, 32, 67, 117, 32, 67, 116, 32, 67, 115, 32, 67, 114, 32, 67, 113, 32, 67, 112, 32, 67, 111, 32, 67, 110, 32, 67, 109, 32, 67, 108, 32, 67, 107, 32, 67, 106, 32, 67, 105, 32, 67, 104, 32, 67, 103, 32, 67, 102, 32, 67, 101, 32, 67, 100, 32, 67, 99, 32, 67, 98, 32, 67, 97, 32, 67, 122, 32, 67, 121],
  [68, 119, 32, 68, 118, 32, 68, 117, 32, 68, 116, 32, 68, 115, 32, 68, 114, 32, 68, 113, 32, 68, 112, 32, 68, 111, 32, 68, 110, 32, 68, 109, 32, 68, 108, 32, 68, 107, 32, 68, 106, 32, 68, 105, 32, 68, 104, 32, 68, 103, 32, 68, 102, 32, 68, 101, 32, 68, 100, 32, 68, 99, 32, 68, 98, 32, 68, 97, 32, 68, 122, 32, 68, 121, 32, 68, 120],
  [69, 118, 32, 69, 117, 32, 69, 116, 32, 69, 115, 32, 69, 114, 32, 69, 113, 32, 69, 112, 32, 69, 111, 32, 69, 110, 32, 69, 109, 32, 69, 108, 32, 69, 107, 32, 69, 106, 32, 69, 105, 32, 69, 104, 32, 69, 103, 32, 69, 102, 32, 69, 101, 32, 69, 100, 32, 69, 99, 32, 69, 98, 32, 69, 97, 32, 69, 122, 32, 69, 121, 32, 69, 120, 32, 69, 119],
  [70, 117, 32, 70, 116, 32, 70, 115, 32, 70, 114, 32, 70, 113, 32, 70, 112, 32, 70, 111, 32, 70, 110, 32, 70, 109, 32, 70, 108, 32, 70, 107, 32, 70, 106, 32, 70, 105, 32, 70, 104, 32, 70, 103, 32, 70, 102, 32, 70, 101, 32, 70, 100, 32, 70, 99, 32, 70, 98, 32, 70, 97, 32, 70, 122, 32, 70, 121, 32, 70, 120, 32, 70, 119, 32, 70, 118],
  [71, 116, 32, 71, 115, 32, 71, 114, 32, 71, 113, 32, 71, 112, 32, 71, 111, 32, 71, 110, 32, 71, 109, 32, 71, 108, 32, 71, 107, 32, 71, 106, 32, 71, 105, 32, 71, 104, 32, 71, 103, 32, 71, 102, 32, 71, 101, 32, 71, 100, 32, 71, 99, 32, 71, 98, 32, 71, 97, 32, 71, 122, 32, 71, 121, 32, 71, 120, 32, 71, 119, 32, 71, 118, 32, 71, 117],
  [72, 115, 32, 72, 114, 32, 72, 113, 32, 72, 112, 32, 72, 111, 32, 72, 110, 32, 72, 109, 32, 72, 108, 32, 72, 107, 32, 72, 106, 32, 72, 105, 32, 72, 104, 32, 72, 103, 32, 72, 102, 32, 72, 101, 32, 72, 100, 32, 72, 99, 32, 72, 98, 32, 72, 97, 32, 72, 122, 32, 72, 121, 32, 72, 120, 32, 72, 119, 32, 72, 118, 32, 72, 117, 32, 72, 116],
  [73, 114, 32, 73, 113, 32, 73, 112, 32, 73, 111, 32, 73, 110, 32, 73, 109, 32, 73, 108, 32, 73, 107, 32, 73, 106, 32, 73, 105, 32, 73, 104, 32, 73, 103, 32, 73, 102, 32, 73, 101, 32, 73, 100, 32, 73, 99, 32, 73, 98, 32, 73, 97, 32, 73, 122, 32, 73, 121, 32, 73, 120, 32, 73, 119, 32, 73, 118, 32, 73, 117, 32, 73, 116, 32, 73, 115],
  [74, 113, 32, 74, 112, 32, 74, 111, 32, 74, 110, 32, 74, 109, 32, 74, 108, 32, 74, 107, 32, 74, 106, 32, 74, 105, 32, 74, 104, 32, 74, 103, 32, 74, 102, 32, 74, 101, 32, 74, 100, 32, 74, 99, 32, 74, 98, 32, 74, 97, 32, 74, 122, 32, 74, 121, 32, 74, 120, 32, 74, 119, 32, 74, 118, 32, 74, 117, 32, 74, 116, 32, 74, 115, 32, 74, 114],
  [75, 112, 32, 75, 111, 32, 75, 110, 32, 75, 109, 32, 75, 108, 32, 75, 107, 32, 75, 106, 32, 75, 105, 32, 75, 104, 32, 75, 103, 32, 75, 102, 32, 75, 101, 32, 75, 100, 32, 75, 99, 32, 75, 98, 32, 75, 97, 32, 75, 122, 32, 75, 121, 32, 75, 120, 32, 75, 119, 32, 75, 118, 32, 75, 117, 32, 75, 116, 32, 75, 115, 32, 75, 114, 32, 75, 113],
  [76, 111, 32, 76, 110, 32, 76, 109, 32, 76, 108, 32, 76, 107, 32, 76, 106, 32, 76, 105, 32, 76, 104, 32, 76, 103, 32, 76, 102, 32, 76, 101, 32, 76, 100, 32, 76, 99, 32, 76, 98, 32, 76, 97, 32, 76, 122, 32, 76, 121, 32, 76, 120, 32, 76, 119, 32, 76, 118, 32, 76, 117, 32, 76, 116, 32, 76, 115, 32, 76, 114, 32, 76, 113, 32, 76, 112],
  [77, 110, 32, 77, 109, 32, 77, 108, 32, 77, 107, 32, 77, 106, 32, 77, 105, 32, 77, 104, 32, 77, 103, 32, 77, 102, 32, 77, 101, 32, 77, 100, 32, 77, 99, 32, 77, 98, 32, 77, 97, 32, 77, 122, 32, 77, 121, 32, 77, 120, 32, 77, 119, 32, 77, 118, 32, 77, 117, 32, 77, 116, 32, 77, 115, 32, 77, 114, 32, 77, 113, 32, 77, 112, 32, 77, 111],
  [78, 109, 32, 78, 108, 32, 78, 107, 32, 78, 106, 32, 78, 105, 32, 78, 104, 32, 78, 103, 32, 78, 102, 32, 78, 101, 32, 78, 100, 32, 78, 99, 32, 78, 98, 32, 78, 97, 32, 78, 122, 32, 78, 121, 32, 78, 120, 32, 78, 119, 32, 78, 118, 32, 78, 117, 32, 78, 116, 32, 78, 115, 32, 78, 114, 32, 78, 113, 32, 78, 112, 32, 78, 111, 32, 78, 110],
  [79, 108, 32, 79, 107, 32, 79, 106, 32, 79, 105, 32, 79, 104, 32, 79, 103, 32, 79, 102, 32, 79, 101, 32, 79, 100, 32, 79, 99, 32, 79, 98, 32, 79, 97, 32, 79, 122, 32, 79, 121, 32, 79, 120, 32, 79, 119, 32, 79, 118, 32, 79, 117, 32, 79, 116, 32, 79, 115, 32, 79, 114, 32, 79, 113, 32, 79, 112, 32, 79, 111, 32, 79, 110, 32, 79, 109],
  [80, 107, 32, 80, 106, 32, 80, 105, 32, 80, 104, 32, 80, 103, 32, 80, 102, 32, 80, 101, 32, 80, 100, 32, 80, 99, 32, 80, 98, 32, 80, 97, 32, 80, 122, 32, 80, 121, 32, 80, 120, 32, 80, 119, 32, 80, 118, 32, 80, 117, 32, 80, 116, 32, 80, 115, 32, 80, 114, 32, 80, 113, 32, 80, 112, 32, 80, 111, 32, 80, 110, 32, 80, 109, 32, 80, 108],
  [81, 106, 32, 81, 105, 32, 81, 104, 32, 81, 103, 32, 81, 102, 32, 81, 101, 32, 81, 100, 32, 81, 99, 32, 81, 98, 32, 81, 97, 32, 81, 122, 32, 81, 121, 32, 81, 120, 32, 81, 119, 32, 81, 118, 32, 81, 117, 32, 81, 116, 32, 81, 115, 32, 81, 114, 32, 81, 113, 32, 81, 112, 32, 81, 111, 32, 81, 110, 32, 81, 109, 32, 81, 108, 32, 81, 107],
  [82, 105, 32, 82, 104, 32, 82, 103, 32, 82, 102, 32, 82, 101, 32, 82, 100, 32, 82, 99, 32, 82, 98, 32, 82, 97, 32, 82, 122, 32, 82, 121, 32, 82, 120, 32, 82, 119, 32, 82, 118, 32, 82, 117, 32, 82, 116, 32, 82, 115, 32, 82, 114, 32, 82, 113, 32, 82, 112, 32, 82, 111, 32, 82, 110, 32, 82, 109, 32, 82, 108, 32, 82, 107, 32, 82, 106],
  [83, 104, 32, 83, 103, 32, 83, 102, 32, 83, 101, 32, 83, 100, 32, 83, 99, 32, 83, 98, 32, 83, 97, 32, 83, 122, 32, 83, 121, 32, 83, 120, 32, 83, 119, 32, 83, 118, 32, 83, 117, 32, 83, 116, 32, 83, 115, 32, 83, 114, 32, 83, 113, 32, 83, 112, 32, 83, 111, 32, 83, 110, 32, 83, 109, 32, 83, 108, 32, 83, 107, 32, 83, 106, 32, 83, 105],
  [84, 103, 32, 84, 102, 32, 84, 101, 32, 84, 100, 32, 84, 99, 32, 84, 98, 32, 84, 97, 32, 84, 122, 32, 84, 121, 32, 84, 120, 32, 84, 119, 32, 84, 118, 32, 84, 117, 32, 84, 116, 32, 84, 115, 32, 84, 114, 32, 84, 113, 32, 84, 112, 32, 84, 111, 32, 84, 110, 32, 84, 109, 32, 84, 108, 32, 84, 107, 32, 84, 106, 32, 84, 105, 32, 84, 104],
  [85, 102, 32, 85, 101, 32, 85, 100, 32, 85, 99, 32, 85, 98, 32, 85, 97, 32, 85, 122, 32, 85, 121, 32, 85, 120, 32, 85, 119, 32, 85, 118, 32, 85, 117, 32, 85, 116, 32, 85, 115, 32, 85, 114, 32, 85, 113, 32, 85, 112, 32, 85, 111, 32, 85, 110, 32, 85, 109, 32, 85, 108, 32, 85, 107, 32, 85, 106, 32, 85, 105, 32, 85, 104, 32, 85, 103],
  [86, 101, 32, 86, 100, 32, 86, 99, 32, 86, 98, 32, 86, 97, 32, 86, 122, 32, 86, 121, 32, 86, 120, 32, 86, 119, 32, 86, 118, 32, 86, 117, 32, 86, 116, 32, 86, 115, 32, 86, 114, 32, 86, 113, 32, 86, 112, 32, 86, 111, 32, 86, 110, 32, 86, 109, 32, 86, 108, 32, 86, 107, 32, 86, 106, 32, 86, 105, 32, 86, 104, 32, 86, 103, 32, 86, 102],
  [87, 100, 32, 87, 99, 32, 87, 98, 32, 87, 97, 32, 87, 122, 32, 87, 121, 32, 87, 120, 32, 87, 119, 32, 87, 118, 32, 87, 117, 32, 87, 116, 32, 87, 115, 32, 87, 114, 32, 87, 113, 32, 87, 112, 32, 87, 111, 32, 87, 110, 32, 87, 109, 32, 87, 108, 32, 87, 107, 32, 87, 106, 32, 87, 105, 32, 87, 104, 32, 87, 103, 32, 87, 102, 32, 87, 101],
  [88, 99, 32, 88, 98, 32, 88, 97, 32, 88, 122, 32, 88, 121, 32, 88, 120, 32, 88, 119, 32, 88, 118, 32, 88, 117, 32, 88, 116, 32, 88, 115, 32, 88, 114, 32, 88, 113, 32, 88, 112, 32, 88, 111, 32, 88, 110, 32, 88, 109, 32, 88, 108, 32, 88, 107, 32, 88, 106, 32, 88, 105, 32, 88, 104, 32, 88, 103, 32, 88, 102, 32, 88, 101, 32, 88, 100],
  [89, 98, 32, 89, 97, 32, 89, 122, 32, 89, 121, 32, 89, 120, 32, 89, 119, 32, 89, 118, 32, 89, 117, 32, 89, 116, 32, 89, 115, 32, 89, 114, 32, 89, 113, 32, 89, 112, 32, 89, 111, 32, 89, 110, 32, 89, 109, 32, 89, 108, 32, 89, 107, 32, 89, 106, 32, 89, 105, 32, 89, 104, 32, 89, 103, 32, 89, 102, 32, 89, 101, 32, 89, 100, 32, 89, 99],
  [90, 97, 32, 90, 122, 32, 90, 121, 32, 90, 120, 32, 90, 119, 32, 90, 118, 32, 90, 117, 32, 90, 116, 32, 90, 115, 32, 90, 114, 32, 90, 113, 32, 90, 112, 32, 90, 111, 32, 90, 110, 32, 90, 109, 32, 90, 108, 32, 90, 107, 32, 90, 106, 32, 90, 105, 32, 90, 104, 32, 90, 103, 32, 90, 102, 32, 90, 101, 32, 90, 100, 32, 90, 99, 32, 90, 98]]

set_option maxRecDepth 4000 in
theorem readmeTable_codes : readmeTable.map lit = readmeTableCodes := by
  simp [readmeTable, readmeTableCodes, lit]

/-- the code points of the other arrangement -/
def readmeOtherCodes : List (List Int) := [
  [32, 32, 65, 32, 66, 32, 67, 32, 68, 32, 69, 32, 70, 32, 71, 32, 72, 32, 73, 32, 74, 32, 75, 32, 76, 32, 77, 32, 78, 32, 79, 32, 80, 32, 81, 32, 82, 32, 83, 32, 84, 32, 85, 32, 86, 32, 87, 32, 88, 32, 89, 32, 90],
  [65, 32, 65, 32, 65, 32, 65, 32, 65, 32, 65, 32, 65, 32, 65, 32, 65, 32, 65, 32, 65, 32, 65, 32, 65, 32, 65, 32, 65, 32, 65, 32, 65, 32, 65, 32, 65, 32, 65, 32, 65, 32, 65, 32, 65, 32, 65, 32, 65, 32, 65, 32, 65],
  [32, 32, 90, 32, 89, 32, 88, 32, 87, 32, 86, 32, 85, 32, 84, 32, 83, 32, 82, 32, 81, 32, 80, 32, 79, 32, 78, 32, 77, 32, 76, 32, 75, 32, 74, 32, 73, 32, 72, 32, 71, 32, 70, 32, 69, 32, 68, 32, 67, 32, 66, 32, 65],
  [],
  [66, 32, 66, 32, 66, 32, 66, 32, 66, 32, 66, 32, 66, 32, 66, 32, 66, 32, 66, 32, 66, 32, 66, 32, 66, 32, 66, 32, 66, 32, 66, 32, 66, 32, 66, 32, 66, 32, 66, 32, 66, 32, 66, 32, 66, 32, 66, 32, 66, 32, 66, 32, 66],
  [32, 32, 89, 32, 88, 32, 87, 32, 86, 32, 85, 32, 84, 32, 83, 32, 82, 32, 81, 32, 80, 32, 79, 32, 78, 32, 77, 32, 76, 32, 75, 32, 74, 32, 73, 32, 72, 32, 71, 32, 70, 32, 69, 32, 68, 32, 67, 32, 66, 32, 65, 32, 90],
  [],
  [67, 32, 67, 32, 67, 32, 67, 32, 67, 32, 67, 32, 67, 32, 67, 32, 67, 32, 67, 32, 67, 32, 67, 32, 67, 32, 67, 32, 67, 32, 67, 32, 67, 32, 67, 32, 67, 32, 67, 32, 67, 32, 67, 32, 67, 32, 67, 32, 67, 32, 67, 32, 67],
  [32, 32, 88, 32, 87, 32, 86, 32, 85, 32, 84, 32, 83, 32, 82, 32, 81, 32, 80, 32, 79, 32, 78, 32, 77, 32, 76, 32, 75, 32, 74, 32, 73, 32, 72, 32, 71, 32, 70, 32, 69, 32, 68, 32, 67, 32, 66, 32, 65, 32, 90, 32, 89],
  [],
  [68, 32, 68, 32, 68, 32, 68, 32, 68, 32, 68, 32, 68, 32, 68, 32, 68, 32, 68, 32, 68, 32, 68, 32, 68, 32, 68, 32, 68, 32, 68, 32, 68, 32, 68, 32, 68, 32, 68, 32, 68, 32, 68, 32, 68, 32, 68, 32, 68, 32, 68, 32, 68],
  [32, 32, 87, 32, 86, 32, 85, 32, 84, 32, 83, 32, 82, 32, 81, 32, 80, 32, 79, 32, 78, 32, 77, 32, 76, 32, 75, 32, 74, 32, 73, 32, 72, 32, 71, 32, 70, 32, 69, 32, 68, 32, 67, 32, 66, 32, 65, 32, 90, 32, 89, 32, 88],
  [],
  [69, 32, 69, 32, 69, 32, 69, 32, 69, 32, 69, 32, 69, 32, 69, 32, 69, 32, 69, 32, 69, 32, 69, 32, 69, 32, 69, 32, 69, 32, 69, 32, 69, 32, 69, 32, 69, 32, 69, 32, 69, 32, 69, 32, 69, 32, 69, 32, 69, 32, 69, 32, 69],
  [32, 32, 86, 32, 85, 32, 84, 32, 83, 32, 82, 32, 81, 32, 80, 32, 79, 32, 78, 32, 77, 32, 76, 32, 75, 32, 74, 32, 73, 32, 72, 32, 71, 32, 70, 32, 69, 32, 68, 32, 67, 32, 66, 32, 65, 32, 90, 32, 89, 32, 88, 32, 87],
  [],
  [70, 32, 70, 32, 70, 32, 70, 32, 70, 32, 70, 32, 70, 32, 70, 32, 70, 32, 70, 32, 70, 32, 70, 32, 70, 32, 70, 32, 70, 32, 70, 32, 70, 32, 70, 32, 70, 32, 70, 32, 70, 32, 70, 32, 70, 32, 70, 32, 70, 32, 70, 32, 70],
  [32, 32, 85, 32, 84, 32, 83, 32, 82, 32, 81, 32, 80, 32, 79, 32, 78, 32, 77, 32, 76, 32, 75, 32, 74, 32, 73, 32, 72, 32, 71, 32, 70, 32, 69, 32, 68, 32, 67, 32, 66, 32, 65, 32, 90, 32, 89, 32, 88, 32, 87, 32, 86],
  [],
  [71, 32, 71, 32, 71, 32, 71, 32, 71, 32, 71, 32, 71, 32, 71, 32, 71, 32, 71, 32, 71, 32, 71, 32, 71, 32, 71, 32, 71, 32, 71, 32, 71, 32, 71, 32, 71, 32, 71, 32, 71, 32, 71, 32, 71, 32, 71, 32, 71, 32, 71, 32, 71],
  [32, 32, 84, 32, 83, 32, 82, 32, 81, 32, 80, 32, 79, 32, 78, 32, 77, 32, 76, 32, 75, 32, 74, 32, 73, 32, 72, 32, 71, 32, 70, 32, 69, 32, 68, 32, 67, 32, 66, 32, 65, 32, 90, 32, 89, 32, 88, 32, 87, 32, 86, 32, 85],
  [],
  [72, 32, 72, 32, 72, 32, 72, 32, 72, 32, 72, 32, 72, 32, 72, 32, 72, 32, 72, 32, 72, 32, 72, 32, 72, 32, 72, 32, 72, 32, 72, 32, 72, 32, 72, 32, 72, 32, 72, 32, 72, 32, 72, 32, 72, 32, 72, 32, 72, 32, 72, 32, 72],
  [32, 32, 83, 32, 82, 32, 81, 32, 80, 32, 79, 32, 78, 32, 77, 32, 76, 32, 75, 32, 74, 32, 73, 32, 72, 32, 71, 32, 70, 32, 69, 32, 68, 32, 67, 32, 66, 32, 65, 32, 90, 32, 89, 32, 88, 32, 87, 32, 86, 32, 85, 32, 84],
  [],
  [73, 32, 73, 32, 73, 32, 73, 32, 73, 32, 73, 32, 73, 32, 73, 32, 73, 32, 73, 32, 73, 32, 73, 32, 73, 32, 73, 32, 73, 32, 73, 32, 73, 32, 73, 32, 73, 32, 73, 32, 73, 32, 73, 32, 73, 32, 73, 32, 73, 32, 73, 32, 73],
  [32, 32, 82, 32, 81, 32, 80, 32, 79, 32, 78, 32, 77, 32, 76, 32, 75, 32, 74, 32, 73, 32, 72, 32, 71, 32, 70, 32, 69, 32, 68, 32, 67, 32, 66, 32, 65, 32, 90, 32, 89, 32, 88, 32, 87, 32, 86, 32, 85, 32, 84, 32, 83],
  [],
  [74, 32, 74, 32, 74, 32, 74, 32, 74, 32, 74, 32, 74, 32, 74, 32, 74, 32, 74, 32, 74, 32, 74, 32, 74, 32, 74, 32, 74, 32, 74, 32, 74, 32, 74, 32, 74, 32, 74, 32, 74, 32, 74, 32, 74, 32, 74, 32, 74, 32, 74, 32, 74],
  [32, 32, 81, 32, 80, 32, 79, 32, 78, 32, 77, 32, 76, 32, 75, 32, 74, 32, 73, 32, 72, 32, 71, 32, 70, 32, 69, 32, 68, 32, 67, 32, 66, 32, 65, 32, 90, 32, 89, 32, 88, 32, 87, 32, 86, 32, 85, 32, 84, 32, 83, 32, 82],
  [],
  [75, 32, 75, 32, 75, 32, 75, 32, 75, 32, 75, 32, 75, 32, 75, 32, 75, 32, 75, 32, 75, 32, 75, 32, 75, 32, 75, 32, 75, 32, 75, 32, 75, 32, 75, 32, 75, 32, 75, 32, 75, 32, 75, 32, 75, 32, 75, 32, 75, 32, 75, 32, 75],
  [32, 32, 80, 32, 79, 32, 78, 32, 77, 32, 76, 32, 75, 32, 74, 32, 73, 32, 72, 32, 71, 32, 70, 32, 69, 32, 68, 32, 67, 32, 66, 32, 65, 32, 90, 32, 89, 32, 88, 32, 87, 32, 86, 32, 85, 32, 84, 32, 83, 32, 82, 32, 81],
  [],
  [76, 32, 76, 32, 76, 32, 76, 32, 76, 32, 76, 32, 76, 32, 76, 32, 76, 32, 76, 32, 76, 32, 76, 32, 76, 32, 76, 32, 76, 32, 76, 32, 76, 32, 76, 32, 76, 32, 76, 32, 76, 32, 76, 32, 76, 32, 76, 32, 76, 32, 76, 32, 76],
  [32, 32, 79, 32, 78, 32, 77, 32, 76, 32, 75, 32, 74, 32, 73, 32, 72, 32, 71, 32, 70, 32, 69, 32, 68, 32, 67, 32, 66, 32, 65, 32, 90, 32, 89, 32, 88, 32, 87, 32, 86, 32, 85, 32, 84, 32, 83, 32, 82, 32, 81, 32, 80],
  [],
  [77, 32, 77, 32, 77, 32, 77, 32, 77, 32, 77, 32, 77, 32, 77, 32, 77, 32, 77, 32, 77, 32, 77, 32, 77, 32, 77, 32, 77, 32, 77, 32, 77, 32, 77, 32, 77, 32, 77, 32, 77, 32, 77, 32, 77, 32, 77, 32, 77, 32, 77, 32, 77, 32],
  [32, 32, 78, 32, 77, 32, 76, 32, 75, 32, 74, 32, 73, 32, 72, 32, 71, 32, 70, 32, 69, 32, 68, 32, 67, 32, 66, 32, 65, 32, 90, 32, 89, 32, 88, 32, 87, 32, 86, 32, 85, 32, 84, 32, 83, 32, 82, 32, 81, 32, 80, 32, 79],
  [],
  [78, 32, 78, 32, 78, 32, 78, 32, 78, 32, 78, 32, 78, 32, 78, 32, 78, 32, 78, 32, 78, 32, 78, 32, 78, 32, 78, 32, 78, 32, 78, 32, 78, 32, 78, 32, 78, 32, 78, 32, 78, 32, 78, 32, 78, 32, 78, 32, 78, 32, 78, 32, 78],
  [32, 32, 77, 32, 76, 32, 75, 32, 74, 32, 73, 32, 72, 32, 71, 32, 70, 32, 69, 32, 68, 32, 67, 32, 66, 32, 65, 32, 90, 32, 89, 32, 88, 32, 87, 32, 86, 32, 85, 32, 84, 32, 83, 32, 82, 32, 81, 32, 80, 32, 79, 32, 78],
  [],
  [79, 32, 79, 32, 79, 32, 79, 32, 79, 32, 79, 32, 79, 32, 79, 32, 79, 32, 79, 32, 79, 32, 79, 32, 79, 32, 79, 32, 79, 32, 79, 32, 79, 32, 79, 32, 79, 32, 79, 32, 79, 32, 79, 32, 79, 32, 79, 32, 79, 32, 79, 32, 79],
  [32, 32, 76, 32, 75, 32, 74, 32, 73, 32, 72, 32, 71, 32, 70, 32, 69, 32, 68, 32, 67, 32, 66, 32, 65, 32, 90, 32, 89, 32, 88, 32, 87, 32, 86, 32, 85, 32, 84, 32, 83, 32, 82, 32, 81, 32, 80, 32, 79, 32, 78, 32, 77],
  [],
  [80, 32, 80, 32, 80, 32, 80, 32, 80, 32, 80, 32, 80, 32, 80, 32, 80, 32, 80, 32, 80, 32, 80, 32, 80, 32, 80, 32, 80, 32, 80, 32, 80, 32, 80, 32, 80, 32, 80, 32, 80, 32, 80, 32, 80, 32, 80, 32, 80, 32, 80, 32, 80],
  [32, 32, 75, 32, 74, 32, 73, 32, 72, 32, 71, 32, 70, 32, 69, 32, 68, 32, 67, 32, 66, 32, 65, 32, 90, 32, 89, 32, 88, 32, 87, 32, 86, 32, 85, 32, 84, 32, 83, 32, 82, 32, 81, 32, 80, 32, 79, 32, 78, 32, 77, 32, 76],
  [],
  [81, 32, 81, 32, 81, 32, 81, 32, 81, 32, 81, 32, 81, 32, 81, 32, 81, 32, 81, 32, 81, 32, 81, 32, 81, 32, 81, 32, 81, 32, 81, 32, 81, 32, 81, 32, 81, 32, 81, 32, 81, 32, 81, 32, 81, 32, 81, 32, 81, 32, 81, 32, 81],
  [32, 32, 74, 32, 73, 32, 72, 32, 71, 32, 70, 32, 69, 32, 68, 32, 67, 32, 66, 32, 65, 32, 90, 32, 89, 32, 88, 32, 87, 32, 86, 32, 85, 32, 84, 32, 83, 32, 82, 32, 81, 32, 80, 32, 79, 32, 78, 32, 77, 32, 76, 32, 75],
  [],
  [82, 32, 82, 32, 82, 32, 82, 32, 82, 32, 82, 32, 82, 32, 82, 32, 82, 32, 82, 32, 82, 32, 82, 32, 82, 32, 82, 32, 82, 32, 82, 32, 82, 32, 82, 32, 82, 32, 82, 32, 82, 32, 82, 32, 82, 32, 82, 32, 82, 32, 82, 32, 82],
  [32, 32, 73, 32, 72, 32, 71, 32, 70, 32, 69, 32, 68, 32, 67, 32, 66, 32, 65, 32, 90, 32, 89, 32, 88, 32, 87, 32, 86, 32, 85, 32, 84, 32, 83, 32, 82, 32, 81, 32, 80, 32, 79, 32, 78, 32, 77, 32, 76, 32, 75, 32, 74],
  [],
  [83, 32, 83, 32, 83, 32, 83, 32, 83, 32, 83, 32, 83, 32, 83, 32, 83, 32, 83, 32, 83, 32, 83, 32, 83, 32, 83, 32, 83, 32, 83, 32, 83, 32, 83, 32, 83, 32, 83, 32, 83, 32, 83, 32, 83, 32, 83, 32, 83, 32, 83, 32, 83],
  [32, 32, 72, 32, 71, 32, 70, 32, 69, 32, 68, 32, 67, 32, 66, 32, 65, 32, 90, 32, 89, 32, 88, 32, 87, 32, 86, 32, 85, 32, 84, 32, 83, 32, 82, 32, 81, 32, 80, 32, 79, 32, 78, 32, 77, 32, 76, 32, 75, 32, 74, 32, 73],
  [],
  [84, 32, 84, 32, 84, 32, 84, 32, 84, 32, 84, 32, 84, 32, 84, 32, 84, 32, 84, 32, 84, 32, 84, 32, 84, 32, 84, 32, 84, 32, 84, 32, 84, 32, 84, 32, 84, 32, 84, 32, 84, 32, 84, 32, 84, 32, 84, 32, 84, 32, 84, 32, 84],
  [32, 32, 71, 32, 70, 32, 69, 32, 68, 32, 67, 32, 66, 32, 65, 32, 90, 32, 89, 32, 88, 32, 87, 32, 86, 32, 85, 32, 84, 32, 83, 32, 82, 32, 81, 32, 80, 32, 79, 32, 78, 32, 77, 32, 76, 32, 75, 32, 74, 32, 73, 32, 72],
  [],
  [85, 32, 85, 32, 85, 32, 85, 32, 85, 32, 85, 32, 85, 32, 85, 32, 85, 32, 85, 32, 85, 32, 85, 32, 85, 32, 85, 32, 85, 32, 85, 32, 85, 32, 85, 32, 85, 32, 85, 32, 85, 32, 85, 32, 85, 32, 85, 32, 85, 32, 85, 32, 85],
  [32, 32, 70, 32, 69, 32, 68, 32, 67, 32, 66, 32, 65, 32, 90, 32, 89, 32, 88, 32, 87, 32, 86, 32, 85, 32, 84, 32, 83, 32, 82, 32, 81, 32, 80, 32, 79, 32, 78, 32, 77, 32, 76, 32, 75, 32, 74, 32, 73, 32, 72, 32, 71],
  [],
  [86, 32, 86, 32, 86, 32, 86, 32, 86, 32, 86, 32, 86, 32, 86, 32, 86, 32, 86, 32, 86, 32, 86, 32, 86, 32, 86, 32, 86, 32, 86, 32, 86, 32, 86, 32, 86, 32, 86, 32, 86, 32, 86, 32, 86, 32, 86, 32, 86, 32, 86, 32, 86],
  [32, 32, 69, 32, 68, 32, 67, 32, 66, 32, 65, 32, 90, 32, 89, 32, 88, 32, 87, 32, 86, 32, 85, 32, 84, 32, 83, 32, 82, 32, 81, 32, 80, 32, 79, 32, 78, 32, 77, 32, 76, 32, 75, 32, 74, 32, 73, 32, 72, 32, 71, 32, 70],
  [],
  [87, 32, 87, 32, 87, 32, 87, 32, 87, 32, 87, 32, 87, 32, 87, 32, 87, 32, 87, 32, 87, 32, 87, 32, 87, 32, 87, 32, 87, 32, 87, 32, 87, 32, 87, 32, 87, 32, 87, 32, 87, 32, 87, 32, 87, 32, 87, 32, 87, 32, 87, 32, 87],
  [32, 32, 68, 32, 67, 32, 66, 32, 65, 32, 90, 32, 89, 32, 88, 32, 87, 32, 86, 32, 85, 32, 84, 32, 83, 32, 82, 32, 81, 32, 80, 32, 79, 32, 78, 32, 77, 32, 76, 32, 75, 32, 74, 32, 73, 32, 72, 32, 71, 32, 70, 32, 69],
  [],
  [88, 32, 88, 32, 88, 32, 88, 32, 88, 32, 88, 32, 88, 32, 88, 32, 88, 32, 88, 32, 88, 32, 88, 32, 88, 32, 88, 32, 88, 32, 88, 32, 88, 32, 88, 32, 88, 32, 88, 32, 88, 32, 88, 32, 88, 32, 88, 32, 88, 32, 88, 32, 88],
  [32, 32, 67, 32, 66, 32, 65, 32, 90, 32, 89, 32, 88, 32, 87, 32, 86, 32, 85, 32, 84, 32, 83, 32, 82, 32, 81, 32, 80, 32, 79, 32, 78, 32, 77, 32, 76, 32, 75, 32, 74, 32, 73, 32, 72, 32, 71, 32, 70, 32, 69, 32, 68],
  [],
  [89, 32, 89, 32, 89, 32, 89, 32, 89, 32, 89, 32, 89, 32, 89, 32, 89, 32, 89, 32, 89, 32, 89, 32, 89, 32, 89, 32, 89, 32, 89, 32, 89, 32, 89, 32, 89, 32, 89, 32, 89, 32, 89, 32, 89, 32, 89, 32, 89, 32, 89, 32, 89],
  [32, 32, 66, 32, 65, 32, 90, 32, 89, 32, 88, 32, 87, 32, 86, 32, 85, 32, 84, 32, 83, 32, 82, 32, 81, 32, 80, 32, 79, 32, 78, 32, 77, 32, 76, 32, 75, 32, 74, 32, 73, 32, 72, 32, 71, 32, 70, 32, 69, 32, 68, 32, 67],
  [],
  [90, 32, 90, 32, 90, 32, 90, 32, 90, 32, 90, 32, 90, 32, 90, 32, 90, 32, 90, 32, 90, 32, 90, 32, 90, 32, 90, 32, 90, 32, 90, 32, 90, 32, 90, 32, 90, 32, 90, 32, 90, 32, 90, 32, 90, 32, 90, 32, 90, 32, 90, 32, 90],
  [32, 32, 65, 32, 90, 32, 89, 32, 88, 32, 87, 32, 86, 32, 85, 32, 84, 32, 83, 32, 82, 32, 81, 32, 80, 32, 79, 32, 78, 32, 77, 32, 76, 32, 75, 32, 74, 32, 73, 32, 72, 32, 71, 32, 70, 32, 69, 32, 68, 32, 67, 32, 66]]

set_option maxRecDepth 4000 in
theorem readmeOther_codes : readmeOther.map lit = readmeOtherCodes := by
  simp [readmeOther, readmeOtherCodes, lit]

/-- all pairs of letters in the first table -/
theorem lookUp_all : ∀ m < 26, ∀ k < 26, lookUp (65 + (m : Nat)) (65 + (k : Nat)) = some (65 + (25 - m - k : Int) % 26) := by
  unfold lookUp
  rw [readmeTable_codes]
  decide +kernel

/-- and in the other -/
theorem lookUpOther_all : ∀ m < 26, ∀ k < 26, lookUpOther (65 + (m : Nat)) (65 + (k : Nat)) = some (65 + (25 - m - k : Int) % 26) := by
  unfold lookUpOther
  rw [readmeOther_codes]
  decide +kernel

end K431
