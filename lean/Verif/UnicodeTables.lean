/-!
# The Unicode tables

Package `unicode` of Go is generated from the Unicode character database.  The tables here are those of Unicode 15.0.0, taken from
the data files that come with Perl 5.38 (they agree with Python's, version 14.0.0, on all characters assigned there): the general
categories Lu and Ll, the property White_Space, and the simple case mappings.  `unicode15` in `Basic.lean` is made of them.
-/

namespace K431

/-- `count` code points from `first` on, `stride` apart, mapped by adding `delta` -/
structure Run where
  first : Nat
  count : Nat
  stride : Nat
  delta : Int
  deriving DecidableEq, Repr

/-- the code point belongs to the run -/
def Run.has (r : Run) : Int → Bool
  | .ofNat n => Nat.ble r.first n && (Nat.blt n (r.first + r.stride * r.count) && Nat.beq ((n - r.first) % r.stride) 0)
  | .negSucc _ => false

/-- the code points of a run -/
def Run.all (r : Run) : List Nat := (List.range r.count).map fun i => r.first + r.stride * i

/-- the mapping that some runs describe; what is in none of them is mapped to itself -/
def mapped : List Run → Int → Int
  | [], c => c
  | r :: rs, c => bif r.has c then c + r.delta else mapped rs c

/-- a piece of a table: the runs for the code points up to `last` that are not in an earlier piece -/
structure Piece where
  last : Nat
  runs : List Run

/-- the mapping that a table in pieces describes -/
def mappedBy : List Piece → Int → Int
  | [], c => c
  | p :: ps, c => bif Nat.ble c.toNat p.last then mapped p.runs c else mappedBy ps c

/-- general category Lu (capital letters) -/
def tableLu : List Run := [
  ⟨65, 26, 1, 0⟩, ⟨192, 23, 1, 0⟩, ⟨216, 7, 1, 0⟩, ⟨256, 28, 2, 0⟩, ⟨313, 8, 2, 0⟩, ⟨330, 24, 2, 0⟩, ⟨377, 3, 2, 0⟩, ⟨385, 2, 1, 0⟩,
  ⟨388, 2, 2, 0⟩, ⟨391, 2, 2, 0⟩, ⟨394, 2, 1, 0⟩, ⟨398, 4, 1, 0⟩, ⟨403, 2, 1, 0⟩, ⟨406, 3, 1, 0⟩, ⟨412, 2, 1, 0⟩, ⟨415, 2, 1, 0⟩,
  ⟨418, 3, 2, 0⟩, ⟨423, 2, 2, 0⟩, ⟨428, 2, 2, 0⟩, ⟨431, 2, 2, 0⟩, ⟨434, 2, 1, 0⟩, ⟨437, 2, 2, 0⟩, ⟨440, 1, 1, 0⟩, ⟨444, 1, 1, 0⟩,
  ⟨452, 1, 1, 0⟩, ⟨455, 1, 1, 0⟩, ⟨458, 1, 1, 0⟩, ⟨461, 8, 2, 0⟩, ⟨478, 9, 2, 0⟩, ⟨497, 1, 1, 0⟩, ⟨500, 2, 2, 0⟩, ⟨503, 2, 1, 0⟩,
  ⟨506, 29, 2, 0⟩, ⟨570, 2, 1, 0⟩, ⟨573, 2, 1, 0⟩, ⟨577, 2, 2, 0⟩, ⟨580, 3, 1, 0⟩, ⟨584, 4, 2, 0⟩, ⟨880, 2, 2, 0⟩, ⟨886, 1, 1, 0⟩,
  ⟨895, 1, 1, 0⟩, ⟨902, 2, 2, 0⟩, ⟨905, 2, 1, 0⟩, ⟨908, 2, 2, 0⟩, ⟨911, 2, 2, 0⟩, ⟨914, 16, 1, 0⟩, ⟨931, 9, 1, 0⟩, ⟨975, 1, 1, 0⟩,
  ⟨978, 3, 1, 0⟩, ⟨984, 12, 2, 0⟩, ⟨1012, 1, 1, 0⟩, ⟨1015, 2, 2, 0⟩, ⟨1018, 1, 1, 0⟩, ⟨1021, 51, 1, 0⟩, ⟨1120, 17, 2, 0⟩, ⟨1162, 28, 2, 0⟩,
  ⟨1217, 7, 2, 0⟩, ⟨1232, 48, 2, 0⟩, ⟨1329, 38, 1, 0⟩, ⟨4256, 38, 1, 0⟩, ⟨4295, 1, 1, 0⟩, ⟨4301, 1, 1, 0⟩, ⟨5024, 86, 1, 0⟩,
  ⟨7312, 43, 1, 0⟩, ⟨7357, 3, 1, 0⟩, ⟨7680, 75, 2, 0⟩, ⟨7838, 49, 2, 0⟩, ⟨7944, 8, 1, 0⟩, ⟨7960, 6, 1, 0⟩, ⟨7976, 8, 1, 0⟩,
  ⟨7992, 8, 1, 0⟩, ⟨8008, 6, 1, 0⟩, ⟨8025, 4, 2, 0⟩, ⟨8040, 8, 1, 0⟩, ⟨8120, 4, 1, 0⟩, ⟨8136, 4, 1, 0⟩, ⟨8152, 4, 1, 0⟩, ⟨8168, 5, 1, 0⟩,
  ⟨8184, 4, 1, 0⟩, ⟨8450, 1, 1, 0⟩, ⟨8455, 1, 1, 0⟩, ⟨8459, 3, 1, 0⟩, ⟨8464, 3, 1, 0⟩, ⟨8469, 1, 1, 0⟩, ⟨8473, 5, 1, 0⟩, ⟨8484, 4, 2, 0⟩,
  ⟨8491, 3, 1, 0⟩, ⟨8496, 4, 1, 0⟩, ⟨8510, 2, 1, 0⟩, ⟨8517, 1, 1, 0⟩, ⟨8579, 1, 1, 0⟩, ⟨11264, 48, 1, 0⟩, ⟨11360, 2, 2, 0⟩,
  ⟨11363, 2, 1, 0⟩, ⟨11367, 4, 2, 0⟩, ⟨11374, 3, 1, 0⟩, ⟨11378, 1, 1, 0⟩, ⟨11381, 1, 1, 0⟩, ⟨11390, 3, 1, 0⟩, ⟨11394, 49, 2, 0⟩,
  ⟨11499, 2, 2, 0⟩, ⟨11506, 1, 1, 0⟩, ⟨42560, 23, 2, 0⟩, ⟨42624, 14, 2, 0⟩, ⟨42786, 7, 2, 0⟩, ⟨42802, 31, 2, 0⟩, ⟨42873, 3, 2, 0⟩,
  ⟨42878, 5, 2, 0⟩, ⟨42891, 2, 2, 0⟩, ⟨42896, 2, 2, 0⟩, ⟨42902, 11, 2, 0⟩, ⟨42923, 4, 1, 0⟩, ⟨42928, 5, 1, 0⟩, ⟨42934, 8, 2, 0⟩,
  ⟨42949, 3, 1, 0⟩, ⟨42953, 1, 1, 0⟩, ⟨42960, 1, 1, 0⟩, ⟨42966, 2, 2, 0⟩, ⟨42997, 1, 1, 0⟩, ⟨65313, 26, 1, 0⟩, ⟨66560, 40, 1, 0⟩,
  ⟨66736, 36, 1, 0⟩, ⟨66928, 11, 1, 0⟩, ⟨66940, 15, 1, 0⟩, ⟨66956, 7, 1, 0⟩, ⟨66964, 2, 1, 0⟩, ⟨68736, 51, 1, 0⟩, ⟨71840, 32, 1, 0⟩,
  ⟨93760, 32, 1, 0⟩, ⟨119808, 26, 1, 0⟩, ⟨119860, 26, 1, 0⟩, ⟨119912, 26, 1, 0⟩, ⟨119964, 2, 2, 0⟩, ⟨119967, 1, 1, 0⟩, ⟨119970, 1, 1, 0⟩,
  ⟨119973, 2, 1, 0⟩, ⟨119977, 4, 1, 0⟩, ⟨119982, 8, 1, 0⟩, ⟨120016, 26, 1, 0⟩, ⟨120068, 2, 1, 0⟩, ⟨120071, 4, 1, 0⟩, ⟨120077, 8, 1, 0⟩,
  ⟨120086, 7, 1, 0⟩, ⟨120120, 2, 1, 0⟩, ⟨120123, 4, 1, 0⟩, ⟨120128, 5, 1, 0⟩, ⟨120134, 1, 1, 0⟩, ⟨120138, 7, 1, 0⟩, ⟨120172, 26, 1, 0⟩,
  ⟨120224, 26, 1, 0⟩, ⟨120276, 26, 1, 0⟩, ⟨120328, 26, 1, 0⟩, ⟨120380, 26, 1, 0⟩, ⟨120432, 26, 1, 0⟩, ⟨120488, 25, 1, 0⟩,
  ⟨120546, 25, 1, 0⟩, ⟨120604, 25, 1, 0⟩, ⟨120662, 25, 1, 0⟩, ⟨120720, 25, 1, 0⟩, ⟨120778, 1, 1, 0⟩, ⟨125184, 34, 1, 0⟩]

/-- general category Ll (small letters) -/
def tableLl : List Run := [
  ⟨97, 26, 1, 0⟩, ⟨181, 1, 1, 0⟩, ⟨223, 24, 1, 0⟩, ⟨248, 8, 1, 0⟩, ⟨257, 28, 2, 0⟩, ⟨312, 9, 2, 0⟩, ⟨329, 24, 2, 0⟩, ⟨378, 3, 2, 0⟩,
  ⟨383, 2, 1, 0⟩, ⟨387, 2, 2, 0⟩, ⟨392, 1, 1, 0⟩, ⟨396, 2, 1, 0⟩, ⟨402, 1, 1, 0⟩, ⟨405, 1, 1, 0⟩, ⟨409, 3, 1, 0⟩, ⟨414, 1, 1, 0⟩,
  ⟨417, 3, 2, 0⟩, ⟨424, 2, 2, 0⟩, ⟨427, 2, 2, 0⟩, ⟨432, 1, 1, 0⟩, ⟨436, 2, 2, 0⟩, ⟨441, 2, 1, 0⟩, ⟨445, 3, 1, 0⟩, ⟨454, 1, 1, 0⟩,
  ⟨457, 1, 1, 0⟩, ⟨460, 9, 2, 0⟩, ⟨477, 10, 2, 0⟩, ⟨496, 1, 1, 0⟩, ⟨499, 2, 2, 0⟩, ⟨505, 30, 2, 0⟩, ⟨564, 6, 1, 0⟩, ⟨572, 1, 1, 0⟩,
  ⟨575, 2, 1, 0⟩, ⟨578, 1, 1, 0⟩, ⟨583, 5, 2, 0⟩, ⟨592, 68, 1, 0⟩, ⟨661, 27, 1, 0⟩, ⟨881, 2, 2, 0⟩, ⟨887, 1, 1, 0⟩, ⟨891, 3, 1, 0⟩,
  ⟨912, 1, 1, 0⟩, ⟨940, 35, 1, 0⟩, ⟨976, 2, 1, 0⟩, ⟨981, 3, 1, 0⟩, ⟨985, 12, 2, 0⟩, ⟨1008, 4, 1, 0⟩, ⟨1013, 1, 1, 0⟩, ⟨1016, 1, 1, 0⟩,
  ⟨1019, 2, 1, 0⟩, ⟨1072, 48, 1, 0⟩, ⟨1121, 17, 2, 0⟩, ⟨1163, 27, 2, 0⟩, ⟨1218, 7, 2, 0⟩, ⟨1231, 49, 2, 0⟩, ⟨1376, 41, 1, 0⟩,
  ⟨4304, 43, 1, 0⟩, ⟨4349, 3, 1, 0⟩, ⟨5112, 6, 1, 0⟩, ⟨7296, 9, 1, 0⟩, ⟨7424, 44, 1, 0⟩, ⟨7531, 13, 1, 0⟩, ⟨7545, 34, 1, 0⟩,
  ⟨7681, 75, 2, 0⟩, ⟨7830, 8, 1, 0⟩, ⟨7839, 49, 2, 0⟩, ⟨7936, 8, 1, 0⟩, ⟨7952, 6, 1, 0⟩, ⟨7968, 8, 1, 0⟩, ⟨7984, 8, 1, 0⟩, ⟨8000, 6, 1, 0⟩,
  ⟨8016, 8, 1, 0⟩, ⟨8032, 8, 1, 0⟩, ⟨8048, 14, 1, 0⟩, ⟨8064, 8, 1, 0⟩, ⟨8080, 8, 1, 0⟩, ⟨8096, 8, 1, 0⟩, ⟨8112, 5, 1, 0⟩, ⟨8118, 2, 1, 0⟩,
  ⟨8126, 1, 1, 0⟩, ⟨8130, 3, 1, 0⟩, ⟨8134, 2, 1, 0⟩, ⟨8144, 4, 1, 0⟩, ⟨8150, 2, 1, 0⟩, ⟨8160, 8, 1, 0⟩, ⟨8178, 3, 1, 0⟩, ⟨8182, 2, 1, 0⟩,
  ⟨8458, 1, 1, 0⟩, ⟨8462, 2, 1, 0⟩, ⟨8467, 1, 1, 0⟩, ⟨8495, 1, 1, 0⟩, ⟨8500, 1, 1, 0⟩, ⟨8505, 1, 1, 0⟩, ⟨8508, 2, 1, 0⟩, ⟨8518, 4, 1, 0⟩,
  ⟨8526, 1, 1, 0⟩, ⟨8580, 1, 1, 0⟩, ⟨11312, 48, 1, 0⟩, ⟨11361, 1, 1, 0⟩, ⟨11365, 2, 1, 0⟩, ⟨11368, 3, 2, 0⟩, ⟨11377, 2, 2, 0⟩,
  ⟨11380, 2, 2, 0⟩, ⟨11383, 5, 1, 0⟩, ⟨11393, 50, 2, 0⟩, ⟨11492, 1, 1, 0⟩, ⟨11500, 2, 2, 0⟩, ⟨11507, 1, 1, 0⟩, ⟨11520, 38, 1, 0⟩,
  ⟨11559, 1, 1, 0⟩, ⟨11565, 1, 1, 0⟩, ⟨42561, 23, 2, 0⟩, ⟨42625, 14, 2, 0⟩, ⟨42787, 7, 2, 0⟩, ⟨42800, 2, 1, 0⟩, ⟨42803, 32, 2, 0⟩,
  ⟨42866, 7, 1, 0⟩, ⟨42874, 2, 2, 0⟩, ⟨42879, 5, 2, 0⟩, ⟨42892, 2, 2, 0⟩, ⟨42897, 2, 2, 0⟩, ⟨42900, 2, 1, 0⟩, ⟨42903, 10, 2, 0⟩,
  ⟨42927, 1, 1, 0⟩, ⟨42933, 8, 2, 0⟩, ⟨42952, 2, 2, 0⟩, ⟨42961, 5, 2, 0⟩, ⟨42998, 1, 1, 0⟩, ⟨43002, 1, 1, 0⟩, ⟨43824, 43, 1, 0⟩,
  ⟨43872, 9, 1, 0⟩, ⟨43888, 80, 1, 0⟩, ⟨64256, 7, 1, 0⟩, ⟨64275, 5, 1, 0⟩, ⟨65345, 26, 1, 0⟩, ⟨66600, 40, 1, 0⟩, ⟨66776, 36, 1, 0⟩,
  ⟨66967, 11, 1, 0⟩, ⟨66979, 15, 1, 0⟩, ⟨66995, 7, 1, 0⟩, ⟨67003, 2, 1, 0⟩, ⟨68800, 51, 1, 0⟩, ⟨71872, 32, 1, 0⟩, ⟨93792, 32, 1, 0⟩,
  ⟨119834, 26, 1, 0⟩, ⟨119886, 7, 1, 0⟩, ⟨119894, 18, 1, 0⟩, ⟨119938, 26, 1, 0⟩, ⟨119990, 4, 1, 0⟩, ⟨119995, 2, 2, 0⟩, ⟨119998, 6, 1, 0⟩,
  ⟨120005, 11, 1, 0⟩, ⟨120042, 26, 1, 0⟩, ⟨120094, 26, 1, 0⟩, ⟨120146, 26, 1, 0⟩, ⟨120198, 26, 1, 0⟩, ⟨120250, 26, 1, 0⟩,
  ⟨120302, 26, 1, 0⟩, ⟨120354, 26, 1, 0⟩, ⟨120406, 26, 1, 0⟩, ⟨120458, 28, 1, 0⟩, ⟨120514, 25, 1, 0⟩, ⟨120540, 6, 1, 0⟩,
  ⟨120572, 25, 1, 0⟩, ⟨120598, 6, 1, 0⟩, ⟨120630, 25, 1, 0⟩, ⟨120656, 6, 1, 0⟩, ⟨120688, 25, 1, 0⟩, ⟨120714, 6, 1, 0⟩, ⟨120746, 25, 1, 0⟩,
  ⟨120772, 6, 1, 0⟩, ⟨120779, 1, 1, 0⟩, ⟨122624, 10, 1, 0⟩, ⟨122635, 20, 1, 0⟩, ⟨122661, 6, 1, 0⟩, ⟨125218, 34, 1, 0⟩]

/-- property White_Space -/
def tableSpace : List Run := [
  ⟨9, 5, 1, 0⟩, ⟨32, 1, 1, 0⟩, ⟨133, 1, 1, 0⟩, ⟨160, 1, 1, 0⟩, ⟨5760, 1, 1, 0⟩, ⟨8192, 11, 1, 0⟩, ⟨8232, 2, 1, 0⟩, ⟨8239, 1, 1, 0⟩,
  ⟨8287, 1, 1, 0⟩, ⟨12288, 1, 1, 0⟩]

/-- simple upper-case mapping -/
def tableToUpper : List Piece := [
  ⟨383, [⟨97, 26, 1, -32⟩, ⟨181, 1, 1, 743⟩, ⟨224, 23, 1, -32⟩, ⟨248, 7, 1, -32⟩, ⟨255, 1, 1, 121⟩, ⟨257, 24, 2, -1⟩, ⟨305, 1, 1, -232⟩,
    ⟨307, 3, 2, -1⟩, ⟨314, 8, 2, -1⟩, ⟨331, 23, 2, -1⟩, ⟨378, 3, 2, -1⟩, ⟨383, 1, 1, -300⟩]⟩,
  ⟨429, [⟨384, 1, 1, 195⟩, ⟨387, 2, 2, -1⟩, ⟨392, 1, 1, -1⟩, ⟨396, 1, 1, -1⟩, ⟨402, 1, 1, -1⟩, ⟨405, 1, 1, 97⟩, ⟨409, 1, 1, -1⟩,
    ⟨410, 1, 1, 163⟩, ⟨414, 1, 1, 130⟩, ⟨417, 3, 2, -1⟩, ⟨424, 1, 1, -1⟩, ⟨429, 1, 1, -1⟩]⟩,
  ⟨476, [⟨432, 1, 1, -1⟩, ⟨436, 2, 2, -1⟩, ⟨441, 1, 1, -1⟩, ⟨445, 1, 1, -1⟩, ⟨447, 1, 1, 56⟩, ⟨453, 1, 1, -1⟩, ⟨454, 1, 1, -2⟩,
    ⟨456, 1, 1, -1⟩, ⟨457, 1, 1, -2⟩, ⟨459, 1, 1, -1⟩, ⟨460, 1, 1, -2⟩, ⟨462, 8, 2, -1⟩]⟩,
  ⟨592, [⟨477, 1, 1, -79⟩, ⟨479, 9, 2, -1⟩, ⟨498, 1, 1, -1⟩, ⟨499, 1, 1, -2⟩, ⟨501, 1, 1, -1⟩, ⟨505, 20, 2, -1⟩, ⟨547, 9, 2, -1⟩,
    ⟨572, 1, 1, -1⟩, ⟨575, 2, 1, 10815⟩, ⟨578, 1, 1, -1⟩, ⟨583, 5, 2, -1⟩, ⟨592, 1, 1, 10783⟩]⟩,
  ⟨613, [⟨593, 1, 1, 10780⟩, ⟨594, 1, 1, 10782⟩, ⟨595, 1, 1, -210⟩, ⟨596, 1, 1, -206⟩, ⟨598, 2, 1, -205⟩, ⟨601, 1, 1, -202⟩,
    ⟨603, 1, 1, -203⟩, ⟨604, 1, 1, 42319⟩, ⟨608, 1, 1, -205⟩, ⟨609, 1, 1, 42315⟩, ⟨611, 1, 1, -207⟩, ⟨613, 1, 1, 42280⟩]⟩,
  ⟨640, [⟨614, 1, 1, 42308⟩, ⟨616, 1, 1, -209⟩, ⟨617, 1, 1, -211⟩, ⟨618, 1, 1, 42308⟩, ⟨619, 1, 1, 10743⟩, ⟨620, 1, 1, 42305⟩,
    ⟨623, 1, 1, -211⟩, ⟨625, 1, 1, 10749⟩, ⟨626, 1, 1, -213⟩, ⟨629, 1, 1, -214⟩, ⟨637, 1, 1, 10727⟩, ⟨640, 1, 1, -218⟩]⟩,
  ⟨883, [⟨642, 1, 1, 42307⟩, ⟨643, 1, 1, -218⟩, ⟨647, 1, 1, 42282⟩, ⟨648, 1, 1, -218⟩, ⟨649, 1, 1, -69⟩, ⟨650, 2, 1, -217⟩,
    ⟨652, 1, 1, -71⟩, ⟨658, 1, 1, -219⟩, ⟨669, 1, 1, 42261⟩, ⟨670, 1, 1, 42258⟩, ⟨837, 1, 1, 84⟩, ⟨881, 2, 2, -1⟩]⟩,
  ⟨981, [⟨887, 1, 1, -1⟩, ⟨891, 3, 1, 130⟩, ⟨940, 1, 1, -38⟩, ⟨941, 3, 1, -37⟩, ⟨945, 17, 1, -32⟩, ⟨962, 1, 1, -31⟩, ⟨963, 9, 1, -32⟩,
    ⟨972, 1, 1, -64⟩, ⟨973, 2, 1, -63⟩, ⟨976, 1, 1, -62⟩, ⟨977, 1, 1, -57⟩, ⟨981, 1, 1, -47⟩]⟩,
  ⟨1119, [⟨982, 1, 1, -54⟩, ⟨983, 1, 1, -8⟩, ⟨985, 12, 2, -1⟩, ⟨1008, 1, 1, -86⟩, ⟨1009, 1, 1, -80⟩, ⟨1010, 1, 1, 7⟩, ⟨1011, 1, 1, -116⟩,
    ⟨1013, 1, 1, -96⟩, ⟨1016, 1, 1, -1⟩, ⟨1019, 1, 1, -1⟩, ⟨1072, 32, 1, -32⟩, ⟨1104, 16, 1, -80⟩]⟩,
  ⟨7298, [⟨1121, 17, 2, -1⟩, ⟨1163, 27, 2, -1⟩, ⟨1218, 7, 2, -1⟩, ⟨1231, 1, 1, -15⟩, ⟨1233, 48, 2, -1⟩, ⟨1377, 38, 1, -48⟩,
    ⟨4304, 43, 1, 3008⟩, ⟨4349, 3, 1, 3008⟩, ⟨5112, 6, 1, -8⟩, ⟨7296, 1, 1, -6254⟩, ⟨7297, 1, 1, -6253⟩, ⟨7298, 1, 1, -6244⟩]⟩,
  ⟨7943, [⟨7299, 2, 1, -6242⟩, ⟨7301, 1, 1, -6243⟩, ⟨7302, 1, 1, -6236⟩, ⟨7303, 1, 1, -6181⟩, ⟨7304, 1, 1, 35266⟩, ⟨7545, 1, 1, 35332⟩,
    ⟨7549, 1, 1, 3814⟩, ⟨7566, 1, 1, 35384⟩, ⟨7681, 75, 2, -1⟩, ⟨7835, 1, 1, -59⟩, ⟨7841, 48, 2, -1⟩, ⟨7936, 8, 1, 8⟩]⟩,
  ⟨8061, [⟨7952, 6, 1, 8⟩, ⟨7968, 8, 1, 8⟩, ⟨7984, 8, 1, 8⟩, ⟨8000, 6, 1, 8⟩, ⟨8017, 4, 2, 8⟩, ⟨8032, 8, 1, 8⟩, ⟨8048, 2, 1, 74⟩,
    ⟨8050, 4, 1, 86⟩, ⟨8054, 2, 1, 100⟩, ⟨8056, 2, 1, 128⟩, ⟨8058, 2, 1, 112⟩, ⟨8060, 2, 1, 126⟩]⟩,
  ⟨8526, [⟨8064, 8, 1, 8⟩, ⟨8080, 8, 1, 8⟩, ⟨8096, 8, 1, 8⟩, ⟨8112, 2, 1, 8⟩, ⟨8115, 1, 1, 9⟩, ⟨8126, 1, 1, -7205⟩, ⟨8131, 1, 1, 9⟩,
    ⟨8144, 2, 1, 8⟩, ⟨8160, 2, 1, 8⟩, ⟨8165, 1, 1, 7⟩, ⟨8179, 1, 1, 9⟩, ⟨8526, 1, 1, -28⟩]⟩,
  ⟨11502, [⟨8560, 16, 1, -16⟩, ⟨8580, 1, 1, -1⟩, ⟨9424, 26, 1, -26⟩, ⟨11312, 48, 1, -48⟩, ⟨11361, 1, 1, -1⟩, ⟨11365, 1, 1, -10795⟩,
    ⟨11366, 1, 1, -10792⟩, ⟨11368, 3, 2, -1⟩, ⟨11379, 1, 1, -1⟩, ⟨11382, 1, 1, -1⟩, ⟨11393, 50, 2, -1⟩, ⟨11500, 2, 2, -1⟩]⟩,
  ⟨42899, [⟨11507, 1, 1, -1⟩, ⟨11520, 38, 1, -7264⟩, ⟨11559, 1, 1, -7264⟩, ⟨11565, 1, 1, -7264⟩, ⟨42561, 23, 2, -1⟩, ⟨42625, 14, 2, -1⟩,
    ⟨42787, 7, 2, -1⟩, ⟨42803, 31, 2, -1⟩, ⟨42874, 2, 2, -1⟩, ⟨42879, 5, 2, -1⟩, ⟨42892, 1, 1, -1⟩, ⟨42897, 2, 2, -1⟩]⟩,
  ⟨66811, [⟨42900, 1, 1, 48⟩, ⟨42903, 10, 2, -1⟩, ⟨42933, 8, 2, -1⟩, ⟨42952, 2, 2, -1⟩, ⟨42961, 1, 1, -1⟩, ⟨42967, 2, 2, -1⟩,
    ⟨42998, 1, 1, -1⟩, ⟨43859, 1, 1, -928⟩, ⟨43888, 80, 1, -38864⟩, ⟨65345, 26, 1, -32⟩, ⟨66600, 40, 1, -40⟩, ⟨66776, 36, 1, -40⟩]⟩,
  ⟨125251, [⟨66967, 11, 1, -39⟩, ⟨66979, 15, 1, -39⟩, ⟨66995, 7, 1, -39⟩, ⟨67003, 2, 1, -39⟩, ⟨68800, 51, 1, -64⟩, ⟨71872, 32, 1, -32⟩,
    ⟨93792, 32, 1, -32⟩, ⟨125218, 34, 1, -34⟩]⟩]

/-- simple lower-case mapping -/
def tableToLower : List Piece := [
  ⟨388, [⟨65, 26, 1, 32⟩, ⟨192, 23, 1, 32⟩, ⟨216, 7, 1, 32⟩, ⟨256, 24, 2, 1⟩, ⟨304, 1, 1, -199⟩, ⟨306, 3, 2, 1⟩, ⟨313, 8, 2, 1⟩,
    ⟨330, 23, 2, 1⟩, ⟨376, 1, 1, -121⟩, ⟨377, 3, 2, 1⟩, ⟨385, 1, 1, 210⟩, ⟨386, 2, 2, 1⟩]⟩,
  ⟨407, [⟨390, 1, 1, 206⟩, ⟨391, 1, 1, 1⟩, ⟨393, 2, 1, 205⟩, ⟨395, 1, 1, 1⟩, ⟨398, 1, 1, 79⟩, ⟨399, 1, 1, 202⟩, ⟨400, 1, 1, 203⟩,
    ⟨401, 1, 1, 1⟩, ⟨403, 1, 1, 205⟩, ⟨404, 1, 1, 207⟩, ⟨406, 1, 1, 211⟩, ⟨407, 1, 1, 209⟩]⟩,
  ⟨434, [⟨408, 1, 1, 1⟩, ⟨412, 1, 1, 211⟩, ⟨413, 1, 1, 213⟩, ⟨415, 1, 1, 214⟩, ⟨416, 3, 2, 1⟩, ⟨422, 1, 1, 218⟩, ⟨423, 1, 1, 1⟩,
    ⟨425, 1, 1, 218⟩, ⟨428, 1, 1, 1⟩, ⟨430, 1, 1, 218⟩, ⟨431, 1, 1, 1⟩, ⟨433, 2, 1, 217⟩]⟩,
  ⟨497, [⟨435, 2, 2, 1⟩, ⟨439, 1, 1, 219⟩, ⟨440, 1, 1, 1⟩, ⟨444, 1, 1, 1⟩, ⟨452, 1, 1, 2⟩, ⟨453, 1, 1, 1⟩, ⟨455, 1, 1, 2⟩, ⟨456, 1, 1, 1⟩,
    ⟨458, 1, 1, 2⟩, ⟨459, 9, 2, 1⟩, ⟨478, 9, 2, 1⟩, ⟨497, 1, 1, 2⟩]⟩,
  ⟨579, [⟨498, 2, 2, 1⟩, ⟨502, 1, 1, -97⟩, ⟨503, 1, 1, -56⟩, ⟨504, 20, 2, 1⟩, ⟨544, 1, 1, -130⟩, ⟨546, 9, 2, 1⟩, ⟨570, 1, 1, 10795⟩,
    ⟨571, 1, 1, 1⟩, ⟨573, 1, 1, -163⟩, ⟨574, 1, 1, 10792⟩, ⟨577, 1, 1, 1⟩, ⟨579, 1, 1, -195⟩]⟩,
  ⟨939, [⟨580, 1, 1, 69⟩, ⟨581, 1, 1, 71⟩, ⟨582, 5, 2, 1⟩, ⟨880, 2, 2, 1⟩, ⟨886, 1, 1, 1⟩, ⟨895, 1, 1, 116⟩, ⟨902, 1, 1, 38⟩,
    ⟨904, 3, 1, 37⟩, ⟨908, 1, 1, 64⟩, ⟨910, 2, 1, 63⟩, ⟨913, 17, 1, 32⟩, ⟨931, 9, 1, 32⟩]⟩,
  ⟨1216, [⟨975, 1, 1, 8⟩, ⟨984, 12, 2, 1⟩, ⟨1012, 1, 1, -60⟩, ⟨1015, 1, 1, 1⟩, ⟨1017, 1, 1, -7⟩, ⟨1018, 1, 1, 1⟩, ⟨1021, 3, 1, -130⟩,
    ⟨1024, 16, 1, 80⟩, ⟨1040, 32, 1, 32⟩, ⟨1120, 17, 2, 1⟩, ⟨1162, 27, 2, 1⟩, ⟨1216, 1, 1, 15⟩]⟩,
  ⟨7838, [⟨1217, 7, 2, 1⟩, ⟨1232, 48, 2, 1⟩, ⟨1329, 38, 1, 48⟩, ⟨4256, 38, 1, 7264⟩, ⟨4295, 1, 1, 7264⟩, ⟨4301, 1, 1, 7264⟩,
    ⟨5024, 80, 1, 38864⟩, ⟨5104, 6, 1, 8⟩, ⟨7312, 43, 1, -3008⟩, ⟨7357, 3, 1, -3008⟩, ⟨7680, 75, 2, 1⟩, ⟨7838, 1, 1, -7615⟩]⟩,
  ⟨8121, [⟨7840, 48, 2, 1⟩, ⟨7944, 8, 1, -8⟩, ⟨7960, 6, 1, -8⟩, ⟨7976, 8, 1, -8⟩, ⟨7992, 8, 1, -8⟩, ⟨8008, 6, 1, -8⟩, ⟨8025, 4, 2, -8⟩,
    ⟨8040, 8, 1, -8⟩, ⟨8072, 8, 1, -8⟩, ⟨8088, 8, 1, -8⟩, ⟨8104, 8, 1, -8⟩, ⟨8120, 2, 1, -8⟩]⟩,
  ⟨8188, [⟨8122, 2, 1, -74⟩, ⟨8124, 1, 1, -9⟩, ⟨8136, 4, 1, -86⟩, ⟨8140, 1, 1, -9⟩, ⟨8152, 2, 1, -8⟩, ⟨8154, 2, 1, -100⟩, ⟨8168, 2, 1, -8⟩,
    ⟨8170, 2, 1, -112⟩, ⟨8172, 1, 1, -7⟩, ⟨8184, 2, 1, -128⟩, ⟨8186, 2, 1, -126⟩, ⟨8188, 1, 1, -9⟩]⟩,
  ⟨11364, [⟨8486, 1, 1, -7517⟩, ⟨8490, 1, 1, -8383⟩, ⟨8491, 1, 1, -8262⟩, ⟨8498, 1, 1, 28⟩, ⟨8544, 16, 1, 16⟩, ⟨8579, 1, 1, 1⟩,
    ⟨9398, 26, 1, 26⟩, ⟨11264, 48, 1, 48⟩, ⟨11360, 1, 1, 1⟩, ⟨11362, 1, 1, -10743⟩, ⟨11363, 1, 1, -3814⟩, ⟨11364, 1, 1, -10727⟩]⟩,
  ⟨42604, [⟨11367, 3, 2, 1⟩, ⟨11373, 1, 1, -10780⟩, ⟨11374, 1, 1, -10749⟩, ⟨11375, 1, 1, -10783⟩, ⟨11376, 1, 1, -10782⟩, ⟨11378, 1, 1, 1⟩,
    ⟨11381, 1, 1, 1⟩, ⟨11390, 2, 1, -10815⟩, ⟨11392, 50, 2, 1⟩, ⟨11499, 2, 2, 1⟩, ⟨11506, 1, 1, 1⟩, ⟨42560, 23, 2, 1⟩]⟩,
  ⟨42923, [⟨42624, 14, 2, 1⟩, ⟨42786, 7, 2, 1⟩, ⟨42802, 31, 2, 1⟩, ⟨42873, 2, 2, 1⟩, ⟨42877, 1, 1, -35332⟩, ⟨42878, 5, 2, 1⟩,
    ⟨42891, 1, 1, 1⟩, ⟨42893, 1, 1, -42280⟩, ⟨42896, 2, 2, 1⟩, ⟨42902, 10, 2, 1⟩, ⟨42922, 1, 1, -42308⟩, ⟨42923, 1, 1, -42319⟩]⟩,
  ⟨42953, [⟨42924, 1, 1, -42315⟩, ⟨42925, 1, 1, -42305⟩, ⟨42926, 1, 1, -42308⟩, ⟨42928, 1, 1, -42258⟩, ⟨42929, 1, 1, -42282⟩,
    ⟨42930, 1, 1, -42261⟩, ⟨42931, 1, 1, 928⟩, ⟨42932, 8, 2, 1⟩, ⟨42948, 1, 1, -48⟩, ⟨42949, 1, 1, -42307⟩, ⟨42950, 1, 1, -35384⟩,
    ⟨42951, 2, 2, 1⟩]⟩,
  ⟨71871, [⟨42960, 1, 1, 1⟩, ⟨42966, 2, 2, 1⟩, ⟨42997, 1, 1, 1⟩, ⟨65313, 26, 1, 32⟩, ⟨66560, 40, 1, 40⟩, ⟨66736, 36, 1, 40⟩,
    ⟨66928, 11, 1, 39⟩, ⟨66940, 15, 1, 39⟩, ⟨66956, 7, 1, 39⟩, ⟨66964, 2, 1, 39⟩, ⟨68736, 51, 1, 64⟩, ⟨71840, 32, 1, 32⟩]⟩,
  ⟨125217, [⟨93760, 32, 1, 32⟩, ⟨125184, 34, 1, 34⟩]⟩]

end K431
