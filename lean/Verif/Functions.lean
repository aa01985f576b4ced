import Verif.Basic

/-!
# Model of the helper functions in `functions.go` and of the Go string functions they use

Strings are lists of code points.
-/

namespace K431

/-- Is the rune a valid code point, i.e. preserved by `string([]rune)`?  (Go specification,
conversions to string: values outside the range of valid code points become U+FFFD.) -/
def validRune (r : Rune) : Bool := (0 ≤ r ∧ r < 55296) ∨ (57343 < r ∧ r ≤ 1114111)

/-- `string(runes)`. -/
def goStr (s : Runes) : Runes := s.map (fun r => if validRune r then r else 65533)

/-- `strings.TrimSpace`. -/
def trimSpace (U : Unicode) (s : Runes) : Runes :=
  ((s.dropWhile U.isSpace).reverse.dropWhile U.isSpace).reverse

/-- `strings.ToUpper` (`strings.Map(unicode.ToUpper, s)`). -/
def toUpperStr (U : Unicode) (s : Runes) : Runes := s.map U.toUpper

/-- Loop of `EqualRunes`, functions.go:233-237, on slices of equal length. -/
def equalLoop : Runes → Runes → Bool
  | a :: as, b :: bs => if a ≠ b then false else equalLoop as bs
  | _, _ => true

/-- `EqualRunes`, functions.go:223-239.  nil pointers are `none`. -/
def equalRunes (a b : Option Runes) : Bool :=
  match a, b with
  | none, none => true
  | some a, some b => if a.length ≠ b.length then false else equalLoop a b
  | _, _ => false

/-- Loop of `EqualRunesFold`, functions.go:253-257. -/
def equalFoldLoop (U : Unicode) : Runes → Runes → Bool
  | a :: as, b :: bs => if U.toUpper a ≠ U.toUpper b then false else equalFoldLoop U as bs
  | _, _ => true

/-- `EqualRunesFold`, functions.go:243-259. -/
def equalRunesFold (U : Unicode) (a b : Option Runes) : Bool :=
  match a, b with
  | none, none => true
  | some a, some b => if a.length ≠ b.length then false else equalFoldLoop U a b
  | _, _ => false

/-- The comparison chosen by the optional `caseInsensitive` argument, functions.go:105-113. -/
def eqBy (U : Unicode) (ci : Bool) (h n : Runes) : Bool :=
  if ci then equalRunesFold U (some h) (some n) else equalRunes (some h) (some n)

/-- Inner loop of `AllNeedlesInHaystack`, functions.go:104-114: is the needle somewhere? -/
def needleIn (U : Unicode) (ci : Bool) (n : Runes) : List Runes → Bool
  | [] => false
  | h :: hs => if eqBy U ci h n then true else needleIn U ci n hs

/-- Outer loop, functions.go:103-116. -/
def allNeedlesLoop (U : Unicode) (ci : Bool) (haystack : List Runes) : List Runes → Bool
  | [] => true
  | n :: ns => if needleIn U ci n haystack then allNeedlesLoop U ci haystack ns else false

/-- `AllNeedlesInHaystack`, functions.go:95-118. -/
def allNeedlesInHaystack (U : Unicode) (needles haystack : Option (List Runes)) (ci : Bool) : Bool :=
  match needles, haystack with
  | some ns, some hs =>
    if ns.length = 0 ∨ hs.length = 0 then false else allNeedlesLoop U ci hs ns
  | _, _ => false

/-- Loops of `AnyNeedleInHaystack`, functions.go:127-133. -/
def anyNeedleLoop (U : Unicode) (haystack : List Runes) : List Runes → Bool
  | [] => false
  | n :: ns => if needleIn U false n haystack then true else anyNeedleLoop U haystack ns

/-- `AnyNeedleInHaystack`, functions.go:120-135. -/
def anyNeedleInHaystack (U : Unicode) (needles haystack : Option (List Runes)) : Bool :=
  match needles, haystack with
  | some ns, some hs =>
    if ns.length = 0 ∨ hs.length = 0 then false else anyNeedleLoop U hs ns
  | _, _ => false

/-- `AnyOfThem`, functions.go:137-150. -/
def anyOfThem (U : Unicode) (haystack : Option (List Runes)) (needle : Option Runes) : Bool :=
  match haystack, needle with
  | some hs, some n => if n.length = 0 then false else needleIn U false n hs
  | _, _ => false

/-- `strings.FieldsFunc(s, f)`: maximal runs of runes not satisfying `f`.  `cur` is the run being
collected (reversed). -/
def fieldsLoop (f : Rune → Bool) : Runes → Runes → List Runes
  | [], cur => if cur = [] then [] else [cur.reverse]
  | c :: cs, cur =>
    if f c then (if cur = [] then fieldsLoop f cs [] else cur.reverse :: fieldsLoop f cs [])
    else fieldsLoop f cs (c :: cur)

/-- `strings.FieldsFunc`. -/
def fieldsFunc (f : Rune → Bool) (s : Runes) : List Runes := fieldsLoop f s []

/-- separator function of `VettedKeepers`, functions.go:171-173: comma or space -/
def isSep (c : Rune) : Bool := c == 44 || c == 32

/-- Inner loop of `VettedKeepers`, functions.go:176-181. -/
def vetFields (g : Runes → Runes) : List Runes → List Runes
  | [] => []
  | s :: ss => if (g s).length > 0 then g s :: vetFields g ss else vetFields g ss

/-- `VettedKeepers`, functions.go:170-184 (and its aliases VettedRecipients, VettedCallSigns,
VettedKeys). -/
def vettedKeepers (U : Unicode) (args : List Runes) : List Runes :=
  args.flatMap (fun a => vetFields (fun s => toUpperStr U (trimSpace U s)) (fieldsFunc isSep a))

/-- `VettedMessageIds`, functions.go:204-219: the same without upper-casing. -/
def vettedMessageIds (U : Unicode) (args : List Runes) : List Runes :=
  args.flatMap (fun a => vetFields (fun s => trimSpace U s) (fieldsFunc isSep a))

/-- `TrimRightRuneFunc`, functions.go:16-25. -/
def trimRight (f : Rune → Bool) (s : Runes) : Runes := (s.reverse.dropWhile f).reverse

/-- Loop of `groups`, functions.go:69-87.  `cols` is `columns`, `lb` the platform's line break;
`rc`, `oc` are `runeCount`, `outCount`. -/
def groupsLoop (lb : Runes) (gs cols : Int) : Runes → Int → Int → Runes
  | [], _, _ => []
  | c :: cs, rc, oc =>
    if rc + 1 = gs then
      if cs ≠ [] then
        if cols > 0 ∧ oc + 1 ≥ cols - gs - 1 then c :: (lb ++ groupsLoop lb gs cols cs 0 0)
        else c :: 32 :: groupsLoop lb gs cols cs 0 (oc + 1 + 1)
      else c :: groupsLoop lb gs cols cs 0 (oc + 1)
    else c :: groupsLoop lb gs cols cs (rc + 1) (oc + 1)

/-- `groups`, functions.go:61-89. -/
def groups (lb : Runes) (input : Option Runes) (groupsize columns : Int) : Outcome Runes :=
  match input with
  | none => .err .nilPointer
  | some s => if groupsize ≤ 0 then .err .other else .ok (groupsLoop lb groupsize columns s 0 0)

/-- Loop of `padding`, functions.go:373-379 -/
def padding (s : Runes) (fieldLength : Int) : Runes :=
  List.replicate (fieldLength - s.length).toNat 32

/-- `withPadding`, functions.go:381-383 -/
def withPadding (s : Runes) (fieldLength : Int) : Runes := s ++ padding s fieldLength

/-- `math.MinInt` on a 64-bit platform -/
def minInt : Int := -9223372036854775808
/-- `math.MaxInt` on a 64-bit platform -/
def maxInt : Int := 9223372036854775807

/-- loop of `HighestInt`, functions.go:392-396 -/
def highestLoop : List Int → Int → Int
  | [], h => h
  | n :: ns, h => highestLoop ns (if n > h then n else h)

/-- `HighestInt`, functions.go:386-398 -/
def highestInt (ns : List Int) : Int :=
  if ns.length = 0 then 0 else highestLoop ns minInt

/-- loop of `LowestInt`, functions.go:407-411 -/
def lowestLoop : List Int → Int → Int
  | [], l => l
  | n :: ns, l => lowestLoop ns (if n < l then n else l)

/-- `LowestInt`, functions.go:401-413 -/
def lowestInt (ns : List Int) : Int :=
  if ns.length = 0 then 0 else lowestLoop ns maxInt

end K431
