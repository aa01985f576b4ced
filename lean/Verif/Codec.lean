import Verif.Basic

/-!
# Model of the coder in `cipher.go:13-382`

`codecState` has two fields that nothing reads (`keyIndex`, `lowerNibble`) and one that is always
`len(CharacterTables)` = 2 (`numberOfTables`); they are left out.
An `output *[]rune` parameter is an `Option Runes`, `none` being nil.
-/

namespace K431

/-- `specialOpChar`, cipher.go:46: '¤'. -/
def specialOpChar : Rune := 164
/-- `binaryToggleChar`, cipher.go:51: 'W'. -/
def binaryToggleChar : Rune := 87
/-- `caseToggleChar`, cipher.go:55: 'X'. -/
def caseToggleChar : Rune := 88
/-- `changeKeyChar`, cipher.go:60: 'Y'. -/
def changeKeyChar : Rune := 89
/-- `nextTableChar`, cipher.go:63: 'Z'. -/
def nextTableChar : Rune := 90
/-- `spaceChar`, cipher.go:66. -/
def spaceChar : Rune := 32
/-- `primaryTable`, cipher.go:41. -/
def primaryTable : Nat := 0
/-- `secondaryTable`, cipher.go:42. -/
def secondaryTable : Nat := 1
/-- `ControlCharactersNeededToChangeKey`, cipher.go:70. -/
def controlCharactersNeededToChangeKey : Int := 2

/-- `CharacterTablePrimary`, cipher.go:14: "ABCDEFGHIJKLMNOP RSTUVWXY¤". -/
def characterTablePrimary : Runes :=
  [65, 66, 67, 68, 69, 70, 71, 72, 73, 74, 75, 76, 77, 78, 79, 80, 32, 82, 83, 84, 85, 86, 87,
   88, 89, 164]
/-- `CharacterTableSecondary`, cipher.go:15: "0123456789?-ÅÄÖ.Q,Z:+/¤¤¤¤". -/
def characterTableSecondary : Runes :=
  [48, 49, 50, 51, 52, 53, 54, 55, 56, 57, 63, 45, 197, 196, 214, 46, 81, 44, 90, 58, 43, 47,
   164, 164, 164, 164]
/-- `CharacterTables`, cipher.go:35-37. -/
def characterTables : List Runes := [characterTablePrimary, characterTableSecondary]

/-- the numerals above spell the strings of the source -/
example : characterTablePrimary = Spec.lit "ABCDEFGHIJKLMNOP RSTUVWXY¤" := by decide
example : characterTableSecondary = Spec.lit "0123456789?-ÅÄÖ.Q,Z:+/¤¤¤¤" := by decide

/-- `codecState`, cipher.go:98-108. -/
structure CState where
  table : Nat
  charCounter : Nat
  gotChangeKeyChar : Bool
  keyChange : Bool
  shift : Bool
  binary : Bool
  deriving DecidableEq, Repr

/-- `newState`, cipher.go:110-122; `reset`, cipher.go:150-160, produces the same value. -/
def newState : CState := ⟨0, 0, false, false, false, false⟩

/-- `nextTable`, cipher.go:162-168. -/
def nextTable (st : CState) (out : Option Runes) : CState × Option Runes :=
  let st := { st with table := (st.table + 1) % characterTables.length }
  match out with
  | some o => ({ st with charCounter := st.charCounter + 1 }, some (o ++ [nextTableChar]))
  | none => (st, none)

/-- The `for` loop of `gotoTable`, cipher.go:215-220.  Three rounds of fuel always suffice
(`gotoLoop_fuel`); running out of fuel (an endless loop in Go) would be `none`. -/
def gotoLoop (target : Nat) : Nat → CState → Option Runes → Option (CState × Option Runes)
  | 0, _, _ => none
  | fuel + 1, st, out =>
    if target = st.table then some (st, out)
    else gotoLoop target fuel (nextTable st out).1 (nextTable st out).2

/-- `gotoTable`, cipher.go:199-222. -/
def gotoTable (table : Nat) (st : CState) (out : Option Runes) : Outcome (CState × Option Runes) :=
  if table ≥ characterTables.length then .err .tableOutOfRange
  else if st.table = table then .ok (st, out)
  else match gotoLoop table 3 st out with
    | some r => .ok r
    | none => .panic

/-- `toggleCase`, cipher.go:170-181. -/
def toggleCase (st : CState) (out : Option Runes) : Outcome (CState × Option Runes) :=
  match out with
  | some o =>
    match gotoTable secondaryTable st (some o) with
    | .ok (st, some o) =>
      .ok ({ st with charCounter := st.charCounter + 1, shift := !st.shift },
        some (o ++ [caseToggleChar]))
    | .ok (st, none) => .ok ({ st with shift := !st.shift }, none)
    | .err e => .err e
    | .panic => .panic
  | none => .ok ({ st with shift := !st.shift }, none)

/-- `toggleBinary`, cipher.go:183-194; only called with a nil output (cipher.go:360). -/
def toggleBinary (st : CState) (out : Option Runes) : Outcome (CState × Option Runes) :=
  match out with
  | some o =>
    match gotoTable secondaryTable st (some o) with
    | .ok (st, some o) =>
      .ok ({ st with charCounter := st.charCounter + 1, binary := !st.binary },
        some (o ++ [binaryToggleChar]))
    | .ok (st, none) => .ok ({ st with binary := !st.binary }, none)
    | .err e => .err e
    | .panic => .panic
  | none => .ok ({ st with binary := !st.binary }, none)

/-- `changeKey`, cipher.go:230-243, with non-nil arguments (the only caller passes
`&chunk.encodedText` and a key just checked not to be nil, cipher.go:589-593). -/
def changeKey (st : CState) (keyId : Runes) (out : Runes) : Outcome (CState × Runes) :=
  match gotoTable secondaryTable st (some out) with
  | .ok (st, some out) =>
    .ok ({ st with charCounter := st.charCounter + 1 + keyId.length },
      out ++ [changeKeyChar] ++ keyId)
  | .ok (st, none) => .ok (st, [])
  | .err e => .err e
  | .panic => .panic

/-- `pad`, cipher.go:249-258. -/
def pad (st : CState) : Nat → Runes → CState × Runes
  | 0, out => (st, out)
  | n + 1, out => pad { st with charCounter := st.charCounter + 1 } n (out ++ [nextTableChar])

/-- Inner loop of the table search, cipher.go:282-299: index of the first entry equal to `c`,
skipping `specialOpChar`. -/
def findInTable (c : Rune) : Nat → Runes → Option Nat
  | _, [] => none
  | i, tc :: rest =>
    if tc = specialOpChar then findInTable c (i + 1) rest
    else if c = tc then some i
    else findInTable c (i + 1) rest

/-- Outer loop, cipher.go:281-303: first table containing `c`, and the column. -/
def findInTables (c : Rune) : Nat → List Runes → Option (Nat × Nat)
  | _, [] => none
  | t, tab :: rest =>
    match findInTable c 0 tab with
    | some i => some (t, i)
    | none => findInTables c (t + 1) rest

/-- `encodeCharacter`, cipher.go:265-312.  The `panic` is the program's own
`panic("binary mode not implemented yet")`. -/
def encodeCharacter (U : Unicode) (st : CState) (input : Rune) (out : Runes) :
    Outcome (CState × Runes) :=
  if st.binary then .err .binaryMode
  else
    let afterCase : Outcome (CState × Option Runes) :=
      if (U.isUpper input && st.shift) || (U.isLower input && !st.shift) then
        toggleCase st (some out)
      else .ok (st, some out)
    match afterCase with
    | .err e => .err e
    | .panic => .panic
    | .ok (_, none) => .panic
    | .ok (st, some out) =>
      match findInTables (U.toUpper input) 0 characterTables with
      | none => .panic
      | some (t, i) =>
        match gotoTable t st (some out) with
        | .err e => .err e
        | .panic => .panic
        | .ok (_, none) => .panic
        | .ok (st, some out) =>
          .ok ({ st with charCounter := st.charCounter + 1 }, out ++ [(i : Int) + 65])

/-- `decodeCharacter`, cipher.go:316-382.  The state is returned also with an error since the
caller keeps using the message afterwards (it never uses the state again). -/
def decodeCharacter (U : Unicode) (st : CState) (input : Rune) (out : Runes) :
    Outcome (CState × Runes) :=
  if input < 65 ∨ input > 90 then .err .invalidCoding
  else if st.binary then .err .binaryMode
  else
    let st := if st.gotChangeKeyChar then { st with gotChangeKeyChar := false, keyChange := true }
      else st
    if st.keyChange then .ok (st, out)
    else
      let col := (input - 65).toNat
      match characterTables[st.table]? with
      | none => .panic
      | some tab =>
        if col ≥ tab.length then .err .tableTooShort
        else match tab[col]? with
          | none => .panic
          | some char =>
            if char = specialOpChar then
              if st.table = primaryTable then
                if input = nextTableChar then .ok ((nextTable st none).1, out)
                else .err .invalidControlChar
              else if st.table = secondaryTable then
                if input = binaryToggleChar then
                  match toggleBinary st none with
                  | .ok (st, _) => .ok (st, out)
                  | .err e => .err e
                  | .panic => .panic
                else if input = caseToggleChar then
                  match toggleCase st none with
                  | .ok (st, _) => .ok (st, out)
                  | .err e => .err e
                  | .panic => .panic
                else if input = changeKeyChar then .ok ({ st with gotChangeKeyChar := true }, out)
                else if input = nextTableChar then .ok ((nextTable st none).1, out)
                else .err .invalidControlChar
              else .err .unsupportedTable
            else
              let char := if st.shift && char != spaceChar then U.toLower char else char
              .ok ({ st with charCounter := st.charCounter + 1 }, out ++ [char])

/-- Coding a whole text without key changes (the commented-out `Encode`, cipher.go:390-407; the
loop body is that of `Encipher`, cipher.go:603). -/
def encodeAll (U : Unicode) : CState → Runes → Runes → Outcome (CState × Runes)
  | st, [], out => .ok (st, out)
  | st, x :: xs, out =>
    match encodeCharacter U st x out with
    | .ok (st, out) => encodeAll U st xs out
    | .err e => .err e
    | .panic => .panic

/-- Decoding a whole letter sequence without key changes (the commented-out `Decode`,
cipher.go:411-424; the loop body is that of `Decipher`, cipher.go:710). -/
def decodeAll (U : Unicode) : CState → Runes → Runes → Outcome (CState × Runes)
  | st, [], out => .ok (st, out)
  | st, x :: xs, out =>
    match decodeCharacter U st x out with
    | .ok (st, out) => decodeAll U st xs out
    | .err e => .err e
    | .panic => .panic

end K431
