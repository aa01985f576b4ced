import Verif.Messages
import Verif.Cipher

/-!
# Model of the summaries: `SummaryOfKeys` (keys.go:278-337), `SummaryOfMessages` (messages.go:406-469), column sizes
(functions.go:287-371), `DeleteMessagesBySummaryString` (messages.go:346-357)

Dates are written by the library `dtg`: their text is a parameter.  So is the digest of a message (library `blox`).
-/

namespace K431

/-- `len` of an ASCII string literal -/
def lenStr (s : String) : Int := ((Spec.lit s).length : Int)

/-- `RunesToStrings` and `strings.Join`, functions.go:154-165 (also `JoinKeepers`, `JoinRecipients`). -/
def joinRunes (sep : Runes) : List Runes → Runes
  | [] => []
  | [x] => goStr x
  | x :: xs => goStr x ++ sep ++ joinRunes sep xs

/-- `Words["Yes"]` or `Words["No"]`, krypto431.go:72-75 (`UsedString`, `CompromisedString`, keys.go:239-261). -/
def yesNo (b : Bool) : Runes := if b then Spec.lit "Yes" else Spec.lit "No"

/-- Columns 2 and 7, the ones that depend on the keys: loop of `predictColumnSizesOfKeys`, functions.go:307-329. -/
def keySizesLoop : List Key → Int × Int → Int × Int
  | [], s => s
  | k :: ks, (keepers, comment) =>
    let keepers :=
      if k.keepers.length = 0 then (if keepers < lenStr "Anonymous" then lenStr "Anonymous" else keepers)
      else
        let n : Int := ((k.keepers.map (fun s => s.val.length + 1)).sum : Nat)
        if n > 0 ∧ keepers < n then n - 1 else keepers
    let clen : Int := k.comment.length
    keySizesLoop ks (keepers, if comment < clen then clen else comment)

/-- `predictColumnSizesOfKeys`, functions.go:291-332. -/
def keySizes (groupSize : Nat) (keys : List Key) : List Int :=
  if keys.length > 0 then
    let s := keySizesLoop keys (lenStr "KEEPERS", 0)
    [groupSize, s.1, lenStr "012345ZJAN23", lenStr "012345ZJAN23", highestInt [lenStr "No", lenStr "Yes", lenStr "USED"],
      highestInt [lenStr "No", lenStr "Yes", lenStr "COMPROMISED"], s.2]
  else [0, 0, 0, 0, 0, 0, 0]

/-- A header: the names of the columns, padded except for the last (keys.go:297-309, messages.go:426-438). -/
def headerOf : List String → List Int → Runes
  | [], _ => []
  | _, [] => []
  | h :: _, [_] => Spec.lit h
  | h :: hs, n :: n' :: ns => Spec.lit h ++ List.replicate (n - lenStr h + 1).toNat 32 ++ headerOf hs (n' :: ns)

/-- The line of a key, keys.go:312-334. -/
def keyLine (date : Int → Runes) (sizes : List Int) (k : Key) : Runes :=
  let size := fun i => sizes.getD i 0
  withPadding k.id.val (size 0 + 1) ++
  withPadding (if k.keepers.length > 0 then joinRunes (Spec.lit ",") k.names else Spec.lit "Anonymous") (size 1 + 1) ++
  withPadding (date k.created) (size 2 + 1) ++
  withPadding (date k.expires) (size 3 + 1) ++
  withPadding (yesNo k.used) (size 4 + 1) ++
  withPadding (yesNo k.compromised) (size 5 + 1) ++
  withPadding k.comment (size 6 + 1)

/-- `SummaryOfKeys`, keys.go:278-337. -/
def summaryOfKeys (date : Int → Runes) (filter : Key → Bool) (inst : Inst) : Runes × List Runes :=
  let kp := inst.keys.filter filter
  let sizes := keySizes inst.groupSize kp
  (headerOf ["ID", "KEEPERS", "CREATED", "EXPIRES", "USED", "COMPROMISED", "COMMENT"] sizes, kp.map (keyLine date sizes))

/-- Columns 3 and 4: loop of `predictColumnSizesOfMessages`, functions.go:347-369. -/
def msgSizesLoop : List Msg → Int × Int → Int × Int
  | [], s => s
  | m :: ms, (recipients, from_) =>
    let recipients :=
      if m.recipients.length = 0 then (if recipients < lenStr "NIL" then lenStr "NIL" else recipients)
      else
        let n : Int := ((m.recipients.map (fun s => s.length + 1)).sum : Nat)
        if n > 0 ∧ recipients < n then n - 1 else recipients
    let flen : Int := m.from_.length
    msgSizesLoop ms (recipients, if from_ < flen then flen else from_)

/-- `predictColumnSizesOfMessages`, functions.go:334-371. -/
def msgSizes (msgs : List Msg) : List Int :=
  let s := msgSizesLoop msgs (lenStr "TO", lenStr "DE")
  [4, lenStr "012345ZJAN23", s.1, s.2, 35]

/-- The line of a message, messages.go:441-466. -/
def msgLine (date : Int → Runes) (digest : Msg → Runes) (sizes : List Int) (m : Msg) : Runes :=
  let size := fun i => sizes.getD i 0
  withPadding m.id (size 0 + 1) ++
  withPadding (date m.dtg) (size 1 + 1) ++
  withPadding (if m.recipients.length > 0 then joinRunes (Spec.lit ",") m.recipients else Spec.lit "NIL") (size 2 + 1) ++
  withPadding (if m.from_.length > 0 then m.from_ else Spec.lit "NIL") (size 3 + 1) ++
  digest m

/-- The first loop of `SummaryOfMessages`, messages.go:408-416: it tries to decipher every selected message.  `fresh` are the ids given to
messages without one.  Result: the positions of the selected messages. -/
def scanMessages (U : Unicode) (fresh : Nat → Runes) (filter : Msg → Bool) : List Nat → Inst → Outcome (Inst × List Nat)
  | [], inst => .ok (inst, [])
  | i :: is, inst =>
    match inst.messages[i]? with
    | none => .panic
    | some m =>
      if filter m then
        let r := tryDecipher U (fresh i) true inst m
        let inst1 := { r.2.1 with messages := r.2.1.messages.set i r.2.2 }
        let after : Outcome Inst :=
          match r.1 with
          | .panic => .panic
          | .err _ => .ok inst1
          | .ok _ =>
            let r' := tryDecipher U (fresh i) false inst1 r.2.2
            match r'.1 with
            | .panic => .panic
            | _ => .ok { r'.2.1 with messages := r'.2.1.messages.set i r'.2.2 }
        match after with
        | .ok inst2 =>
          match scanMessages U fresh filter is inst2 with
          | .ok (inst3, sel) => .ok (inst3, i :: sel)
          | .err e => .err e
          | .panic => .panic
        | .err e => .err e
        | .panic => .panic
      else scanMessages U fresh filter is inst

/-- `SummaryOfMessages`, messages.go:406-469. -/
def summaryOfMessages (U : Unicode) (fresh : Nat → Runes) (date : Int → Runes) (digest : Msg → Runes) (filter : Msg → Bool) (inst : Inst) :
    Outcome (Inst × Runes × List Runes) :=
  match scanMessages U fresh filter (List.range inst.messages.length) inst with
  | .ok (inst, sel) =>
    let mp := sel.filterMap (fun i => inst.messages[i]?)
    let sizes := msgSizes mp
    .ok (inst, headerOf ["ID", "DTG", "TO", "DE", "DIGEST"] sizes, mp.map (msgLine date digest sizes))
  | .err e => .err e
  | .panic => .panic

/-- `DeleteMessagesBySummaryString`, messages.go:346-357. -/
def deleteMessagesBySummary (U : Unicode) (noise : Nat → Nat → Nat → Rune) (inst : Inst) : List Runes → Nat × Inst
  | [] => (0, inst)
  | s :: ss =>
    let r := deleteMessageByString U (noise 0) inst [cutBlank s]
    let r' := deleteMessagesBySummary U (fun i => noise (i + 1)) r.2 ss
    (r.1 + r'.1, r'.2)

end K431
