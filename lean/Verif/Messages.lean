import Verif.Keys
import Verif.Cipher

/-!
# Model of `messages.go`: message ids, recipients, new messages, deletion
-/

namespace K431

/-- Loop of `ContainsMessageId`, messages.go:257-261. -/
def containsMessageIdLoop (id : Runes) : List Msg → Bool
  | [] => false
  | m :: ms => if equalRunes (some m.id) (some id) then true else containsMessageIdLoop id ms

/-- `ContainsMessageId`, messages.go:253-263. -/
def containsMessageId (msgs : List Msg) (id : Option Runes) : Bool :=
  match id with
  | none => false
  | some id => containsMessageIdLoop id msgs

/-- Loop of `NewUniqueMessageId`, messages.go:282-287; `fuel` as in `newIdLoop`. -/
def uniqueIdLoop (msgs : List Msg) : Nat → Tape → Option (Runes × Tape)
  | 0, _ => none
  | fuel + 1, t =>
    match randomAlnumRunes 4 t with
    | none => none
    | some (id, t) => if containsMessageId msgs (some id) then uniqueIdLoop msgs fuel t else some (id, t)

/-- `NewUniqueMessageId`, messages.go:279-289. -/
def newUniqueMessageId (msgs : List Msg) (t : Tape) : Option (Runes × Tape) :=
  uniqueIdLoop msgs (t.length + 1) t

/-- `AddRecipient`, messages.go:293-300. -/
def addRecipient (U : Unicode) (recipients : List Runes) : List Runes → List Runes
  | [] => recipients
  | a :: as => addRecipient U (if containsNames U recipients [a] then recipients else recipients ++ [a]) as

/-- `RemoveRecipient`, messages.go:304-315. -/
def removeRecipient (U : Unicode) (recipients : List Runes) : List Runes → List Runes
  | [] => recipients
  | a :: as => removeRecipient U (removeFirst (fun s => equalRunesFold U (some a) (some s)) recipients) as

/-- `Message.Wipe` (`RandomWipe`, krypto431.go:344-369): its effect on the arrays seen by the store.  Plaintext and
ciphertext are not shared with anything in the store. -/
def wipeMessage (noise : Nat → Rune) (m : Msg) (inst : Inst) : Inst :=
  if m.keyId.val.length = 0 then inst
  else { inst with
    keys := wipeKeys m.keyId.addr noise inst.keys
    messages := wipeMsgs m.keyId.addr noise inst.messages }

/-- Body of the loop of `DeleteMessage`, messages.go:327-335. -/
def deleteMessageOnce (noise : Nat → Rune) (inst : Inst) (id : Runes) : Nat × Inst :=
  match firstIdx (fun m => equalRunes (some m.id) (some id)) 0 inst.messages with
  | none => (0, inst)
  | some i =>
    match inst.messages[i]? with
    | none => (0, inst)
    | some m =>
      let inst := wipeMessage noise m inst
      (1, { inst with messages := swapRemove inst.messages i })

/-- `DeleteMessage`, messages.go:320-338; it never returns an error. -/
def deleteMessage (noise : Nat → Nat → Rune) (inst : Inst) : List Runes → Nat × Inst
  | [] => (0, inst)
  | id :: ids =>
    let r := deleteMessageOnce (noise 0) inst id
    let r' := deleteMessage (fun i => noise (i + 1)) r.2 ids
    (r.1 + r'.1, r'.2)

/-- `DeleteMessageByString`, messages.go:342-344. -/
def deleteMessageByString (U : Unicode) (noise : Nat → Nat → Rune) (inst : Inst) (args : List Runes) : Nat × Inst :=
  deleteMessage noise inst (vettedMessageIds U args)

/-- `IsMyCall`, messages.go:394-396. -/
def isMyCall (U : Unicode) (inst : Inst) (m : Msg) : Bool := equalRunesFold U (some m.from_) (some inst.callSign)

/-- `NewTextMessage`, messages.go:120-164.  `parse` is `ParseRadiogram` (messages.go:210-249), which also draws the
message id; the deferred `message.Wipe()` runs on every path but success, also when panicking.  `freshId` is not used
if the parsed message has an id. -/
def newTextMessage (U : Unicode) (noise : Nat → Rune) (freshId : Runes) (parse : Runes → Outcome Msg) (inst : Inst)
    (args : List Runes) : Outcome Msg × Inst :=
  match args with
  | [] => (.err .other, inst)
  | r :: rest =>
    match parse r with
    | .err e => (.err e, inst)
    | .panic => (.panic, inst)
    | .ok m =>
      if isMyCall U inst m then
        -- `if len(msg) >= 2 { message.KeyId = []rune(strings.ToUpper(strings.TrimSpace(msg[2]))) }`
        match (if rest.length ≥ 1 then
            match (r :: rest)[2]? with
            | none => (.panic, inst, m)
            | some a =>
              let keyId := toUpperStr U (trimSpace U a)
              let m1 := { m with keyId := ⟨inst.nextAddr, keyId⟩ }
              let inst1 := { inst with nextAddr := inst.nextAddr + 1 }
              if keyId.length ≠ inst.groupSize then (.err .keyIdLength, inst1, m1)
              else (.ok (), inst1, m1)
          else (.ok (), inst, m) : Outcome Unit × Inst × Msg) with
        | (.err e, inst, m) => (.err e, wipeMessage noise m inst)
        | (.panic, inst, m) => (.panic, wipeMessage noise m inst)
        | (.ok _, inst, m) =>
          match encipher U noise freshId inst m with
          | (.ok _, inst, m) => (.ok m, { inst with messages := inst.messages ++ [m] })
          | (.err e, inst, m) => (.err e, wipeMessage noise m inst)
          | (.panic, inst, m) => (.panic, wipeMessage noise m inst)
      else
        let m := if m.recipients.length = 0 then { m with recipients := addRecipient U m.recipients [inst.callSign] } else m
        match tryDecipher U freshId false inst m with
        | (.panic, inst, m) => (.panic, wipeMessage noise m inst)
        | (_, inst, m) => (.ok m, { inst with messages := inst.messages ++ [m] })

end K431
