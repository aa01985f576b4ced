import Verif.Messages
import Verif.Radiogram

/-!
# Histories of an instance

A history is a sequence of operations on an instance together with a record of the keys the successful Enciphers have
consumed.  A key is identified by the array of its id, which it keeps for life (ids themselves can be overwritten).
-/

namespace K431

/-- The arrays of the keys an Encipher has used, one entry per chunk; nothing if it failed. -/
def consumed (keys : List Key) : Outcome (List Chunk) → List Nat
  | .ok chunks => chunks.filterMap (fun c => (keys[c.key]?).map (fun k => k.id.addr))
  | _ => []

/-- What `NewTextMessage` hands to `Encipher`, if it gets so far (messages.go:136-154). -/
def handed (U : Unicode) (inst : Inst) (args : List Runes) : Outcome Msg → Option (Inst × Msg)
  | .ok m =>
    if isMyCall U inst m then
      match args with
      | [_] => some (inst, m)
      | _ :: _ :: a :: _ =>
        if (toUpperStr U (trimSpace U a)).length ≠ inst.groupSize then none
        else some ({ inst with nextAddr := inst.nextAddr + 1 }, { m with keyId := ⟨inst.nextAddr, toUpperStr U (trimSpace U a)⟩ })
      | _ => none
    else none
  | _ => none

/-- An instance and the keys consumed so far. -/
structure Hist where
  inst : Inst
  spent : List Nat
  deriving DecidableEq

/-- One operation.  `P` is a condition on every call of `Encipher` (the instance and the message). -/
inductive HStep (U : Unicode) (P : Inst → Msg → Prop) : Hist → Hist → Prop
  /-- generating keys -/
  | newKey {now expire : Int} {keepers : List Runes} {inst inst' : Inst} {t t' : Tape} {k : Key} {sp : List Nat} :
      newKey U now expire keepers inst t = some (k, inst', t') → HStep U P ⟨inst, sp⟩ ⟨inst', sp⟩
  | generate {now : Nat → Int} {start n : Int} {expire : Option (Outcome Int)} {keepers : List Runes} {inst inst' : Inst}
      {t t' : Tape} {o : Outcome Unit} {sp : List Nat} :
      generateKeys U now start n expire keepers inst t = some (o, inst', t') → HStep U P ⟨inst, sp⟩ ⟨inst', sp⟩
  /-- deleting keys -/
  | deleteKey (noise : Nat → Noise) (ids : List Runes) (inst : Inst) (sp : List Nat) :
      HStep U P ⟨inst, sp⟩ ⟨(deleteKey U noise inst ids).2, sp⟩
  | deleteKeyByString (noise : Nat → Noise) (args : List Runes) (inst : Inst) (sp : List Nat) :
      HStep U P ⟨inst, sp⟩ ⟨(deleteKeyByString U noise inst args).2, sp⟩
  | deleteKeysBySummary (noise : Nat → Nat → Noise) (lines : List Runes) (inst : Inst) (sp : List Nat) :
      HStep U P ⟨inst, sp⟩ ⟨(deleteKeysBySummary U noise inst lines).2, sp⟩
  /-- importing keys -/
  | importKeys (noise : Nat → Noise) (o : ImportOpts) (filter : Key → Bool) (loaded : Outcome (List Key × Runes))
      (inst : Inst) (sp : List Nat) : HStep U P ⟨inst, sp⟩ ⟨(importKeys U noise o filter loaded inst).2.2, sp⟩
  /-- marking a key as used -/
  | mark (id : Runes) (inst : Inst) (sp : List Nat) :
      HStep U P ⟨inst, sp⟩ ⟨{ inst with keys := (markKeyUsed U inst.keys id true).2 }, sp⟩
  /-- a call of `NewTextMessage`, whatever its outcome -/
  | create {noise : Nat → Rune} {E : RadioEnv} {f : Runes} {inst inst' : Inst} {r : Runes} {rest : List Runes} {t t' : Tape}
      {p : Outcome Msg} {o : Outcome Msg} {sp : List Nat} :
      parseRadiogram U E inst.messages r t = some (p, t') →
      newTextMessage U noise f (fun _ => p) inst (r :: rest) = (o, inst') →
      (∀ i m, handed U inst (r :: rest) p = some (i, m) → P i m) →
      HStep U P ⟨inst, sp⟩ ⟨inst', sp ++ (match handed U inst (r :: rest) p with
        | some (i, m) => consumed i.keys (encipherT U noise f i m).1
        | none => [])⟩
  /-- enciphering a stored message, whatever the outcome -/
  | encipher {noise : Nat → Rune} {f : Runes} {inst inst' : Inst} {m m' : Msg} {i : Nat} {o : Outcome (List Chunk)}
      {sp : List Nat} : inst.messages[i]? = some m → encipherT U noise f inst m = (o, inst', m') → P inst m →
      HStep U P ⟨inst, sp⟩ ⟨{ inst' with messages := inst'.messages.set i m' }, sp ++ consumed inst.keys o⟩
  /-- enciphering a message that is not stored (e.g. one returned by `ParseRadiogram`) -/
  | encipherOther {noise : Nat → Rune} {f : Runes} {inst inst' : Inst} {m m' : Msg} {o : Outcome (List Chunk)}
      {sp : List Nat} : encipherT U noise f inst m = (o, inst', m') → P inst m →
      HStep U P ⟨inst, sp⟩ ⟨inst', sp ++ consumed inst.keys o⟩
  /-- deciphering a stored message -/
  | decipher {f : Runes} {inst inst' : Inst} {m m' : Msg} {i : Nat} {o : Outcome Unit} {sp : List Nat} :
      inst.messages[i]? = some m → decipher U f inst m = (o, inst', m') →
      HStep U P ⟨inst, sp⟩ ⟨{ inst' with messages := inst'.messages.set i m' }, sp⟩
  | tryDecipher {f : Runes} {inst inst' : Inst} {m m' : Msg} {i : Nat} {dry : Bool} {o : Outcome Unit} {sp : List Nat} :
      inst.messages[i]? = some m → tryDecipher U f dry inst m = (o, inst', m') →
      HStep U P ⟨inst, sp⟩ ⟨{ inst' with messages := inst'.messages.set i m' }, sp⟩
  /-- deleting messages -/
  | deleteMessage (noise : Nat → Nat → Rune) (ids : List Runes) (inst : Inst) (sp : List Nat) :
      HStep U P ⟨inst, sp⟩ ⟨(deleteMessage noise inst ids).2, sp⟩
  | deleteMessageByString (noise : Nat → Nat → Rune) (args : List Runes) (inst : Inst) (sp : List Nat) :
      HStep U P ⟨inst, sp⟩ ⟨(deleteMessageByString U noise inst args).2, sp⟩

end K431
