import Verif.Messages
import Verif.Radiogram
import Mathlib.Logic.Relation

/-!
# Work that does not concern a given message

`Elsewhere U x` relates two states of the store of an instance if one operation leads from the first to the second, and that operation is
not applied to the message with the id `x`.
-/

namespace K431

/-- what a message says: all of it but its key id -/
def Msg.record (m : Msg) : Runes × List Runes × Runes × Int × Runes × Runes × Runes :=
  (m.id, m.recipients, m.from_, m.dtg, m.plainText, m.cipherText, m.radiogram)

/-- One operation that is not applied to the message with the id `x`. -/
inductive Elsewhere (U : Unicode) (x : Runes) : Inst → Inst → Prop
  /-- generating keys -/
  | newKey {now expire : Int} {keepers : List Runes} {inst inst' : Inst} {t t' : Tape} {k : Key} :
      newKey U now expire keepers inst t = some (k, inst', t') → Elsewhere U x inst inst'
  | generate {now : Nat → Int} {start n : Int} {expire : Option (Outcome Int)} {keepers : List Runes} {inst inst' : Inst}
      {t t' : Tape} {o : Outcome Unit} :
      generateKeys U now start n expire keepers inst t = some (o, inst', t') → Elsewhere U x inst inst'
  /-- deleting keys -/
  | deleteKey (noise : Nat → Noise) (ids : List Runes) (inst : Inst) : Elsewhere U x inst (deleteKey U noise inst ids).2
  | deleteKeyByString (noise : Nat → Noise) (args : List Runes) (inst : Inst) :
      Elsewhere U x inst (deleteKeyByString U noise inst args).2
  | deleteKeysBySummary (noise : Nat → Nat → Noise) (lines : List Runes) (inst : Inst) :
      Elsewhere U x inst (deleteKeysBySummary U noise inst lines).2
  /-- importing keys -/
  | importKeys (noise : Nat → Noise) (o : ImportOpts) (filter : Key → Bool) (loaded : Outcome (List Key × Runes)) (inst : Inst) :
      Elsewhere U x inst (importKeys U noise o filter loaded inst).2.2
  /-- marking a key as used or unused -/
  | mark (id : Runes) (b : Bool) (inst : Inst) : Elsewhere U x inst { inst with keys := (markKeyUsed U inst.keys id b).2 }
  /-- a call of `NewTextMessage`, whatever its outcome -/
  | create {noise : Nat → Rune} {E : RadioEnv} {f : Runes} {inst inst' : Inst} {r : Runes} {rest : List Runes} {t t' : Tape}
      {p : Outcome Msg} {o : Outcome Msg} :
      parseRadiogram U E inst.messages r t = some (p, t') →
      newTextMessage U noise f (fun _ => p) inst (r :: rest) = (o, inst') → Elsewhere U x inst inst'
  /-- enciphering another stored message, whatever the outcome -/
  | encipher {noise : Nat → Rune} {f : Runes} {inst inst' : Inst} {m m' : Msg} {i : Nat} {o : Outcome (List Chunk)} :
      inst.messages[i]? = some m → m.id ≠ x → encipherT U noise f inst m = (o, inst', m') →
      Elsewhere U x inst { inst' with messages := inst'.messages.set i m' }
  /-- enciphering a message that is not stored and names no key (e.g. one returned by `ParseRadiogram`) -/
  | encipherOther {noise : Nat → Rune} {f : Runes} {inst inst' : Inst} {m m' : Msg} {o : Outcome (List Chunk)} :
      m.keyId.val = [] → encipherT U noise f inst m = (o, inst', m') → Elsewhere U x inst inst'
  /-- deciphering another stored message -/
  | decipher {f : Runes} {inst inst' : Inst} {m m' : Msg} {i : Nat} {o : Outcome Unit} :
      inst.messages[i]? = some m → m.id ≠ x → decipher U f inst m = (o, inst', m') →
      Elsewhere U x inst { inst' with messages := inst'.messages.set i m' }
  | tryDecipher {f : Runes} {inst inst' : Inst} {m m' : Msg} {i : Nat} {dry : Bool} {o : Outcome Unit} :
      inst.messages[i]? = some m → m.id ≠ x → tryDecipher U f dry inst m = (o, inst', m') →
      Elsewhere U x inst { inst' with messages := inst'.messages.set i m' }
  /-- deleting other messages -/
  | deleteMessage (noise : Nat → Nat → Rune) (ids : List Runes) (inst : Inst) : x ∉ ids →
      Elsewhere U x inst (deleteMessage noise inst ids).2
  | deleteMessageByString (noise : Nat → Nat → Rune) (args : List Runes) (inst : Inst) : x ∉ vettedMessageIds U args →
      Elsewhere U x inst (deleteMessageByString U noise inst args).2

/-- No other slice of the store is a view of the array at an address in `A`: it is in no key and in no message but those with the
id `x`, and it is not handed out again. -/
structure Reserved (A : Nat → Prop) (x : Runes) (inst : Inst) : Prop where
  fresh : ∀ a, A a → a < inst.nextAddr
  keys : ∀ k ∈ inst.keys, ¬ A k.id.addr
  msgs : ∀ m ∈ inst.messages, m.id ≠ x → m.keyId.val = [] ∨ ¬ A m.keyId.addr

end K431
