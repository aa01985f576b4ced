import Verif.Persist
import Verif.SpecStore
import Mathlib.Data.List.Forall2

/-!
# Vocabulary for saving and loading
-/

namespace K431

/-- equal keys, wherever their arrays are -/
structure SameKey (x y : Key) : Prop where
  id : x.id.val = y.id.val
  runes : x.runes = y.runes
  keepers : x.keepers.map Sl.val = y.keepers.map Sl.val
  created : x.created = y.created
  expires : x.expires = y.expires
  used : x.used = y.used
  compromised : x.compromised = y.compromised
  comment : x.comment = y.comment

/-- equal messages, wherever their arrays are -/
structure SameMsg (x y : Msg) : Prop where
  id : x.id = y.id
  recipients : x.recipients = y.recipients
  from_ : x.from_ = y.from_
  dtg : x.dtg = y.dtg
  keyId : x.keyId.val = y.keyId.val
  plainText : x.plainText = y.plainText
  cipherText : x.cipherText = y.cipherText
  radiogram : x.radiogram = y.radiogram

/-- equal settings, call-sign, keys and messages, in the same order -/
structure SameStore (x y : Inst) : Prop where
  groupSize : x.groupSize = y.groupSize
  keyLength : x.keyLength = y.keyLength
  columns : x.columns = y.columns
  keyColumns : x.keyColumns = y.keyColumns
  callSign : x.callSign = y.callSign
  keys : List.Forall₂ SameKey x.keys y.keys
  messages : List.Forall₂ SameMsg x.messages y.messages

/-- An instance that holds nothing yet: no keys, no messages, no call-sign, and nothing left over in memory. -/
structure Blank (k : Krypto) : Prop where
  keys : k.inst.keys = []
  messages : k.inst.messages = []
  callSign : k.inst.callSign = []
  spareKeys : ∀ x ∈ k.spareKeys, x = Key.zero
  spareMsgs : ∀ x ∈ k.spareMsgs, x = Msg.zero

/-- The user has allowed to overwrite an existing file: by option, by an earlier `Load`, or by answering the question. -/
def Permitted (W : World) (k : Krypto) : Prop :=
  k.overwrite = true ∨ (k.interactive = true ∧ W.terminal = true ∧ W.confirm = some true)

/-- The instance refers to the file `path` and the operating system lets it read and write there. -/
structure Reads (W : World) (k : Krypto) (path : List Nat) : Prop where
  named : k.persistence ≠ []
  path : resolvePath W k.persistence = some path
  stat : W.statFails = false
  opens : W.openFails = false

/-- The key with which `Load` tries to open the file: the key of the instance or, if it has none, the key derived from the salt and the first
password entered. -/
def LoadsWith (E : PwEnv) (W : World) (k : Krypto) (key : List Nat) : Prop :=
  k.pfk = some key ∨
  (k.pfk = none ∧ k.interactive = true ∧ W.terminal = true ∧
    ∃ pw rest salt, W.inputs = some pw :: rest ∧ k.salt = some salt ∧ 32 ≤ salt.length ∧ E.kdf pw salt = key)

/-- The file `path` is, with this key, a complete image of the store `i`: whatever blank instance loads it gets exactly these settings, call-sign,
keys and messages. -/
def Stored (C : Codec) (disk : Disk) (path key : List Nat) (i : Inst) : Prop :=
  ∀ (E : PwEnv) (W : World) (k : Krypto), Blank k → Reads W k path → LoadsWith E W k key →
    ∃ k', load C E W disk k = some (.ok (), k') ∧ SameStore k'.inst i

/-- No key opens the file, and its old contents are gone. -/
def Lost (C : Codec) (disk : Disk) (path : List Nat) : Prop :=
  ∀ (E : PwEnv) (W : World) (k k' : Krypto), Reads W k path → load C E W disk k ≠ some (.ok (), k')

/-- an operation on an instance together with the file system; `asked` records that the user enabled overwriting by the option, or that a `Load` succeeded -/
inductive KStep (C : Codec) (E : PwEnv) (U : Unicode) : Disk × Krypto × Bool → Disk × Krypto × Bool → Prop
  | save {W d k b r} : save C E W d k = some r → KStep C E U (d, k, b) (r.disk d, r.k, b)
  | load {W d k b k'} : load C E W d k = some (.ok (), k') → KStep C E U (d, k, b) (d, k', true)
  | loadFails {W d k b o k'} : load C E W d k = some (o, k') → o ≠ .ok () → KStep C E U (d, k, b) (d, k', b)
  | overwrite {d k b} (v : Bool) : KStep C E U (d, k, b) (d, withOverwrite v k, b || v)
  | persistence {d k b} (f : List Nat) : KStep C E U (d, k, b) (d, withPersistence f k, b)
  | interactive {d k b} (v : Bool) : KStep C E U (d, k, b) (d, withInteractive v k, b)
  | overwriteKeys {d k b} (v : Bool) : KStep C E U (d, k, b) (d, withOverwriteKeys v k, b)
  | pfk {d k b} (s : List Nat) : KStep C E U (d, k, b) (d, (setPFKFromString s k).2, b)
  | pfkOption {d k b} (s : Option (List Nat)) : KStep C E U (d, k, b) (d, withPFK s k, b)
  | salt {d k b} (s : List Nat) : KStep C E U (d, k, b) (d, (setSaltFromString s k).2, b)
  | saltOption {d k b} (s : Option (List Nat)) : KStep C E U (d, k, b) (d, withSalt s k, b)
  | password {d k b} (s : List Nat) : KStep C E U (d, k, b) (d, (setPFKFromPassword E s k).2, b)
  | callSign {d k b} (s : Runes) : KStep C E U (d, k, b) (d, (setCallSign U s k).2, b)
  | store {d k b} (i : Inst) : KStep C E U (d, k, b) (d, { k with inst := i }, b)
  | wipe {d k b} (noise : Option (Nat → Nat)) : KStep C E U (d, k, b) (d, wipeInstance noise k, b)
  | files {d k b} (d' : Disk) : KStep C E U (d, k, b) (d', k, b)

/-- histories -/
inductive KRuns (C : Codec) (E : PwEnv) (U : Unicode) : Disk × Krypto × Bool → Disk × Krypto × Bool → Prop
  | refl {s} : KRuns C E U s s
  | step {s t u} : KRuns C E U s t → KStep C E U t u → KRuns C E U s u

end K431
