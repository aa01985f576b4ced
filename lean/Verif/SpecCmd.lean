import Verif.Cli
import Verif.SpecPersist

/-!
# Vocabulary for commands
-/

namespace K431

/-- No array of a key id, a keepers' array or a message's key id is shared. -/
structure Apart (inst : Inst) : Prop where
  ids : inst.keys.Pairwise (fun x y => x.id.addr = y.id.addr → x.id.val = [] ∧ y.id.val = [])
  fresh : ∀ k ∈ inst.keys, k.id.addr < inst.nextAddr
  keepers : inst.keys.Pairwise (fun x y => ¬ ShareKeeper x y ∧ ¬ ShareKeeper y x)
  messages : ∀ m ∈ inst.messages, m.keyId.val ≠ [] → ∀ x ∈ inst.keys, x.id.addr ≠ m.keyId.addr
  empty : ∀ m ∈ inst.messages, ∀ x ∈ inst.keys, x.id.val ≠ [] → x.id.addr ≠ m.keyId.addr
  keyIds : inst.messages.Pairwise (fun m n => m.keyId.addr = n.keyId.addr → m.keyId.val = [] ∧ n.keyId.val = [])

/-- The command has written to no file. -/
def Course.Untouched (r : Course) (disk : Disk) : Prop := r.state.disk = disk ∧ ∀ t ∈ r.state.touched, t.contents = []

/-- The salt in force after `--new-salt`: the salt of the instance, the default salt, or the one given. -/
def SaltAfter (newSalt salt salt' : Option (List Nat)) : Prop :=
  match newSalt with
  | none => salt' = salt
  | some s => ∃ b, hexDecode (if s = ascii "default" then defaultSalt else s) = some b ∧ 32 ≤ b.length ∧ salt' = some b

/-- The key the options of `pfk --change` ask for, given the salt in force: a random one, the one derived from the password given or entered twice, or the one given. -/
inductive NewKey (E : PwEnv) (V : PfkEnv) (o : PfkCmd) (salt : Option (List Nat)) : List Nat → Prop
  | random {bytes} : o.random = true → o.new = none → V.draw = some bytes → (∀ b ∈ bytes, b < 256) → NewKey E V o salt bytes
  | password {pw sa} : o.new = some pw → o.random = false → o.newPFK = none → salt = some sa → 32 ≤ sa.length → NewKey E V o salt (E.kdf pw sa)
  | given {t key} : o.newPFK = some t → o.random = false → o.new = none → hexDecode t = some key → NewKey E V o salt key
  | asked {a pw sa} : o.random = false → o.new = none → o.newPFK = none → askAndConfirm E.strong V.inputs = some a → a.result = .ok pw →
      salt = some sa → 32 ≤ sa.length → NewKey E V o salt (E.kdf pw sa)

/-- The user agreed: by `--yes`, by answering the question, or by entering a new password twice. -/
def Agreed (V : PfkEnv) (o : PfkCmd) : Prop :=
  o.yes = true ∨ V.confirm = some true ∨ (o.random = false ∧ o.new = none ∧ o.newPFK = none)

/-- The options contradict each other: more than one new key is asked for, or the old key is given twice, or both a key and a salt are to be generated. -/
def PfkCmd.Contradictory (o : PfkCmd) : Prop :=
  (o.random = true ∧ o.new.isSome) ∨ (o.random = true ∧ o.newPFK.isSome) ∨ (o.new.isSome ∧ o.newPFK.isSome) ∨
  (o.access.pfk.isSome ∧ o.access.password.isSome) ∨ (o.genPFK = true ∧ o.genSalt = true)

/-- Only this key opens the file. -/
def OnlyOpens (C : Codec) (disk : Disk) (path key : List Nat) : Prop :=
  ∀ (E : PwEnv) (W : World) (k k' : Krypto) (other : List Nat), Reads W k path → LoadsWith E W k other → other.length = 32 → other ≠ key →
    load C E W disk k ≠ some (.ok (), k')

/-- The settings that `Assert` demands (krypto431.go:597-614). -/
structure SettingsOk (i : Inst) : Prop where
  groupSize : 1 ≤ i.groupSize
  keyLength : 20 ≤ i.keyLength
  columns : 85 ≤ i.columns
  keyColumns : i.groupSize ≤ i.keyColumns

/-- the call-sign given with `--call` or else entered -/
def givenCall (V : InitEnv) (o : InitCmd) : Runes := o.call.getD V.call

/-- The same key, possibly marked as used since. -/
def MarkedSince (x y : Key) : Prop := y = { x with used := y.used } ∧ (x.used = true → y.used = true)

/-- The same message; or a message without key that has been deciphered with one of the keys `ids`, with the same id, sender, recipients, time and radiogram. -/
def SeenAs (ids : List Runes) (m m' : Msg) : Prop :=
  SameMsg m' m ∨ (m.keyId.val = [] ∧ m'.keyId.val ∈ ids ∧ m'.id = m.id ∧ m'.recipients = m.recipients ∧ m'.from_ = m.from_ ∧ m'.dtg = m.dtg ∧ m'.radiogram = m.radiogram)

/-- the instance with which `keys --import` opens the file -/
abbrev incomingFor (file : List Nat) : Krypto := { newBase with persistence := file, interactive := true }

/-- what `keys --export f` needs to write the file `path`: the name is given and can be resolved, the operating system lets it write, and there is no such file yet, or
`--yes` is given, or the user agrees to overwrite it -/
structure MayExport (V : KeysEnv) (o : KeysCmd) (disk : Disk) (f path : List Nat) : Prop where
  named : f ≠ []
  resolved : resolvePath V.exportW f = some path
  stat : V.exportW.statFails = false
  opens : V.exportW.openFails = false
  room : V.exportW.room = none
  allowed : disk path = none ∨ o.yes = true ∨ (V.exportW.terminal = true ∧ V.exportW.confirm = some true)

end K431
