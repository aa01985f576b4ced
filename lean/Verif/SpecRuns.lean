import Verif.SpecCmd
import Verif.SpecHistory
import Verif.SpecNet

/-!
# Runs of the program, one after the other, on the same file

Each run of `messages --new` loads the file, makes a message, prints it and saves the file.  The program may be killed.
-/

namespace K431.Spec

/-- The ids of the pads that the new message is enciphered with; nothing if the message is not enciphered (it comes from another station, or an error occurs). -/
def newPads (U : Unicode) (V : MsgsEnv) (inst : Inst) : List Runes :=
  match V.radiogram with
  | none => []
  | some r =>
    match parseRadiogram U V.radio inst.messages r V.tape with
    | none => []
    | some (p, _) =>
      match handed U inst [r] p with
      | none => []
      | some (i, m) =>
        match (encipherT U V.wipeNoise V.freshId i m).1 with
        | .ok chunks => padsOf i.keys chunks
        | _ => []

/-- The ids of the pads that the message printed by `messages --new` is enciphered with; nothing without `--new` or if the file could not be loaded. -/
def printedPads (C : Codec) (E : PwEnv) (U : Unicode) (V : MsgsEnv) (o : MsgsCmd) (disk : Disk) : List Runes :=
  if o.new then
    match openStore C E V.loadW o.access o.file disk with
    | some (.go s) => newPads U V s.k.inst
    | _ => []
  else []

/-- What a run, which would do `r`, may leave behind: it returns; it is killed after printing, before it writes to a file; it is killed while it writes the first file. -/
inductive Leaves (disk : Disk) (r : Course) : Disk → Prop
  | returns : Leaves disk r r.state.disk
  | killed : Leaves disk r disk
  | killedWriting {t : Touch} {c : List Nat} : r.state.touched.head? = some t → c ∈ t.contents → Leaves disk r (disk.set t.path c)

/-- The file has been written to: it now has some of the contents that `Save` gives it one after the other. -/
def Rewritten (file : List Nat) (r : Course) (disk' : Disk) : Prop :=
  ∃ t c, r.state.touched.head? = some t ∧ t.path = file ∧ c ∈ t.contents ∧ disk' file = some c

/-- A run of `messages` on the file, with `--new`, `--list` and `--output` (to another file) or not; `P` is required of a run that prints a message it has enciphered.  Beside the file system: the
ids of the pads used so far. -/
inductive RunStep (C : Codec) (E : PwEnv) (U : Unicode) (file : List Nat) (P : Course → Disk → Prop) : Disk × List Runes → Disk × List Runes → Prop
  | run {V : MsgsEnv} {o : MsgsCmd} {disk disk' : Disk} {used : List Runes} {r : Course} : o.file = file → o.delete = false → o.output ≠ some file →
      messagesCommand C E U V o disk = some r → Leaves disk r disk' → (printedPads C E U V o disk ≠ [] → P r disk') →
      RunStep C E U file P (disk, used) (disk', used ++ printedPads C E U V o disk)

/-- The file has a name, which does not refer to the home directory, and whoever can load it gets keys whose ids are different strings of letters. -/
structure StartFile (C : Codec) (file : List Nat) (disk : Disk) : Prop where
  named : file ≠ []
  absolute : file.take 2 ≠ [126, 47]
  keys : ∀ (E : PwEnv) (W : World) (k k' : Krypto), K431.Blank k → k.persistence = file → load C E W disk k = some (.ok (), k') →
    WellFormed k'.inst.keys ∧ k'.inst.groupSize ≠ 0

/-- A run of `keys` or `messages` without `--new`, `--delete`, `--import` and `--export`: the file it works on, the file given with `--output`, the file system before, and what
it does. -/
inductive Shows (C : Codec) (E : PwEnv) (U : Unicode) : List Nat → Option (List Nat) → Disk → Course → Prop
  | keys {V : KeysEnv} {o : KeysCmd} {disk : Disk} {r : Course} : o.delete = false → o.newKeys = none → o.importFile = none → o.exportFile = none →
      keysCommand C E U V o disk = some r → Shows C E U o.file o.output disk r
  | messages {V : MsgsEnv} {o : MsgsCmd} {disk : Disk} {r : Course} : o.delete = false → o.new = false →
      messagesCommand C E U V o disk = some r → Shows C E U o.file o.output disk r

/-- the states of the file system in which a run may end or be killed -/
inductive Passes (disk : Disk) (r : Course) : Disk → Prop
  | before : Passes disk r disk
  | returned : Passes disk r r.state.disk
  | writing {t : Touch} {c : List Nat} : t ∈ r.state.touched → c ∈ t.contents → Passes disk r (disk.set t.path c)

end K431.Spec
