import Verif.SpecOverlap
import Verif.SpecPersist

/-!
# What has been stored stays stored

Any number of runs of the program, on this and other files, none of which is asked to remove anything from the file.
-/

namespace K431
open Spec

/-- The key is as it was, except that it may have been marked as used since. -/
structure StillKey (x y : Key) : Prop where
  id : y.id.val = x.id.val
  runes : y.runes = x.runes
  keepers : y.names = x.names
  created : y.created = x.created
  expires : y.expires = x.expires
  compromised : y.compromised = x.compromised
  comment : y.comment = x.comment
  used : x.used = true → y.used = true

/-- All that is in the store `i` is in the store `j`: call-sign and settings, and each key and each message, at the same place of the list. -/
structure Still (i j : Inst) : Prop where
  groupSize : j.groupSize = i.groupSize
  keyLength : j.keyLength = i.keyLength
  columns : j.columns = i.columns
  keyColumns : j.keyColumns = i.keyColumns
  callSign : j.callSign = i.callSign
  keys : ∀ (n : Nat) (x : Key), i.keys[n]? = some x → ∃ y, j.keys[n]? = some y ∧ StillKey x y
  messages : ∀ (n : Nat) (m : Msg), i.messages[n]? = some m → ∃ m', j.messages[n]? = some m' ∧ SameMsg m' m

/-- The name of a file, with `~/` resolved, is not again a name that begins with `~/`. -/
def HomeResolved (W : World) (f : List Nat) : Prop := ∀ p, resolvePath W f = some p → p.take 2 ≠ [126, 47]

/-- A run of the program, on any file, that is not asked to remove anything from `file`: no `--delete`, no existing key replaced while importing, `--output`, `--export` and
`initialize` with other files.  Its own file, if it writes to it, it can write completely.  The key of `file` is only changed if `rekey` says so. -/
inductive Keeping (C : Codec) (U : Unicode) (file : List Nat) (rekey : Bool) : Disk → Course → Prop
  | keys {E : PwEnv} {V : KeysEnv} {o : KeysCmd} {disk : Disk} {r : Course} : keysCommand C E U V o disk = some r → o.delete = false → (∀ x, V.answer x ≠ some true) →
      (∀ f, o.exportFile = some f → resolvePath V.exportW f ≠ some file) → o.output ≠ some file →
      HomeResolved V.loadW o.file → V.newW.room = none → V.importW.room = none → Keeping C U file rekey disk r
  | messages {E : PwEnv} {V : MsgsEnv} {o : MsgsCmd} {disk : Disk} {r : Course} : messagesCommand C E U V o disk = some r → o.delete = false → o.output ≠ some file →
      HomeResolved V.loadW o.file → V.newW.room = none → Keeping C U file rekey disk r
  | pfk {E : PwEnv} {V : PfkEnv} {o : PfkCmd} {disk : Disk} {r : Course} : pfkCommand C E V o disk = some r → (∀ pw salt, (E.kdf pw salt).length = 32) →
      (∀ f, o.change = some f → resolvePath V.loadW f = some file → rekey = true) → (∀ f, o.change = some f → HomeResolved V.loadW f) → V.saveW.room = none → Keeping C U file rekey disk r
  | init {E : PwEnv} {V : InitEnv} {o : InitCmd} {disk : Disk} {r : Course} : initCommand C E U V o disk = some r → resolvePath V.saveW o.file ≠ some file → Keeping C U file rekey disk r

/-- The file system, and what it was when the runs that are under way read their files.  A run starts (with `alone`: only if no other is under way); a run ends; a run dies, or gives up, before it
writes anything; something happens to other files. -/
inductive KeepingStep (C : Codec) (U : Unicode) (file : List Nat) (alone rekey : Bool) : Disk × List Disk → Disk × List Disk → Prop
  | starts {disk : Disk} {running : List Disk} : (alone = true → running = []) → KeepingStep C U file alone rekey (disk, running) (disk, disk :: running)
  | ends {disk start : Disk} {xs ys : List Disk} {r : Course} : Keeping C U file rekey start r → KeepingStep C U file alone rekey (disk, xs ++ start :: ys) (afterRun disk r, xs ++ ys)
  | dies {disk start : Disk} {xs ys : List Disk} : KeepingStep C U file alone rekey (disk, xs ++ start :: ys) (disk, xs ++ ys)
  | others {disk disk' : Disk} {running : List Disk} : disk' file = disk file → KeepingStep C U file alone rekey (disk, running) (disk', running)

/-- The file holds the store `i`, as saved with this key. -/
def SavedAs (C : Codec) (disk : Disk) (file key : List Nat) (i : Inst) : Prop := ∃ n, disk file = some (C.enc key n (gobInst i))

end K431
