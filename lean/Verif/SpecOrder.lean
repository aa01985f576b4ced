import Verif.SpecCmd
import Verif.SpecStore
import Verif.SpecPersist

/-!
# Stores in order

What a user expects of every file of keys, and what may happen to the files of any number of stations.
-/

namespace K431
open Spec

/-- A key of a store with the given group size: the id is one group of letters, and the pad is a positive number of groups of letters. -/
structure KeyInOrder (groupSize : Nat) (k : Key) : Prop where
  idLength : k.id.val.length = groupSize
  idLetters : ∀ c ∈ k.id.val, IsLetter c
  pad : k.runes ≠ []
  letters : ∀ c ∈ k.runes, IsLetter c
  whole : ∃ q, k.runes.length = q * groupSize

/-- A store in order: its settings are within the limits; the key ids differ, also up to case, and every key is in order; the message ids differ, and each is four letters or digits; the call-sign, if
any, has at least two characters. -/
structure InOrder (U : Unicode) (i : Inst) : Prop where
  settings : SettingsOk i
  names : DistinctNames U (i.keys.map (fun k => k.id.val))
  keys : ∀ k ∈ i.keys, KeyInOrder i.groupSize k
  messageIds : (i.messages.map Msg.id).Nodup
  messages : ∀ m ∈ i.messages, m.id.length = 4 ∧ ∀ c ∈ m.id, IsAlnum c
  callSign : i.callSign = [] ∨ 2 ≤ i.callSign.length

/-- No key opens the file. -/
def Opaque (C : Codec) (c : List Nat) : Prop := ∀ key, key.length = 32 → C.dec key c = none

/-- What is printed can not be opened as a file of keys, however much of it has been written. -/
def Readable {α : Type} (C : Codec) (render : OutKind → List α → Option (List Nat)) : Prop :=
  ∀ kind items body, render kind items = some body → ∀ n, Opaque C (body.take n)

/-- What a run, which would do `r`, may leave behind: all it does; or it is killed, and every file is as before or has some of the contents that the run gives it. -/
def MayLeave (disk : Disk) (r : Course) (disk' : Disk) : Prop :=
  disk' = r.state.disk ∨ ∀ p, disk' p = disk p ∨ ∃ t ∈ r.state.touched, t.path = p ∧ ∃ c ∈ t.contents, disk' p = some c

/-- What may happen to the files: a run of the program by any station, with any options, answers and failures, on any files; a file is copied or sent; another program writes something
that is no file of keys; a file is removed.  The list of words is what the system's random source has for a run that makes keys. -/
inductive FileStep (C : Codec) (U : Unicode) : Disk → List Nat → Disk → Prop
  | init {E : PwEnv} {V : InitEnv} {o : InitCmd} {disk disk' : Disk} {r : Course} :
      initCommand C E U V o disk = some r → MayLeave disk r disk' → FileStep C U disk V.tape disk'
  | keys {E : PwEnv} {V : KeysEnv} {o : KeysCmd} {disk disk' : Disk} {r : Course} :
      keysCommand C E U V o disk = some r → Readable C V.render → MayLeave disk r disk' → FileStep C U disk V.tape disk'
  | messages {E : PwEnv} {V : MsgsEnv} {o : MsgsCmd} {disk disk' : Disk} {r : Course} :
      messagesCommand C E U V o disk = some r → Readable C V.render → MayLeave disk r disk' → FileStep C U disk [] disk'
  | pfk {E : PwEnv} {V : PfkEnv} {o : PfkCmd} {disk disk' : Disk} {r : Course} :
      pfkCommand C E V o disk = some r → MayLeave disk r disk' → FileStep C U disk [] disk'
  | copy {disk : Disk} {p q c : List Nat} : disk p = some c → FileStep C U disk [] (disk.set q c)
  | foreign {disk : Disk} {p c : List Nat} : Opaque C c → FileStep C U disk [] (disk.set p c)
  | remove {disk : Disk} {p : List Nat} : FileStep C U disk [] (fun q => if q = p then none else disk q)

/-- What may have happened to the files one after the other; for each step the words of the random source. -/
inductive History (C : Codec) (U : Unicode) (start : Disk) : List (List Nat) → Disk → Prop
  | start : History C U start [] start
  | step {ts : List (List Nat)} {d d' : Disk} {t : List Nat} : History C U start ts d → FileStep C U d t d' → History C U start (ts ++ [t]) d'

/-- The letter that a word of the random source stands for: bits 32 to 62 are a number below 2^31, of which the 26 ⌊2^31/26⌋ lowest are taken modulo 26; other words are passed over. -/
def wordLetter (w : Nat) : Option Int :=
  let x := w / 2 ^ 32 % 2 ^ 31
  if x < 26 * (2 ^ 31 / 26) then some (65 + (x % 26 : Nat)) else none

/-- the letters that the words stand for -/
def wordLetters (t : List Nat) : List Int := t.filterMap wordLetter

/-- The keys, given by id and pad, one after the other in the letters: each id followed by its pad. -/
inductive InSequence : List (List Int × List Int) → List Int → Prop
  | nil (s : List Int) : InSequence [] s
  | cons {id pad s : List Int} {l : List (List Int × List Int)} (gap : List Int) : InSequence l s → InSequence ((id, pad) :: l) (gap ++ id ++ pad ++ s)

end K431
