import Verif.SpecTalk

/-!
# From nothing: what a run of `initialize` is given
-/

namespace K431
open Spec

/-- Without any of these options, `initialize` asks for everything. -/
def AsksAll (o : InitCmd) : Prop := o.yes = none ∧ o.call = none ∧ o.keys = none ∧ o.keepers = none ∧ o.keyLength = none ∧ o.groupSize = none

/-- How many keys are wanted, and of which group size: as answered, or else as given with `--keys` and `--groupsize`, without which there are no keys and groups of 5. -/
def Wanted (V : InitEnv) (o : InitCmd) (keys groupSize : Int) : Prop :=
  (AsksAll o ∧ ∃ a, V.answers = some a ∧ keys = a.keys ∧ groupSize = a.groupSize) ∨ (¬ AsksAll o ∧ keys = o.keys.getD 0 ∧ groupSize = o.groupSize.getD 5)

/-- The password that is entered and confirmed. -/
def Confirmed (E : PwEnv) (W : World) (pw : List Nat) : Prop := ∃ a, askAndConfirm E.strong W.inputs = some a ∧ a.result = .ok pw

/-- The key that goes with the options of a command: the key itself, or the one derived from the password among the options, or else from a password that is entered and confirmed. -/
def KeyFor (E : PwEnv) (W : World) (a : Access) (file key : List Nat) : Prop :=
  (prepared E a file).2.pfk = some key ∨
  (prepared E a file).2.pfk = none ∧ ∃ pw salt, Confirmed E W pw ∧ (prepared E a file).2.salt = some salt ∧ key = E.kdf pw salt

/-- A run of `initialize` that reports no error and writes all of the station's file; its call-sign has at least two characters. -/
structure Starts (C : Codec) (E : PwEnv) (U : Unicode) (V : InitEnv) (o : InitCmd) (disk : Disk) (r : Course) (s : Side) : Prop where
  run : initCommand C E U V o disk = some r
  success : r.outcome = .ok ()
  written : ∃ t ∈ r.state.touched, t.contents ≠ []
  room : V.saveW.room = none
  path : resolvePath V.saveW o.file = some s.path
  key : KeyFor E V.saveW o.access o.file s.key
  call : s.call = (trimSpace U (givenCall V o)).map U.toUpper
  named : 2 ≤ (trimSpace U (givenCall V o)).length

/-- A later command is given the same options and file name, the system lets it read the file, and if the options contain neither key nor password, the password confirmed at the beginning is entered. -/
structure Again (E : PwEnv) (V : InitEnv) (o : InitCmd) (W : World) (s : Side) : Prop where
  path : resolvePath W o.file = some s.path
  stat : W.statFails = false
  opens : W.openFails = false
  password : (prepared E o.access o.file).2.pfk = none → W.terminal = true ∧ ∃ pw rest, Confirmed E V.saveW pw ∧ W.inputs = some pw :: rest

end K431
