import Verif.SpecRuns

/-!
# Runs of the program that overlap, on the same file

A run of `messages` reads the file once, when it starts (cmd/krypto431/messages.go:33), and writes it once, when it saves.  The program locks nothing (persistence.go, `Load` and `Save`).  So what a
run does depends on the file system at its start; the files it has written are in the file system at its end.  That `Save` looks whether the file exists makes no difference: after `Load` overwriting is allowed.
-/

namespace K431.Spec

/-- The file system, what it was when the runs that are under way were started, and the ids of the pads used so far. -/
abbrev Busy := Disk × List Disk × List Runes

/-- The file system after the end of a run: the files it has written to are as it left them. -/
def afterRun (disk : Disk) (r : Course) : Disk := fun p => if ∃ t ∈ r.state.touched, t.path = p ∧ t.contents ≠ [] then r.state.disk p else disk p

/-- A run of `messages` on the file starts or ends; `alone`: it only starts if no other is under way.  A run that prints a message also writes to the file. -/
inductive OverlapStep (C : Codec) (E : PwEnv) (U : Unicode) (file : List Nat) (alone : Bool) : Busy → Busy → Prop
  | starts {disk : Disk} {running : List Disk} {used : List Runes} : (alone = true → running = []) → OverlapStep C E U file alone (disk, running, used) (disk, disk :: running, used)
  | ends {V : MsgsEnv} {o : MsgsCmd} {disk start : Disk} {xs ys : List Disk} {used : List Runes} {r : Course} : o.file = file → o.delete = false → o.output ≠ some file →
      messagesCommand C E U V o start = some r → (printedPads C E U V o start ≠ [] → Rewritten file r r.state.disk) →
      OverlapStep C E U file alone (disk, xs ++ start :: ys, used) (afterRun disk r, xs ++ ys, used ++ printedPads C E U V o start)

end K431.Spec
