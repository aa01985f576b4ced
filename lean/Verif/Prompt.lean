import Verif.Basic

/-!
# Model of `AskForPassword` (persistence.go:194-229) as two goroutines and arriving signals

The function starts a goroutine that waits for interrupts.  Both, and the signals from outside, take turns in any order.  `T` are the states of the terminal, `quiet` the one `term.ReadPassword` sets, with
echo off.  From the libraries: `term.ReadPassword` gets the state of the terminal, sets the quiet one, reads a line, and sets the state it got again, also on errors; `signal.Notify` makes arriving
signals be put into the channel, or dropped if it is full; `signal.Stop` ends that, so that signals end the program again; a value in a closed channel is still received.  One call is modelled; in the program
nothing else handles signals.
-/

namespace K431

/-- Where the calling goroutine is. -/
inductive Asking (T : Type) where
  /-- before `term.GetState`, persistence.go:196 -/
  | start
  /-- before `signal.Notify`, persistence.go:202 -/
  | saved
  /-- before `go func`, persistence.go:203 -/
  | listening
  /-- at the top of the loop, persistence.go:215 -/
  | asking
  /-- in `term.ReadPassword`, persistence.go:217: the state `t` of the terminal has been read -/
  | looked (t : T)
  /-- in `term.ReadPassword`: the terminal is quiet, input is awaited -/
  | reading (t : T)
  /-- returning: before the deferred `signal.Stop`, persistence.go:213 -/
  | leaving
  /-- before the deferred `close`, persistence.go:212 -/
  | stopped
  /-- before the deferred `term.Restore`, persistence.go:200 -/
  | shut
  /-- the function has returned -/
  | returned
  deriving DecidableEq, Repr

/-- Where the other goroutine is, persistence.go:203-209. -/
inductive Handler where
  /-- not started -/
  | absent
  /-- at `for range ch` -/
  | waiting
  /-- a signal has been received; before `term.Restore`, persistence.go:206 -/
  | caught
  /-- before `os.Exit`, persistence.go:207 -/
  | restored
  /-- the channel was closed, the goroutine has ended -/
  | gone
  deriving DecidableEq, Repr

/-- What has become of the program. -/
inductive Fate where
  | alive
  /-- `log.Fatal`, persistence.go:198 -/
  | fatal
  /-- `os.Exit`, persistence.go:207 -/
  | exited
  /-- ended by a signal that nothing handles -/
  | killed
  /-- a send on a closed channel -/
  | panicked
  deriving DecidableEq, Repr

/-- The state.  `old` is the variable `oldState`, `full` whether the channel (capacity 1, persistence.go:201) holds a signal. -/
structure Prompt (T : Type) where
  term : T
  old : Option T
  main : Asking T
  handler : Handler
  notified : Bool
  full : Bool
  closed : Bool
  fate : Fate
  deriving DecidableEq, Repr

/-- How a step that may fail or read something turns out. -/
inductive Reading where
  | fails
  /-- persistence.go:221 -/
  | tooShort
  | enough
  deriving DecidableEq, Repr

/-- Who acts next. -/
inductive Act where
  | main (r : Reading)
  | handler
  | signal
  deriving DecidableEq, Repr

variable {T : Type}

/-- A step of the calling goroutine, persistence.go:195-228. -/
def mainStep (quiet : T → T) (r : Reading) (s : Prompt T) : Option (Prompt T) :=
  match s.main with
  | .start => some (if r = .fails then { s with fate := .fatal } else { s with old := some s.term, main := .saved })
  | .saved => some { s with notified := true, main := .listening }
  | .listening => some { s with handler := .waiting, main := .asking }
  | .asking => some (if r = .fails then { s with main := .leaving } else { s with main := .looked s.term })
  | .looked t => some (if r = .fails then { s with main := .leaving } else { s with term := quiet t, main := .reading t })
  | .reading t => some { s with term := t, main := if r = .tooShort then .asking else .leaving }
  | .leaving => some { s with notified := false, main := .stopped }
  | .stopped => some { s with closed := true, main := .shut }
  | .shut => some { s with term := s.old.getD s.term, main := .returned }
  | .returned => none

/-- A step of the other goroutine, persistence.go:204-208. -/
def handlerStep (s : Prompt T) : Option (Prompt T) :=
  match s.handler with
  | .waiting =>
    if s.full then some { s with full := false, handler := .caught }
    else if s.closed then some { s with handler := .gone }
    else none
  | .caught => some { s with term := s.old.getD s.term, handler := .restored }
  | .restored => some { s with fate := .exited }
  | _ => none

/-- SIGINT or SIGTERM arrives. -/
def signalStep (s : Prompt T) : Prompt T :=
  if s.notified then (if s.closed then { s with fate := .panicked } else { s with full := true }) else { s with fate := .killed }

/-- A step; `none`: not possible, as for everything once the program has ended. -/
def promptStep (quiet : T → T) (s : Prompt T) (a : Act) : Option (Prompt T) :=
  if s.fate ≠ .alive then none
  else match a with
    | .main r => mainStep quiet r s
    | .handler => handlerStep s
    | .signal => some (signalStep s)

/-- A run: the actions one after the other. -/
def promptRun (quiet : T → T) : Prompt T → List Act → Option (Prompt T)
  | s, [] => some s
  | s, a :: as =>
    match promptStep quiet s a with
    | none => none
    | some s' => promptRun quiet s' as

/-- `AskForPassword` is called, persistence.go:194. -/
def promptStart (t : T) : Prompt T := ⟨t, none, .start, .absent, false, false, false, .alive⟩

end K431
