import Verif.Basic

/-!
# Model of the locking in `crand/crand.go`

Goroutines call `Uint64`, `Read` and `ReadRunes` (crand.go:34-58).  The stream of the system's random source is a function from
positions to bytes; the state machine interleaves the goroutines at every access to the mutex or the source.

`binary.Read(r, order, data)` reads `size` bytes with `io.ReadFull` into a buffer of its own, by one or more reads of the source
that each deliver at least one byte, then decodes the buffer into `data`; if a read fails it returns the error and leaves `data` as
it was.
-/

namespace K431

/-- A call of one of the three functions. -/
inductive RCall where
  /-- `Uint64`, crand.go:34-42 -/
  | uint64
  /-- `Read(p)` with `len(p) = n`, crand.go:44-49 -/
  | read (n : Nat)
  /-- `ReadRunes(p)` with `len(p) = n`, crand.go:51-56 -/
  | readRunes (n : Nat)
  deriving DecidableEq, Repr

/-- Bytes `binary.Read` wants: 8 for a `uint64`, one for each byte, four for each rune. -/
def RCall.size : RCall → Nat
  | .uint64 => 8
  | .read n => n
  | .readRunes n => 4 * n

/-- Where a goroutine is. -/
inductive RPhase where
  /-- between calls -/
  | idle
  /-- after `s.Lock()`, in `binary.Read`, with the bytes in its buffer -/
  | reading (c : RCall) (buf : List Nat)
  /-- `binary.Read` has returned (`none`: an error), before `s.Unlock()` -/
  | returned (c : RCall) (res : Option (List Nat))
  /-- after `s.Unlock()` -/
  | unlocked (c : RCall) (res : Option (List Nat))
  /-- `Uint64` has panicked -/
  | panicked
  deriving DecidableEq, Repr

/-- A goroutine: the calls it is still going to make, where it is, and what its finished calls returned. -/
structure RThread where
  todo : List RCall
  phase : RPhase
  results : List (RCall × Option (List Nat))
  deriving DecidableEq, Repr

/-- State of the package and its users: who holds the mutex, how many bytes the source has delivered, the goroutines. -/
structure RState where
  lock : Option Nat
  pos : Nat
  threads : Nat → RThread

/-- `n` bytes of the stream from position `p`. -/
def block (stream : Nat → Nat) (p n : Nat) : List Nat := (List.range n).map (fun i => stream (p + i))

/-- Replace one goroutine. -/
def RState.upd (s : RState) (t : Nat) (th : RThread) : RState := { s with threads := fun u => if u = t then th else s.threads u }

/-- One step of goroutine `t`.  What the goroutine does in each step is crand.go:35-41, 45-48 and 52-55. -/
inductive RStep (stream : Nat → Nat) (t : Nat) (s : RState) : RState → Prop where
  /-- `s.Lock()` returns when the mutex is free -/
  | lock {c : RCall} {cs : List RCall} : (s.threads t).phase = .idle → (s.threads t).todo = c :: cs → s.lock = none →
      RStep stream t s { s.upd t ⟨cs, .reading c [], (s.threads t).results⟩ with lock := some t }
  /-- the source delivers `n` bytes -/
  | more {c : RCall} {buf : List Nat} {n : Nat} : (s.threads t).phase = .reading c buf → 0 < n → buf.length + n ≤ c.size →
      RStep stream t s { s.upd t ⟨(s.threads t).todo, .reading c (buf ++ block stream s.pos n), (s.threads t).results⟩ with pos := s.pos + n }
  /-- the source fails, perhaps after delivering some bytes -/
  | fail {c : RCall} {buf : List Nat} {n : Nat} : (s.threads t).phase = .reading c buf → buf.length + n < c.size →
      RStep stream t s { s.upd t ⟨(s.threads t).todo, .returned c none, (s.threads t).results⟩ with pos := s.pos + n }
  /-- `binary.Read` has all its bytes -/
  | done {c : RCall} {buf : List Nat} : (s.threads t).phase = .reading c buf → buf.length = c.size →
      RStep stream t s (s.upd t ⟨(s.threads t).todo, .returned c (some buf), (s.threads t).results⟩)
  /-- `s.Unlock()` -/
  | unlock {c : RCall} {res : Option (List Nat)} : (s.threads t).phase = .returned c res →
      RStep stream t s { s.upd t ⟨(s.threads t).todo, .unlocked c res, (s.threads t).results⟩ with lock := none }
  /-- the call returns, for `Uint64` if there was no error -/
  | ret {c : RCall} {res : Option (List Nat)} : (s.threads t).phase = .unlocked c res → (c = .uint64 → res ≠ none) →
      RStep stream t s (s.upd t ⟨(s.threads t).todo, .idle, (s.threads t).results ++ [(c, res)]⟩)
  /-- `panic(err)`, crand.go:39 -/
  | panic : (s.threads t).phase = .unlocked .uint64 none →
      RStep stream t s (s.upd t ⟨(s.threads t).todo, .panicked, (s.threads t).results⟩)

/-- At the start the mutex is free and no goroutine has done anything. -/
def RState.start (prog : Nat → List RCall) : RState := ⟨none, 0, fun t => ⟨prog t, .idle, []⟩⟩

/-- Executions: any goroutine makes the next step. -/
inductive RReach (stream : Nat → Nat) (prog : Nat → List RCall) : RState → Prop where
  | start : RReach stream prog (.start prog)
  | step {s s' : RState} {t : Nat} : RReach stream prog s → RStep stream t s s' → RReach stream prog s'

/-- The value `binary.BigEndian` makes of eight bytes. -/
def bigEndian (bs : List Nat) : Nat := bs.foldl (fun v b => v * 256 + b) 0

end K431
