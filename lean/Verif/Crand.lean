import Verif.Basic

/-!
# Model of `crand/crand.go` and the part of `math/rand` it relies on

The operating system's random source is a tape of 64-bit words (natural numbers below 2^64).  A
function that needs a word while the tape is used up has not returned yet: `none`.
-/

namespace K431

/-- Words delivered by `crypto/rand.Reader`, each as read by `binary.Read(…, &v)` (crand.go:36). -/
abbrev Tape := List Nat

/-- `cryptoRandSource.Int63`, crand.go:31-33: `int64(v & ^uint64(1<<63))`. -/
def int63 (v : Nat) : Nat := v &&& (2 ^ 64 - 1 - 2 ^ 63)

/-- `Rand.Int31` of math/rand: `int32(r.Int63() >> 32)`. -/
def int31 (v : Nat) : Nat := int63 v >>> 32

/-- Rejection loop of `Rand.Int31n` of math/rand: `v := r.Int31(); for v > max { v = r.Int31() }; return v % n`. -/
def int31nLoop (n max : Nat) : Tape → Option (Nat × Tape)
  | [] => none
  | v :: t => if int31 v > max then int31nLoop n max t else some (int31 v % n, t)

/-- `Rand.Int31n` of math/rand for `n > 0`: a power of two is masked, otherwise
`max := (1<<31) - 1 - (1<<31)%n` and rejection. -/
def int31n (n : Nat) (t : Tape) : Option (Nat × Tape) :=
  if n &&& (n - 1) = 0 then
    match t with
    | [] => none
    | v :: t => some (int31 v &&& (n - 1), t)
  else int31nLoop n (2 ^ 31 - 1 - 2 ^ 31 % n) t

/-- Rejection loop of `Rand.Int63n` of math/rand. -/
def int63nLoop (n max : Nat) : Tape → Option (Nat × Tape)
  | [] => none
  | v :: t => if int63 v > max then int63nLoop n max t else some (int63 v % n, t)

/-- `Rand.Int63n` of math/rand for `n > 0`. -/
def int63n (n : Nat) (t : Tape) : Option (Nat × Tape) :=
  if n &&& (n - 1) = 0 then
    match t with
    | [] => none
    | v :: t => some (int63 v &&& (n - 1), t)
  else int63nLoop n (2 ^ 63 - 1 - 2 ^ 63 % n) t

/-- `crand.Intn`, crand.go:67, i.e. `Rand.Intn` of math/rand for `n > 0` (it panics for `n ≤ 0`; the
program calls it with 26 and 62 only). -/
def intn (n : Nat) (t : Tape) : Option (Nat × Tape) :=
  if n ≤ 2 ^ 31 - 1 then int31n n t else int63n n t

/-- `k` successive calls `Intn(n)`, as in the loops keys.go:61-63, 74-76 and functions.go:36-47. -/
def intns (n : Nat) : Nat → Tape → Option (List Nat × Tape)
  | 0, t => some ([], t)
  | k + 1, t =>
    match intn n t with
    | none => none
    | some (x, t) =>
      match intns n k t with
      | none => none
      | some (xs, t) => some (x :: xs, t)

/-- A letter of a generated key or id, keys.go:62 and 75: `rune(crand.Intn(26)) + rune('A')`. -/
def letterOf (x : Nat) : Rune := x + 65

/-- `RandomAlnumRunes`, functions.go:35-48, one rune. -/
def alnumOf (num : Nat) : Rune :=
  if num < 26 then num + 65 else if num ≥ 26 ∧ num < 52 then num - 26 + 97 else num - 52 + 48

/-- `RandomAlnumRunes`, functions.go:33-50. -/
def randomAlnumRunes (n : Nat) (t : Tape) : Option (Runes × Tape) :=
  (intns 62 n t).map (fun p => (p.1.map alnumOf, p.2))

end K431
