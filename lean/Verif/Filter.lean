import Verif.Keys

/-!
# Validity periods (`keys.go:206-235`) and the filters of the command-line program
(`cmd/krypto431/keys.go:39-91`, `cmd/krypto431/messages.go:38-70`)

Times are nanoseconds.  `now` is the reading of the clock; a filter that reads the clock several times reads the same value
(in the program the readings are microseconds apart).
-/

namespace K431

/-- an hour in nanoseconds (`time.Hour`) -/
def hour : Int := 3600000000000

/-- 64-bit wrap-around of `int64` -/
def wrap64 (x : Int) : Int := (x + 9223372036854775808) % 18446744073709551616 - 9223372036854775808

/-- `IsExpired`, keys.go:208-210. -/
def isExpired (now : Int) (k : Key) : Bool := decide (now > k.expires)

/-- `IsValid`, keys.go:233-235. -/
def isValid (now d : Int) (k : Key) : Bool := decide (now + d < k.expires)

/-- `IsValidOneDay`, keys.go:214-216. -/
def isValidOneDay (now : Int) (k : Key) : Bool := isValid now (24 * hour) k
/-- `IsValidOneMonth`, keys.go:220-222. -/
def isValidOneMonth (now : Int) (k : Key) : Bool := isValid now (30 * 24 * hour) k
/-- `IsValidOneYear`, keys.go:226-228. -/
def isValidOneYear (now : Int) (k : Key) : Bool := isValid now (365 * 24 * hour) k

/-- The options of the `keys` command that select keys (cmd/krypto431/functions.go:102-148).  `valid` is `none`
unless the option is given (`c.IsSet(oValid)`). -/
structure KeyOpts where
  all : Bool := false
  ids : List Runes := []
  keepers : List Runes := []
  or : Bool := false
  invalid : Bool := false
  compromised : Bool := false
  used : Bool := false
  unused : Bool := false
  expired : Bool := false
  valid : Option Int := none

/-- Loop over the given ids, cmd/krypto431/keys.go:46-53. -/
def listedFold (U : Unicode) (id : Runes) : List Runes → Bool
  | [] => false
  | x :: xs => if equalRunesFold U (some id) (some x) then true else listedFold U id xs

/-- The option `--valid`, last in the filter, cmd/krypto431/keys.go:82-90. -/
def validOption (now : Int) (valid : Option Int) (k : Key) : Bool :=
  match valid with
  | none => true
  | some n =>
    if k.compromised then false
    else if !isValid now (wrap64 (n * 24 * hour)) k then false
    else true

/-- `filterFunction` of `keys`, cmd/krypto431/keys.go:39-91. -/
def keyFilter (U : Unicode) (now : Int) (o : KeyOpts) (k : Key) : Bool :=
  let ids := vettedKeepers U o.ids
  let keepers := vettedKeepers U o.keepers
  if o.all then true
  else if ids.length > 0 then listedFold U k.id.val ids
  else if keepers.length > 0 && (if o.or then !anyNeedleInHaystack U (some keepers) (some k.names)
      else !allNeedlesInHaystack U (some keepers) (some k.names) false) then false
  else if o.invalid && (k.compromised || isExpired now k) then false
  else if o.compromised && !k.compromised then false
  else if o.used && !k.used then false
  else if o.unused && k.used then false
  else if o.expired && !isExpired now k then false
  else validOption now o.valid k

/-- The options of the `messages` command that select messages. -/
structure MsgOpts where
  all : Bool := false
  ids : List Runes := []
  to : List Runes := []
  or : Bool := false
  from_ : List Runes := []

/-- Loop over the given ids, cmd/krypto431/messages.go:45-52. -/
def listed (id : Runes) : List Runes → Bool
  | [] => false
  | x :: xs => if equalRunes (some id) (some x) then true else listed id xs

/-- `filterFunction` of `messages`, cmd/krypto431/messages.go:38-70. -/
def msgFilter (U : Unicode) (o : MsgOpts) (m : Msg) : Bool :=
  let ids := vettedMessageIds U o.ids
  let addressees := vettedKeepers U o.to
  let senders := vettedKeepers U o.from_
  if o.all then true
  else if ids.length > 0 then listed m.id ids
  else if addressees.length > 0 && (if o.or then !anyNeedleInHaystack U (some addressees) (some m.recipients)
      else !allNeedlesInHaystack U (some addressees) (some m.recipients) false) then false
  else if senders.length > 0 && !anyOfThem U (some senders) (some m.from_) then false
  else true

end K431
