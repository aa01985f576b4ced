import Verif.SpecCipher

/-!
# Stations that send messages to each other

A net has any number of stations, numbered.  Every station has its own store; keys with the same id are copies of the same pad.  A
station sends by a successful `Encipher` (the key is selected automatically); any station may try to decipher, at any time and any
number of times, what has been sent.
-/

namespace K431.Spec

/-- A message on the air: who sent it, its text, key id and ciphertext, and the ids of the pads that it was enciphered with. -/
structure Sent where
  sender : Nat
  text : Runes
  keyId : Runes
  cipherText : Runes
  pads : List Runes

/-- Stations, the messages sent so far, and which station has read which message. -/
structure Net where
  station : Nat → Inst
  sent : List Sent
  read : List (Nat × Nat)

/-- a station gets a new store -/
def Net.set (n : Net) (s : Nat) (i : Inst) : Nat → Inst := fun t => if t = s then i else n.station t

/-- ids of the keys that the parts of a message were enciphered with -/
def padsOf (keys : List Key) (chunks : List Chunk) : List Runes := chunks.filterMap (fun c => (keys[c.key]?).map (fun k => k.id.val))

/-- What can happen; `ready n s` is required of station `s` before it sends. -/
inductive NetStep (U : Unicode) (ready : Net → Nat → Prop) : Net → Net → Prop
  | send (n : Net) (s : Nat) (noise : Nat → Rune) (f : Runes) (m m' : Msg) (chunks : List Chunk) (i : Inst) : ready n s → m.keyId.val = [] →
      encipherT U noise f (n.station s) m = (.ok chunks, i, m') →
      NetStep U ready n ⟨n.set s i, n.sent ++ [⟨s, m.plainText, m'.keyId.val, m'.cipherText, padsOf (n.station s).keys chunks⟩], n.read⟩
  | receive (n : Net) (s : Nat) (f : Runes) (number : Nat) (msg : Sent) (m m' : Msg) (i : Inst) : n.sent[number]? = some msg →
      m.keyId.val = msg.keyId → m.cipherText = msg.cipherText → decipher U f (n.station s) m = (.ok (), i, m') →
      NetStep U ready n ⟨n.set s i, n.sent, (s, number) :: n.read⟩
  | fails (n : Net) (s : Nat) (f : Runes) (m m' : Msg) (i : Inst) (o : Outcome Unit) : o ≠ .ok () →
      decipher U f (n.station s) m = (o, i, m') → NetStep U ready n ⟨n.set s i, n.sent, n.read⟩

/-- At the start: nothing has been sent; all stations have the same group size; ids are of letters, different within a station, and keys
with the same id are copies. -/
structure Net.Start (n : Net) : Prop where
  quiet : n.sent = [] ∧ n.read = []
  size : ∃ g, g ≠ 0 ∧ ∀ s, (n.station s).groupSize = g
  ids : ∀ s, WellFormed (n.station s).keys
  copies : ∀ s t, ∀ k ∈ (n.station s).keys, ∀ l ∈ (n.station t).keys, k.id.val = l.id.val → k.runes = l.runes

/-- The station has read every message of another station that was enciphered with a pad that it holds. -/
def UpToDate (n : Net) (s : Nat) : Prop :=
  ∀ number msg, n.sent[number]? = some msg → msg.sender ≠ s → (∃ k ∈ (n.station s).keys, k.id.val ∈ msg.pads) → (s, number) ∈ n.read

end K431.Spec
