import Verif.Store
import Verif.SpecNames

/-!
# Specification vocabulary for stores

Words about keys and stores in which the properties are stated.  Apart from the data types of
`Store.lean` nothing of the model is used.
-/

namespace K431
open Spec

/-- Key ids are pairwise different and consist of letters (what `NewKey` produces). -/
structure WellFormed (keys : List Key) : Prop where
  distinct : (keys.map (fun k => k.id.val)).Nodup
  letters : ∀ k ∈ keys, ∀ c ∈ k.id.val, IsLetter c

instance (keys : List Key) : Decidable (WellFormed keys) :=
  decidable_of_iff ((keys.map (fun k => k.id.val)).Nodup ∧ ∀ k ∈ keys, ∀ c ∈ k.id.val, IsLetter c)
    ⟨fun h => ⟨h.1, h.2⟩, fun h => ⟨h.1, h.2⟩⟩

/-- The ids, as strings without surrounding blanks and in capitals, are pairwise different.  (As strings,
since runes that are not characters all become U+FFFD there.) -/
def Distinguishable (U : Unicode) (keys : List Key) : Prop :=
  (keys.map (fun k => toUpperStr U (trimSpace U (goStr k.id.val)))).Nodup

instance (U : Unicode) (keys : List Key) : Decidable (Distinguishable U keys) := by unfold Distinguishable; infer_instance

/-- The store has a key with this id and these key letters. -/
def Holds (keys : List Key) (id pad : Runes) : Prop := ∃ k ∈ keys, k.id.val = id ∧ k.runes = pad

/-- All recipients are keepers of the key; with no recipients, the key has no keepers. -/
def KeptBy (recipients : List Runes) (k : Key) : Prop :=
  if recipients = [] then k.keepers = [] else ∀ r ∈ recipients, ∃ s ∈ k.keepers, s.val = r

instance (r : List Runes) (k : Key) : Decidable (KeptBy r k) := by unfold KeptBy; infer_instance

/-- A key fit for enciphering a message to these recipients. -/
def Selectable (groupSize : Nat) (recipients : List Runes) (k : Key) : Prop :=
  k.used = false ∧ k.id.val.length = groupSize ∧ KeptBy recipients k

instance (g : Nat) (r : List Runes) (k : Key) : Decidable (Selectable g r k) := by
  unfold Selectable; infer_instance

/-- `held` has every pad that a message to the recipients may be enciphered with, if the sender names the key `keyId`: all those of the sender; or, if the sender leaves the choice of the key to the program, those that may be chosen for the recipients. -/
def HoldsPads (groupSize : Nat) (keys : List Key) (recipients : List Runes) (keyId : Runes) (held : List Key) : Prop :=
  (∀ k ∈ keys, Holds held k.id.val k.runes) ∨
  (WellFormed keys ∧ keyId = [] ∧ ∀ k ∈ keys, Selectable groupSize recipients k → Holds held k.id.val k.runes)

/-- The keys (by position) that were not marked used before and are after, each once. -/
def SpentKeys (before after : List Key) (spent : List Nat) : Prop :=
  spent.Nodup ∧ ∀ j, j ∈ spent ↔ ∃ k k', before[j]? = some k ∧ after[j]? = some k' ∧ k.used = false ∧ k'.used = true

/-- A character of the text takes at most `n` letters: four, but only one if the text is capital letters other than Q and Z and spaces. -/
def LettersEach (text : Runes) (n : Nat) : Prop := n = 4 ∨ n = 1 ∧ ∀ c ∈ text, c ∈ firstTable

/-- The text is letters (in either case), blanks and equal signs; its letters, upper-cased, are `w`. -/
def LettersOf (U : Unicode) (text w : Runes) : Prop :=
  (∀ c ∈ text, U.isSpace c = true ∨ c = 61 ∨ IsLetter (U.toUpper c)) ∧
  w = (text.filter (fun c => !(U.isSpace c || c == 61))).map U.toUpper

/-- Number of letters a key can take before the next key must be announced (two control letters
and an id). -/
def capacity (groupSize : Nat) (k : Key) : Nat := k.runes.length - groupSize - 2

/-- Total capacity of the keys fit for a message to these recipients. -/
def available (groupSize : Nat) (recipients : List Runes) (keys : List Key) : Nat :=
  (keys.map (fun k => if Selectable groupSize recipients k then capacity groupSize k else 0)).sum

/-- The invariant of the key store: ids differ up to case, each id has its own array, and the allocator is ahead. -/
structure StoreOk (U : Unicode) (inst : Inst) : Prop where
  distinct : DistinctNames U (inst.keys.map (fun k => k.id.val))
  arrays : (inst.keys.map (fun k => k.id.addr)).Nodup
  fresh : ∀ k ∈ inst.keys, k.id.addr < inst.nextAddr

instance (U : Unicode) (inst : Inst) : Decidable (StoreOk U inst) :=
  decidable_of_iff (DistinctNames U (inst.keys.map (fun k => k.id.val)) ∧ (inst.keys.map (fun k => k.id.addr)).Nodup ∧
    ∀ k ∈ inst.keys, k.id.addr < inst.nextAddr) ⟨fun h => ⟨h.1, h.2.1, h.2.2⟩, fun h => ⟨h.1, h.2, h.3⟩⟩

/-- the key is the same up to the contents of the keepers' arrays -/
structure KeepersOnly (x y : Key) : Prop where
  eq : y = { x with keepers := y.keepers }
  addrs : y.keepers.map Sl.addr = x.keepers.map Sl.addr

/-- The keys have a keeper stored in the same array. -/
def ShareKeeper (x y : Key) : Prop := ∃ s ∈ x.keepers, ∃ t ∈ y.keepers, s.addr = t.addr

instance (x y : Key) : Decidable (ShareKeeper x y) := by unfold ShareKeeper; infer_instance

/-- What a freshly generated key looks like in a store with these settings. -/
structure Fresh (inst : Inst) (expire : Int) (k : Key) : Prop where
  idLength : k.id.val.length = inst.groupSize
  idLetters : ∀ c ∈ k.id.val, IsLetter c
  letters : ∀ c ∈ k.runes, IsLetter c
  whole : ∃ q, k.runes.length = q * inst.groupSize
  long : inst.keyLength ≤ k.runes.length
  notTooLong : k.runes.length < inst.keyLength + inst.groupSize
  unused : k.used = false
  good : k.compromised = false
  expires : k.expires = expire
  noComment : k.comment = []

end K431
