import Verif.Heap

/-!
# Vocabulary for memory
-/

namespace K431.Mem

/-- the slice covers the cell -/
def Slice.Has (s : Slice) (a : Nat) : Prop := s.base ≤ a ∧ a < s.base + s.len

instance (s : Slice) (a : Nat) : Decidable (s.Has a) := inferInstanceAs (Decidable (_ ∧ _))

/-- The cells holding id, letters, comment and keepers of the key. -/
def KeyCell (h : Heap) (k : HKey) (a : Nat) : Prop :=
  k.id.Has a ∨ k.runes.Has a ∨ k.comment.Has a ∨ ∃ j, k.keepers.Has j ∧ (h.headers j).Has a

/-- The cells holding plaintext, ciphertext and key id of the message. -/
def MsgCell (m : HMsg) (a : Nat) : Prop := m.plainText.Has a ∨ m.cipherText.Has a ∨ m.keyId.Has a

/-- all cells of a message -/
def MsgAll (h : Heap) (m : HMsg) (a : Nat) : Prop :=
  m.id.Has a ∨ m.from_.Has a ∨ m.radiogram.Has a ∨ MsgCell m a ∨ ∃ j, m.recipients.Has j ∧ (h.headers j).Has a

/-- The cells of runes holding secrets of the instance. -/
def SecretRune (h : Heap) (k : HInst) (a : Nat) : Prop := (∃ x ∈ k.keys, KeyCell h x a) ∨ ∃ m ∈ k.messages, MsgCell m a

/-- The bytes of the file key and the salt. -/
def SecretByte (h : Heap) (k : HInst) (a : Nat) : Prop := ∃ p, (k.pfk = some p ∨ k.salt = some p) ∧ (h.ptrs p).Has a

/-- Memories that differ at most in the contents of these cells. -/
structure AgreeOff (R B : Nat → Prop) (h h' : Heap) : Prop where
  runes : ∀ a, ¬ R a → h.runes a = h'.runes a
  bytes : ∀ a, ¬ B a → h.bytes a = h'.bytes a
  headers : h.headers = h'.headers
  ptrs : h.ptrs = h'.ptrs
  nextRune : h.nextRune = h'.nextRune
  nextHeader : h.nextHeader = h'.nextHeader
  nextByte : h.nextByte = h'.nextByte
  nextPtr : h.nextPtr = h'.nextPtr
  calls : h.calls = h'.calls

/-- The instance lies in memory in use. -/
structure Fits (h : Heap) (k : HInst) : Prop where
  keys : ∀ x ∈ k.keys, ∀ a, KeyCell h x a → a < h.nextRune
  messages : ∀ m ∈ k.messages, ∀ a, MsgAll h m a → a < h.nextRune
  callSign : ∀ a, k.callSign.Has a → a < h.nextRune
  ptrs : ∀ p, (k.pfk = some p ∨ k.salt = some p) → p < h.nextPtr ∧ ∀ a, (h.ptrs p).Has a → a < h.nextByte

end K431.Mem
