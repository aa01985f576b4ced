import Verif.HeapLemmas

/-!
# Lemmas on exporting in memory
-/

namespace K431.Mem

theorem readRunes_congr {h h' : Heap} {s : Slice} (e : ∀ a, s.Has a → h.runes a = h'.runes a) : readRunes h s = readRunes h' s := by
  unfold readRunes
  refine List.map_congr_left (fun i hi => e _ ⟨by omega, ?_⟩)
  have := List.mem_range.1 hi; omega

theorem readBytes_congr {h h' : Heap} {s : Slice} (e : ∀ a, s.Has a → h.bytes a = h'.bytes a) : readBytes h s = readBytes h' s := by
  unfold readBytes
  refine List.map_congr_left (fun i hi => e _ ⟨by omega, ?_⟩)
  have := List.mem_range.1 hi; omega

theorem readNames_congr {h h' : Heap} {s : Slice} (hh : ∀ j, s.Has j → h.headers j = h'.headers j) (e : ∀ j a, s.Has j → (h.headers j).Has a → h.runes a = h'.runes a) :
    readNames h s = readNames h' s := by
  unfold readNames
  refine List.map_congr_left (fun i hi => ?_)
  have hj : s.Has (s.base + i) := ⟨by omega, by have := List.mem_range.1 hi; omega⟩
  rw [← hh _ hj]
  exact readRunes_congr (fun a ha => e _ a hj ha)

theorem keyVal_congr {h h' : Heap} {k : HKey} (hh : ∀ j, k.keepers.Has j → h.headers j = h'.headers j) (e : ∀ a, KeyCell h k a → h.runes a = h'.runes a) :
    keyVal h k = keyVal h' k := by
  unfold keyVal
  rw [readRunes_congr (s := k.id) (fun a ha => e a (Or.inl ha)), readRunes_congr (s := k.runes) (fun a ha => e a (Or.inr (Or.inl ha))),
    readRunes_congr (s := k.comment) (fun a ha => e a (Or.inr (Or.inr (Or.inl ha)))),
    readNames_congr hh (fun j a hj ha => e a (Or.inr (Or.inr (Or.inr ⟨j, hj, ha⟩))))]

theorem msgVal_congr {h h' : Heap} {m : HMsg} (hh : ∀ j, m.recipients.Has j → h.headers j = h'.headers j) (e : ∀ a, MsgAll h m a → h.runes a = h'.runes a) :
    msgVal h m = msgVal h' m := by
  unfold msgVal
  rw [readRunes_congr (s := m.id) (fun a ha => e a (Or.inl ha)), readRunes_congr (s := m.from_) (fun a ha => e a (Or.inr (Or.inl ha))),
    readRunes_congr (s := m.radiogram) (fun a ha => e a (Or.inr (Or.inr (Or.inl ha)))),
    readRunes_congr (s := m.plainText) (fun a ha => e a (Or.inr (Or.inr (Or.inr (Or.inl (Or.inl ha)))))),
    readRunes_congr (s := m.cipherText) (fun a ha => e a (Or.inr (Or.inr (Or.inr (Or.inl (Or.inr (Or.inl ha))))))),
    readRunes_congr (s := m.keyId) (fun a ha => e a (Or.inr (Or.inr (Or.inr (Or.inl (Or.inr (Or.inr ha))))))),
    readNames_congr hh (fun j a hj ha => e a (Or.inr (Or.inr (Or.inr (Or.inr ⟨j, hj, ha⟩)))))]

theorem range_getD {α : Type} (d : α) (v : List α) (b : Nat) : (List.range v.length).map (fun i => v.getD (b + i - b) d) = v := by
  apply List.ext_getElem
  · simp
  · intro i h1 h2
    simp [Nat.add_sub_cancel_left, h2]

theorem readRunes_new (v : Runes) (h : Heap) : readRunes (newRunes v h).1 (newRunes v h).2 = v := by
  unfold readRunes newRunes
  dsimp only
  conv => rhs; rw [← range_getD 0 v h.nextRune]
  refine List.map_congr_left (fun i hi => ?_)
  have := List.mem_range.1 hi
  rw [if_pos ⟨by omega, by omega⟩]

theorem readPtr_new (v : List Nat) (h : Heap) : readPtr (newBytes v h).1 (some (newBytes v h).2) = some v := by
  unfold readPtr readBytes newBytes
  simp only [Option.map_some, if_true, Option.some.injEq]
  conv => rhs; rw [← range_getD 0 v h.nextByte]
  refine List.map_congr_left (fun i hi => ?_)
  have := List.mem_range.1 hi
  rw [if_pos ⟨by omega, by omega⟩]

theorem readPtr_congr {h h' : Heap} {p : Option Nat} (hp : ∀ q, p = some q → h.ptrs q = h'.ptrs q) (e : ∀ q a, p = some q → (h.ptrs q).Has a → h.bytes a = h'.bytes a) :
    readPtr h p = readPtr h' p := by
  cases p with
  | none => rfl
  | some q =>
    unfold readPtr
    simp only [Option.map_some, Option.some.injEq]
    rw [← hp q rfl]
    exact readBytes_congr (fun a ha => e q a rfl ha)

/-- Memory in use stays as it is. -/
structure Grows (h h' : Heap) : Prop where
  runes : ∀ a, a < h.nextRune → h'.runes a = h.runes a
  headers : h'.headers = h.headers
  bytes : ∀ a, a < h.nextByte → h'.bytes a = h.bytes a
  ptrs : ∀ q, q < h.nextPtr → h'.ptrs q = h.ptrs q
  nextRune : h.nextRune ≤ h'.nextRune
  nextByte : h.nextByte ≤ h'.nextByte
  nextPtr : h.nextPtr ≤ h'.nextPtr

theorem Grows.trans {a b c : Heap} (h : Grows a b) (h' : Grows b c) : Grows a c :=
  ⟨fun x hx => (h'.runes x (Nat.lt_of_lt_of_le hx h.nextRune)).trans (h.runes x hx), h'.headers.trans h.headers,
   fun x hx => (h'.bytes x (Nat.lt_of_lt_of_le hx h.nextByte)).trans (h.bytes x hx), fun x hx => (h'.ptrs x (Nat.lt_of_lt_of_le hx h.nextPtr)).trans (h.ptrs x hx),
   Nat.le_trans h.nextRune h'.nextRune, Nat.le_trans h.nextByte h'.nextByte, Nat.le_trans h.nextPtr h'.nextPtr⟩

theorem newRunes_grows (v : Runes) (h : Heap) : Grows h (newRunes v h).1 :=
  ⟨fun a ha => if_neg (by omega), rfl, fun _ _ => rfl, fun _ _ => rfl, Nat.le_add_right _ _, Nat.le_refl _, Nat.le_refl _⟩

theorem newBytes_grows (v : List Nat) (h : Heap) : Grows h (newBytes v h).1 :=
  ⟨fun _ _ => rfl, rfl, fun a ha => if_neg (by omega), fun q hq => if_neg (by omega), Nat.le_refl _, Nat.le_add_right _ _, Nat.le_add_right _ _⟩

theorem Grows.readPtr {h h' : Heap} (g : Grows h h') {p : Option Nat} (hp : ∀ q, p = some q → q < h.nextPtr ∧ ∀ a, (h.ptrs q).Has a → a < h.nextByte) :
    readPtr h' p = readPtr h p :=
  (readPtr_congr (fun q hq => (g.ptrs q (hp q hq).1).symm) (fun q a hq ha => (g.bytes a ((hp q hq).2 a ha)).symm)).symm

theorem Grows.readRunes {h h' : Heap} (g : Grows h h') {s : Slice} (hs : ∀ a, s.Has a → a < h.nextRune) : readRunes h' s = readRunes h s :=
  readRunes_congr (fun a ha => g.runes a (hs a ha))

theorem Grows.keyVal {h h' : Heap} (g : Grows h h') {k : HKey} (hk : ∀ a, KeyCell h k a → a < h.nextRune) : keyVal h' k = keyVal h k :=
  (keyVal_congr (fun j _ => by rw [g.headers]) (fun a ha => (g.runes a (hk a ha)).symm)).symm

theorem Grows.msgVal {h h' : Heap} (g : Grows h h') {m : HMsg} (hm : ∀ a, MsgAll h m a → a < h.nextRune) : msgVal h' m = msgVal h m :=
  (msgVal_congr (fun j _ => by rw [g.headers]) (fun a ha => (g.runes a (hm a ha)).symm)).symm

theorem export_grows (filter : KeyVal → Bool) (h : Heap) (k : HInst) : Grows h (exportKeys filter h k).1 :=
  ((newBytes_grows _ _).trans (newBytes_grows _ _)).trans (newRunes_grows _ _)

end K431.Mem
