import Verif.HoldLemmas
import Verif.PropsDecipher

/-!
# C104: what can be read stays readable
-/

namespace K431
open Spec

/-- **C104.**  A message that one store deciphers is deciphered to the same text by every store that holds the same pads (and perhaps others), wherever they are in the list of keys and whatever
else is recorded about them.  Both stores mark the same pads as used, and nothing else about the keys changes. -/
theorem C104_decipher (U : Unicode) (hU : U.Lawful) (f : Runes) (a b a' : Inst) (m m' : Msg) (hg : b.groupSize = a.groupSize) (ha : WellFormed a.keys) (hb : WellFormed b.keys)
    (hold : ∀ k ∈ a.keys, ∃ k' ∈ b.keys, k'.id.val = k.id.val ∧ k'.runes = k.runes) (h : decipher U f a m = (.ok (), a', m')) :
    ∃ b' : Inst, ∃ ids : List Runes, decipher U f b m = (.ok (), b', m') ∧
      (∀ (i : Nat) (k : Key), a.keys[i]? = some k → a'.keys[i]? = some { k with used := k.used || ids.contains k.id.val }) ∧
      (∀ (i : Nat) (k : Key), b.keys[i]? = some k → b'.keys[i]? = some { k with used := k.used || ids.contains k.id.val }) := by
  have hc := carries_of_holds hU hb hold
  unfold decipher at h ⊢
  simp only [hg] at h ⊢
  generalize withId f m = m at h ⊢
  by_cases h1 : m.keyId.val.length ≠ a.groupSize
  · simp [h1] at h
  simp only [h1, if_false] at h ⊢
  by_cases h2 : m.cipherText.length < a.groupSize
  · simp [h2] at h
  simp only [h2, if_false] at h ⊢
  cases h3 : getKey U a.keys m.keyId.val with
  | none => rw [h3] at h; simp at h
  | some i =>
    rw [h3] at h
    obtain ⟨k, hk, -⟩ := getKey_some h3
    obtain ⟨j, k', hj, hk', e1, e2⟩ := hc _ i k h3 hk
    rw [hj]
    dsimp only at h ⊢
    cases h4 : decLoop U a.groupSize a.keys m.cipherText ⟨i, 0, [], newState, [i], []⟩ with
    | mk o p =>
      rw [h4] at h
      cases o with
      | err e => simp at h
      | panic => simp at h
      | ok d =>
        obtain ⟨e', h5, h6⟩ := decLoop_alike hc m.cipherText (d := ⟨i, 0, [], newState, [i], []⟩) (e := ⟨j, 0, [], newState, [j], []⟩) ⟨⟨k, k', hk, hk', e2⟩, ⟨rfl, rfl, rfl, rfl⟩, by simp only [List.map_cons, List.map_nil, hk, hk', Option.map_some, e1]⟩ h4
        rw [h5]
        simp only [Prod.mk.injEq, true_and] at h
        have hs := decLoop_stackKeys m.cipherText h4 (by
          intro x hx
          rw [List.mem_singleton.1 hx]
          exact ⟨k, hk⟩)
        have hids : d.stack.map (fun j => (a.keys[j]?).map (fun k => k.id.val)) = (d.stack.map (fun j => ((a.keys[j]?).map (fun k => k.id.val)).getD [])).map some := by
          rw [List.map_map]
          apply List.map_congr_left
          intro x hx
          obtain ⟨kx, hkx⟩ := hs x hx
          simp [hkx]
        refine ⟨_, d.stack.map (fun j => ((a.keys[j]?).map (fun k => k.id.val)).getD []), by rw [← h.2], ?_, ?_⟩
        · intro x kx hx
          rw [← h.1]
          exact marked_ids ha hids x kx hx
        · intro x kx hx
          exact marked_ids hb (h6.stack.trans hids) x kx hx

/-- **C104**, for a message as received: what `TryDecipherPlainText` reads with one store, it reads with the other, and takes the same key. -/
theorem C104_try (U : Unicode) (hU : U.Lawful) (f : Runes) (a b a' : Inst) (m m' : Msg) (hg : b.groupSize = a.groupSize) (ha : WellFormed a.keys) (hb : WellFormed b.keys)
    (hold : ∀ k ∈ a.keys, ∃ k' ∈ b.keys, k'.id.val = k.id.val ∧ k'.runes = k.runes) (h : tryDecipher U f false a m = (.ok (), a', m')) :
    ∃ b' m'', tryDecipher U f false b m = (.ok (), b', m'') ∧ m''.plainText = m'.plainText ∧ m''.cipherText = m'.cipherText ∧ m''.keyId.val = m'.keyId.val ∧ m''.id = m'.id := by
  obtain ⟨h0, w, i, k, h1, h2, h3, h4, h5⟩ := tryDecipher_ok h
  have hc := carries_of_holds hU hb hold
  obtain ⟨j, k', hj, hk', e1, e2⟩ := hc _ i k h3 h4
  obtain ⟨b', ids, h6, -, -⟩ := C104_decipher U hU f { a with nextAddr := a.nextAddr + 1 } { b with nextAddr := b.nextAddr + 1 } a' _ _ hg ha hb hold h5
  have h7 := decipher_addr U f { b with nextAddr := b.nextAddr + 1 } (tryMsg f a m k w) b.nextAddr
  rw [h6] at h7
  have e3 : { tryMsg f a m k w with keyId := ⟨b.nextAddr, (tryMsg f a m k w).keyId.val⟩ } = tryMsg f b m k' w := by simp [tryMsg, e1, hg]
  rw [e3] at h7
  rw [tryDecipher_run h0 h1 (by rw [hg]; exact h2) (by rw [hg]; exact hj) hk', h7]
  refine ⟨_, _, rfl, rfl, rfl, ?_, rfl⟩
  exact (decipher_keyId h5).symm

/-- non-vacuity: the receiving store has the keys of the sender in another order and one more -/
example : WellFormed (exInst [exKey 1 "A" "QWERTYUIOP", exKey 2 "B" "ASDFGHJKLZ"]).keys ∧ WellFormed (exInst [exKey 5 "C" "MNBVCXZLKJ", exKey 4 "B" "ASDFGHJKLZ", exKey 3 "A" "QWERTYUIOP"]).keys ∧
    (∀ k ∈ (exInst [exKey 1 "A" "QWERTYUIOP", exKey 2 "B" "ASDFGHJKLZ"]).keys, ∃ k' ∈ (exInst [exKey 5 "C" "MNBVCXZLKJ", exKey 4 "B" "ASDFGHJKLZ", exKey 3 "A" "QWERTYUIOP"]).keys,
      k'.id.val = k.id.val ∧ k'.runes = k.runes) ∧
    (tryDecipher unicode15 [] false (exInst [exKey 1 "A" "QWERTYUIOP", exKey 2 "B" "ASDFGHJKLZ"]) { exMsg "ABCDEF" with keyId := Sl.nil }).1 = .ok () := by
  refine ⟨by decide, by decide, by decide, by decide⟩

end K431
