import Verif.DianaLemmas

/-!
# Properties of the DIANA trigraph (C01, C02, C05, C06)
-/

namespace K431
open Spec

/-- **C01.** For any two letters, whatever the destination holds: the call succeeds and writes
the letter `z` completing the trigraph, and any two of the three letters give the third, in any
order.  The byte version writes the same letter. -/
theorem C01_trigraph_reciprocal (w w' x y : Int) (hx : IsLetter x) (hy : IsLetter y) :
    ∃ z, IsLetter z ∧ (pos x + pos y + pos z) % 26 = 25 ∧
      trigraphRune (some w) (some x) (some y) = (.ok (), some z) ∧
      trigraphRune (some w') (some y) (some x) = (.ok (), some z) ∧
      trigraphRune (some w') (some x) (some z) = (.ok (), some y) ∧
      trigraphRune (some w') (some z) (some x) = (.ok (), some y) ∧
      trigraphRune (some w') (some y) (some z) = (.ok (), some x) ∧
      trigraphRune (some w') (some z) (some y) = (.ok (), some x) ∧
      trigraphByte (some w') (some x) (some y) = (.ok (), some z) := by
  have hz := trigraphValue_spec x y hx hy
  have key : ∀ a b c v, Trigraph a b c → trigraphRune (some v) (some a) (some b) = (.ok (), some c) := by
    intro a b c v h
    have h0 := (inRange_iff a b).2 ⟨h.1, h.2.1⟩
    have h1 := (trigraph_ok_iff a b c).2 h
    simp only [trigraph, h0, Bool.false_eq_true, if_false, Outcome.ok.injEq] at h1
    simp [trigraphRune, h0, h1]
  have ht : Trigraph x y (trigraphValue x y) := ⟨hx, hy, hz.1, hz.2⟩
  refine ⟨trigraphValue x y, hz.1, hz.2, key _ _ _ _ ht, key _ _ _ _ ht.swap12,
    key _ _ _ _ ht.swap23, key _ _ _ _ ht.swap23.swap12,
    key _ _ _ _ ht.swap12.swap23, key _ _ _ _ ht.swap13, ?_⟩
  have h0 := (inRange_iff x y).2 ⟨hx, hy⟩
  have h3 : trigraphValue x y % 256 = trigraphValue x y := by
    have := hz.1; unfold IsLetter at this; omega
  simp [trigraphByte, h0, h3]

/-- non-vacuity: L and T are letters, their trigraph is V -/
example : IsLetter 76 ∧ IsLetter 84 ∧ trigraphRune (some 0) (some 76) (some 84) = (.ok (), some 86) := by
  decide

/-- **C02.** The trigraph functions fail exactly on nil pointers or letters outside A..Z, the
destination is then unchanged, and they never panic. -/
theorem C02_trigraph_rejects (w x y : Option Int) :
    ((∃ w0 x0 y0, w = some w0 ∧ x = some x0 ∧ y = some y0 ∧ IsLetter x0 ∧ IsLetter y0) ∧
      (trigraphRune w x y).1 = .ok () ∧ (trigraphByte w x y).1 = .ok ()) ∨
    (¬ (∃ w0 x0 y0, w = some w0 ∧ x = some x0 ∧ y = some y0 ∧ IsLetter x0 ∧ IsLetter y0) ∧
      (∃ e, (trigraphRune w x y).1 = .err e) ∧ (∃ e, (trigraphByte w x y).1 = .err e) ∧
      (trigraphRune w x y).2 = w ∧ (trigraphByte w x y).2 = w) := by
  rcases w with _ | w <;> rcases x with _ | x <;> rcases y with _ | y <;>
    try (right; simp [trigraphRune, trigraphByte]; done)
  rcases hb : trigraphOutOfRange x y with _ | _
  · left
    have := (inRange_iff x y).1 hb
    exact ⟨⟨w, x, y, rfl, rfl, rfl, this⟩, by simp [trigraphRune, hb], by simp [trigraphByte, hb]⟩
  · right
    refine ⟨?_, by simp [trigraphRune, hb], by simp [trigraphByte, hb], by simp [trigraphRune, hb],
      by simp [trigraphByte, hb]⟩
    rintro ⟨w0, x0, y0, hw, hx, hy, h⟩
    cases hx; cases hy
    rw [(inRange_iff x y).2 h] at hb; cases hb

/-- non-vacuity of both alternatives -/
example : (trigraphRune (some 7) (some 65) (some 65)).1 = .ok () := by decide
example : trigraphRune (some 7) (some 64) (some 65) = (.err .outOfRange, some 7) ∧
    trigraphRune (some 7) none (some 65) = (.err .nilPointer, some 7) := by decide

/-- **C05.** The zero key letter of `c` is the one and only key letter enciphering `c` to itself. -/
theorem C05_zero_key (w c : Int) (hc : IsLetter c) :
    ∃ k, zeroKeyRune (some w) (some c) = (.ok (), some k) ∧
      zeroKeyByte (some w) (some c) = (.ok (), some k) ∧
      trigraphRune (some w) (some k) (some c) = (.ok (), some c) ∧
      ∀ k', trigraphRune (some w) (some k') (some c) = (.ok (), some c) → k' = k := by
  obtain ⟨z, hz, hsum, h1, _, _, h3, _, _, h4⟩ := C01_trigraph_reciprocal w w c c hc hc
  refine ⟨z, h1, h4, h3, ?_⟩
  intro k' hk
  rcases hb : trigraphOutOfRange k' c with _ | _
  · have hl := (inRange_iff k' c).1 hb
    simp only [trigraphRune, hb, Bool.false_eq_true, if_false, Prod.mk.injEq, true_and,
      Option.some.injEq] at hk
    have := trigraphValue_spec k' c hl.1 hl.2
    rw [hk] at this
    have h1 : Trigraph k' c c := ⟨hl.1, hl.2, this⟩
    have h2 : Trigraph c c z := ⟨hc, hc, hz, hsum⟩
    exact Trigraph.unique (x := c) (y := c) h1.swap13 h2
  · simp [trigraphRune, hb] at hk

example : zeroKeyRune (some 0) (some 72) = (.ok (), some 76) := by decide

/-- The full claim of **C06**: never a panic, out-of-range indices are errors without effect, and a
valid index with letters succeeds. -/
def C06_Statement : Prop :=
  ∀ (out key : List Int) (c i : Int),
    let r := appendTrigraphByteByKey (some out) (some c) (some key) (some i)
    ((i < 0 ∨ i ≥ key.length) → (∃ e, r.1 = .err e) ∧ r.2 = ⟨some out, some i⟩) ∧
    (∀ k, 0 ≤ i → key[i.toNat]? = some k → IsLetter k → IsLetter c →
      ∃ z, Trigraph k c z ∧ r = (.ok (), ⟨some (out ++ [z]), some (i + 1)⟩))

/-- **C06 does not hold**: the bounds check compares the index with the length of the output, not
of the key.  Two letters already written and an empty key: index 1 panics. -/
theorem C06_violated : ¬ C06_Statement := by
  intro h
  obtain ⟨⟨e, he⟩, _⟩ := (h [65, 66] [] 65 1).1 (Or.inr (by decide))
  have hp : (appendTrigraphByteByKey (some [65, 66]) (some 65) (some []) (some 1)).1 = .panic := by
    decide
  rw [hp] at he
  cases he

/-- and a valid index is refused: output empty, key of two letters, index 1 -/
theorem C06_violated_refused :
    ∃ (out key : List Int) (c i : Int), 0 ≤ i ∧ i < key.length ∧ (∀ k ∈ key, IsLetter k) ∧ IsLetter c ∧
      appendTrigraphByteByKey (some out) (some c) (some key) (some i) =
        (.err .keyIndexOutOfBounds, ⟨some out, some i⟩) :=
  ⟨[], [65, 66], 65, 1, by decide⟩

/-- **C06, what does hold.** Negative indices are refused without effect; an index beyond both
the output and the key is refused without effect; a key index within the key and not beyond the output, with
letters, appends exactly the trigraph and advances the index; nil pointers are refused without effect.
Missing: an index not beyond the output but beyond the key panics, an index within the key but
beyond the output is refused. -/
theorem C06_append_partial (out key : List Int) (c i : Int) :
    (i < 0 → (∃ e, (appendTrigraphByteByKey (some out) (some c) (some key) (some i)).1 = .err e) ∧
      (appendTrigraphByteByKey (some out) (some c) (some key) (some i)).2 = ⟨some out, some i⟩) ∧
    (i > out.length → i ≥ key.length →
      (∃ e, (appendTrigraphByteByKey (some out) (some c) (some key) (some i)).1 = .err e) ∧
      (appendTrigraphByteByKey (some out) (some c) (some key) (some i)).2 = ⟨some out, some i⟩) ∧
    (∀ k, 0 ≤ i → i ≤ out.length → key[i.toNat]? = some k → IsLetter k → IsLetter c →
      ∃ z, Trigraph k c z ∧
        appendTrigraphByteByKey (some out) (some c) (some key) (some i) =
          (.ok (), ⟨some (out ++ [z]), some (i + 1)⟩)) ∧
    (∀ w ch ky ix, (w = none ∨ ch = none ∨ ky = none ∨ ix = none) →
      appendTrigraphByteByKey w ch ky ix = (.err .nilPointer, ⟨w, ix⟩)) := by
  refine ⟨?_, ?_, ?_, ?_⟩
  · intro h; simp [appendTrigraphByteByKey, h]
  · intro h _
    have h0 : ¬ i < 0 := by omega
    simp [appendTrigraphByteByKey, h0, h]
  · intro k h0 h1 hk hkl hcl
    obtain ⟨z, hz, hsum, hr, hr2, _, _, _, _, hb⟩ := C01_trigraph_reciprocal 0 0 c k hcl hkl
    refine ⟨z, ⟨hkl, hcl, hz, by omega⟩, ?_⟩
    have h0' : ¬ i < 0 := by omega
    have h1' : ¬ (i > out.length) := by omega
    simp only [appendTrigraphByteByKey, if_neg h0', if_neg h1', hk, hb]
  · intro w ch ky ix h
    rcases w with _ | w <;> rcases ch with _ | ch <;> rcases ky with _ | ky <;> rcases ix with _ | ix <;>
      first
        | rfl
        | (simp at h)

example : appendTrigraphByteByKey (some []) (some 72) (some [76]) (some 0) =
    (.ok (), ⟨some [72], some 1⟩) := by decide

end K431
