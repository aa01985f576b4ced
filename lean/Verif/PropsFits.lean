import Verif.FitsLemmas
import Verif.PropsEncipher

/-!
# C17: when exactly enciphering succeeds
-/

namespace K431
open Spec

/-- **C17**, exactly: the outcome of enciphering a text over the coding legend, with keys that are chosen by the program, is given by laying out the text on the pads that may be chosen, in the order of the store.  No such pad: "no key found".
The pads do not suffice: "out of keys".  Some pad is overrun, be it by the announcement of the next pad or by the filling of the last group: "key too short".  Otherwise the text is enciphered. -/
theorem C17_exact (U : Unicode) (hU : U.Lawful) (noise : Nat → Rune) (f : Runes) (inst : Inst) (m : Msg)
    (hg : inst.groupSize ≠ 0) (hwf : WellFormed inst.keys) (hkeys : ∀ k ∈ inst.keys, ∀ c ∈ k.runes, IsLetter c)
    (hp : m.plainText ≠ []) (hid : m.keyId.val = []) (hct : m.cipherText = []) (hal : ∀ c ∈ m.plainText, c ∈ alphabet) :
    (encipher U noise f inst m).1 =
      match padLengths inst.groupSize m.recipients inst.keys with
      | [] => .err .noKeyFound
      | n :: pads =>
        match layOut inst.groupSize pads (Pen.fresh n 0) m.plainText with
        | none => .err .outOfKeys
        | some l => if l.fits then .ok () else .err .keyTooShort := by
  obtain ⟨h1, h2⟩ := encipher_auto hU (noise := noise) (f := f) hg hwf hp hid hct
  rcases hf : findKey U inst.groupSize inst.keys m.recipients with _ | i
  · rw [padLengths_none hf, h1 hf]
  obtain ⟨k, hk, hsel, hpl⟩ := padLengths_some hf
  rw [hpl]
  dsimp only
  rcases hl : encLoop U inst.groupSize m.recipients m.plainText ⟨setUsed inst.keys i true, newState, [], ⟨[], i⟩⟩ with ⟨o, s⟩
  exact layOut_outcome hU hwf.2 hkeys hk hal hl (h2 i k hf hk _ _ hl).1 (h2 i k hf hk _ _ hl).2

/-- **C17**, exactly, for a message that names its key: as above, beginning with the pad named.  The next pads are again those that may be chosen; the pad named may be among them, since it is not marked used (see C13). -/
theorem C17_named (U : Unicode) (hU : U.Lawful) (noise : Nat → Rune) (f : Runes) (inst : Inst) (m : Msg)
    (hg : inst.groupSize ≠ 0) (hwf : WellFormed inst.keys) (hkeys : ∀ k ∈ inst.keys, ∀ c ∈ k.runes, IsLetter c)
    (hp : m.plainText ≠ []) (hal : ∀ c ∈ m.plainText, c ∈ alphabet) (k : Key) (hk : k ∈ inst.keys) (hid : m.keyId.val = k.id.val) (hlen : k.id.val.length = inst.groupSize)
    (hu : k.used = false) (hc : k.compromised = false) :
    (encipher U noise f inst m).1 =
      match layOut inst.groupSize (padLengths inst.groupSize m.recipients inst.keys) (Pen.fresh k.runes.length 0) m.plainText with
      | none => .err .outOfKeys
      | some l => if l.fits then .ok () else .err .keyTooShort := by
  obtain ⟨i, hi⟩ := List.mem_iff_getElem?.1 hk
  rcases hl : encLoop U inst.groupSize m.recipients m.plainText ⟨inst.keys, newState, [], ⟨[], i⟩⟩ with ⟨o, s⟩
  obtain ⟨h1, h2⟩ := encipher_named hU (noise := noise) (f := f) hg hwf hp hi hid hlen hu hc hl
  have hsu := setUsed_unused hi hu
  have := layOut_outcome hU hwf.2 hkeys hi hal (b := false) (by rw [hsu]; exact hl) h1 h2
  rw [hsu] at this
  exact this

/-- **C85**, exactly: the number of letters of the ciphertext and the number of keys it takes are those of the layout. -/
theorem C85_exact (U : Unicode) (hU : U.Lawful) (noise : Nat → Rune) (f : Runes) (inst inst' : Inst) (m m' : Msg) (hids : Distinguishable U inst.keys)
    (hid : m.keyId.val = []) (hal : ∀ c ∈ m.plainText, c ∈ alphabet) (h : encipher U noise f inst m = (.ok (), inst', m')) :
    ∃ n pads l, padLengths inst.groupSize m.recipients inst.keys = n :: pads ∧ layOut inst.groupSize pads (Pen.fresh n 0) m.plainText = some l ∧
      m'.cipherText.length = l.letters ∧ ∀ spent, SpentKeys inst.keys inst'.keys spent → spent.length = l.pads := by
  obtain ⟨chunks, hT⟩ := encipher_T h
  obtain ⟨inst1, m1, i, s, out, e⟩ := encipherT_ok hT
  obtain ⟨w1, w2, w3, w4⟩ := withId_fields f m
  have hloop := e.loop
  obtain ⟨hk1, k, hk, -, -⟩ := e.auto_first hU hid hids
  have hpl1 : m1.plainText = m.plainText := by rw [e.enriched.plainText.1, w1]
  have hr1 : m1.recipients = m.recipients := by rw [e.enriched.plainText.2.1, w2]
  have hf : findKey U inst.groupSize inst.keys m.recipients = some i := by
    have hen := e.enriched
    have hfi := e.first
    cases hen with
    | preset _ _ h1 => exact absurd (by rw [w3]; exact hid) h1
    | auto i' k' _ _ h3 h4 =>
      rw [w2] at h3
      have := (getKey_congr U k'.id.val (setUsed_sameMat inst.keys i' true).ids)
      rw [this] at hfi
      rw [← hids.getKey hU h4 hfi] at h3
      exact h3
  obtain ⟨k2, hk2, -, hpl⟩ := padLengths_some hf
  rw [hk] at hk2; cases hk2
  have hpen : penOf ⟨setUsed inst.keys i true, newState, [], ⟨[], i⟩⟩ = Pen.fresh k.runes.length 0 := by
    simp [penOf, Pen.fresh, keyLenAt_setUsed, keyLenAt_eq hk, totalLength, newState]
  rw [hk1, hpl1, hr1] at hloop
  rcases encLoop_layOut hU m.plainText _ (loopOk_start (setUsed inst.keys i true) i) hal (g := inst.groupSize) (r := m.recipients) with
    ⟨-, c⟩ | ⟨l, s2, more, a, q, d, -, hn, ht, -⟩
  · rw [hloop] at c; cases c
  · rw [hloop] at q
    simp only [Prod.mk.injEq, true_and] at q
    subst q
    rw [hpen] at a
    refine ⟨_, _, l, hpl, a, ?_, fun spent hs => ?_⟩
    · have := (cipherChunks_spec _ _ _ e.ciphered).1
      rw [e.hm, this, e.hchunks, totalLength_append, ht]
      simp [totalLength]
      omega
    · rw [e.spent_length hU hids hid hs, e.hchunks, hn, d]
      simp

/-- The witness of `C17_violated`, counted: the ten letters of the first pad are six for "ABCDEF", four for "g" and then six for the announcement. -/
example : padLengths 1 [] exFive.keys = [10, 10, 10, 10, 10] := by decide
example : layOut 1 [10, 10, 10, 10] (Pen.fresh 10 0) (lit "ABCDEFgA") = some ⟨false, 14, 2⟩ := by decide
example : layOut 1 [10, 10, 10, 10] (Pen.fresh 10 0) (lit "ABCDEFGAB") = some ⟨true, 12, 2⟩ := by decide
example : layOut 1 [] (Pen.fresh 10 0) (lit "ABCDEFGAB") = none := by decide

/-- non-vacuity of `C17_named`: a message that names its key, and what the layout says of it -/
example : (encipher unicode15 (fun _ => 0) [] exFive { exMsg "ABCDEFGAB" with keyId := ⟨9, [66]⟩ }).1 = .ok () ∧
    layOut 1 (padLengths 1 [] exFive.keys) (Pen.fresh 10 0) (lit "ABCDEFGAB") = some ⟨true, 12, 2⟩ := by decide

end K431
