import Verif.DecLemmas
import Verif.PropsCipher
import Verif.PropsFunctions

/-!
# Properties of Decipher and TryDecipherPlainText (C11, C20, C21, C22, C62, C63)
-/

namespace K431
open Spec

/-! ## C20: Decipher marks exactly the keys it used -/

/-- **C20.** `Decipher` never panics, on any ciphertext and any store.  It changes nothing of the message but
its text (and a missing message id).  If it fails, the instance is unchanged.  If it succeeds, the
ciphertext splits into parts (`chunks`, as in C13): each ciphertext letter and its key letter form a trigraph with the coded letter; the first part's key is the
one named by the message's key id; every other part's key is the one whose id are the last
letters of the part before; exactly the keys of the parts are marked, in addition to those already
marked; and nothing else of any key, and nothing else of the instance, changes. -/
theorem C20_decipher_marks (U : Unicode) (hU : U.Lawful) (f : Runes) (inst inst' : Inst) (m m' : Msg)
    (o : Outcome Unit) (hg : inst.groupSize ≠ 0) (h : decipher U f inst m = (o, inst', m')) :
    o ≠ .panic ∧ (o ≠ .ok () → inst' = inst) ∧ m' = { withId f m with plainText := m'.plainText } ∧
    (o = .ok () → ∃ chunks keys', inst' = { inst with keys := keys' } ∧
      (lettersUsed chunks).length = m.cipherText.length ∧
      (∀ (n j p : Nat) (z : Rune), (lettersUsed chunks)[n]? = some (j, p) → m.cipherText[n]? = some z →
        ∃ k kr e, inst.keys[j]? = some k ∧ k.runes[p]? = some kr ∧
          (chunks.flatMap Chunk.enc)[n]? = some e ∧ Trigraph kr e z) ∧
      (keysOf chunks).head? = getKey U inst.keys m.keyId.val ∧ chunks ≠ [] ∧
      Announced inst.groupSize inst.keys chunks ∧
      keys'.length = inst.keys.length ∧
      ∀ (j : Nat) (k : Key), inst.keys[j]? = some k →
        keys'[j]? = some { k with used := k.used || decide (j ∈ keysOf chunks) }) := by
  obtain ⟨h1, h2, _⟩ := decipher_fail h
  suffices hs : o ≠ .panic ∧ (o = .ok () → ∃ i d p, getKey U inst.keys m.keyId.val = some i ∧
      decLoop U inst.groupSize inst.keys m.cipherText ⟨i, 0, [], newState, [i], []⟩ = (.ok d, p) ∧
      inst' = { inst with keys := d.stack.foldl (fun ks j => setUsed ks j true) inst.keys }) by
    refine ⟨hs.1, h1, h2, ?_⟩
    intro ho
    obtain ⟨i, d, p, hi, hd, rfl⟩ := hs.2 ho
    obtain ⟨k, hk, _⟩ := getKey_some hi
    obtain ⟨cs, pre, a1, a2, a3, a4, a5, _⟩ := (decLoop_inv hU _ _ _ (DInv.start _ hg _ i k hk)).2 _ _ hd
    obtain ⟨b1, b2⟩ := cipherChunks_letters _ _ _ a1
    refine ⟨_, _, rfl, b1, b2, ?_, by simp, a4, foldl_setUsed_length _ _, ?_⟩
    · rw [← a2, a5, hi]
    · intro j k hk
      rw [foldl_setUsed, hk, ← a2]; rfl
  unfold decipher at h
  simp only [(withId_fields f m).2.2.1, (withId_fields f m).2.2.2] at h
  by_cases c1 : m.keyId.val.length ≠ inst.groupSize
  · rw [if_pos c1] at h; cases h; exact ⟨by simp, by simp⟩
  rw [if_neg c1] at h
  by_cases c2 : m.cipherText.length < inst.groupSize
  · rw [if_pos c2] at h; cases h; exact ⟨by simp, by simp⟩
  rw [if_neg c2] at h
  rcases hk : getKey U inst.keys m.keyId.val with _ | i
  · rw [hk] at h; cases h; exact ⟨by simp, by simp⟩
  rw [hk] at h
  simp only at h
  obtain ⟨k, hk1, _⟩ := getKey_some hk
  have hinv := decLoop_inv hU m.cipherText _ _ (DInv.start _ hg _ i k hk1)
  rcases hd : decLoop U inst.groupSize inst.keys m.cipherText ⟨i, 0, [], newState, [i], []⟩ with ⟨d | e | _, p⟩
  · rw [hd] at h; cases h
    exact ⟨by simp, fun _ => ⟨i, d, p, rfl, hd, rfl⟩⟩
  · rw [hd] at h; cases h; exact ⟨by simp, by simp⟩
  · exact absurd (by rw [hd]) hinv.1

/-- non-vacuity: the two-key message of C10 marks both keys at the receiver -/
example : (let r := encipher unicode15 (fun _ => 0) [] ex2 (exMsg "HEJ DU DIN")
    let d := decipher unicode15 [] ex2 { exMsg "" with keyId := r.2.2.keyId, cipherText := r.2.2.cipherText }
    d.1 = .ok () ∧ d.2.1.keys.map Key.used = [true, true]) := by decide

/-! ## C21, C22: TryDecipherPlainText -/

/-- **C21.** If `TryDecipherPlainText` does not succeed, the message's key id, text and ciphertext and the keys,
messages and settings of the instance are what they were; and it never panics. -/
theorem C21_all_or_nothing (U : Unicode) (hU : U.Lawful) (f : Runes) (dry : Bool) (inst inst' : Inst)
    (m m' : Msg) (o : Outcome Unit) (hg : inst.groupSize ≠ 0)
    (h : tryDecipher U f dry inst m = (o, inst', m')) :
    o ≠ .panic ∧ (o ≠ .ok () →
      m'.keyId.val = m.keyId.val ∧ m'.plainText = m.plainText ∧ m'.cipherText = m.cipherText ∧
      m' = { withId f m with keyId := m'.keyId } ∧
      inst' = { inst with nextAddr := inst'.nextAddr }) := by
  obtain ⟨w1, w2, w3, w4⟩ := withId_fields f m
  unfold tryDecipher at h
  simp only at h
  by_cases c1 : (withId f m).keyId.val.length > 0
  · rw [if_pos c1] at h; cases h; exact ⟨by simp, fun _ => ⟨by rw [w3], w1, w4, rfl, rfl⟩⟩
  rw [if_neg c1] at h
  rcases hf : filterText U (withId f m).plainText with _ | filtered
  · rw [hf] at h; cases h; exact ⟨by simp, fun _ => ⟨by rw [w3], w1, w4, rfl, rfl⟩⟩
  rw [hf] at h
  simp only at h
  by_cases c2 : filtered.length < inst.groupSize * 2
  · rw [if_pos c2] at h; cases h; exact ⟨by simp, fun _ => ⟨by rw [w3], w1, w4, rfl, rfl⟩⟩
  rw [if_neg c2] at h
  rcases hk : getKey U inst.keys (filtered.take inst.groupSize) with _ | i
  · rw [hk] at h; cases h; exact ⟨by simp, fun _ => ⟨by rw [w3], w1, w4, rfl, rfl⟩⟩
  rw [hk] at h
  simp only at h
  by_cases c3 : dry = true
  · rw [if_pos c3] at h; cases h; exact ⟨by simp, by simp⟩
  rw [if_neg c3] at h
  obtain ⟨k, hk1, _⟩ := getKey_some hk
  rw [hk1] at h
  simp only at h
  have hkid : m.keyId.val = [] := by
    rw [w3] at c1; exact List.length_eq_zero_iff.1 (by omega)
  rcases hd : decipher U f { inst with nextAddr := inst.nextAddr + 1 }
      { withId f m with keyId := ⟨inst.nextAddr, k.id.val⟩, cipherText := filtered.drop inst.groupSize } with ⟨o1, i1, m1⟩
  obtain ⟨a1, a2, a3, _⟩ := C20_decipher_marks U hU f { inst with nextAddr := inst.nextAddr + 1 } _ _ _ _ hg hd
  have hid : (withId f { withId f m with
      keyId := ⟨inst.nextAddr, k.id.val⟩, cipherText := filtered.drop inst.groupSize }) =
      { withId f m with keyId := ⟨inst.nextAddr, k.id.val⟩, cipherText := filtered.drop inst.groupSize } := by
    unfold withId
    by_cases c : m.id.length = 0
    · by_cases c' : f.length = 0
      · simp [c, List.length_eq_zero_iff.1 c']
      · simp [c, c']
    · simp [c]
  rw [hid] at a3
  rcases o1 with _ | e | _
  · rw [hd] at h; cases h; exact ⟨by simp, by simp⟩
  · rw [hd] at h
    simp only [Prod.mk.injEq] at h
    obtain ⟨rfl, rfl, rfl⟩ := h
    refine ⟨by simp, fun _ => ⟨by simp [hkid, Sl.nil], w1, w4, ?_, ?_⟩⟩
    · rw [a3]
    · rw [a2 (by simp)]
  · exact absurd rfl a1

/-- non-vacuity: letters that name a key but do not decipher (the key is too short) -/
example : (tryDecipher unicode15 [] false ex2 (exMsg "A BBBBBBBBBBBBBBBBB")).1 = .err .notCipherText ∧
    (tryDecipher unicode15 [] false ex2 (exMsg "A BBBBBBBBBBBBBBBBB")).2.2 = exMsg "A BBBBBBBBBBBBBBBBB" := by decide

/-- **C22.** The dry run changes nothing (a missing message id is filled in), and it succeeds
exactly if the message has no key id yet, its text is letters, blanks and '=' with at least two
groups of letters, and the first group is the id of a key in the store. -/
theorem C22_dry_run (U : Unicode) (hU : U.Lawful) (f : Runes) (inst inst' : Inst) (m m' : Msg)
    (o : Outcome Unit) (h : tryDecipher U f true inst m = (o, inst', m')) :
    inst' = inst ∧ m' = withId f m ∧
    (o = .ok () ↔ m.keyId.val = [] ∧ ∃ w, LettersOf U m.plainText w ∧ 2 * inst.groupSize ≤ w.length ∧
      ∃ k ∈ inst.keys, k.id.val = w.take inst.groupSize) := by
  obtain ⟨w1, w2, w3, w4⟩ := withId_fields f m
  unfold tryDecipher at h
  simp only [w1, w3] at h
  by_cases c1 : m.keyId.val.length > 0
  · rw [if_pos c1] at h; cases h
    refine ⟨rfl, rfl, by simp, ?_⟩
    rintro ⟨hn, _⟩; rw [hn] at c1; simp at c1
  rw [if_neg c1] at h
  have hk0 : m.keyId.val = [] := List.length_eq_zero_iff.1 (by omega)
  rcases hf : filterText U m.plainText with _ | filtered
  · rw [hf] at h; cases h
    refine ⟨rfl, rfl, by simp, ?_⟩
    rintro ⟨_, w, hw, _⟩
    rw [(filterText_iff U _ _).2 hw] at hf; cases hf
  rw [hf] at h
  simp only at h
  have huniq : ∀ w, LettersOf U m.plainText w → w = filtered := by
    intro w hw
    rw [(filterText_iff U _ _).2 hw] at hf; cases hf; rfl
  by_cases c2 : filtered.length < inst.groupSize * 2
  · rw [if_pos c2] at h; cases h
    refine ⟨rfl, rfl, by simp, ?_⟩
    rintro ⟨_, w, hw, hl, _⟩
    rw [huniq w hw] at hl; omega
  rw [if_neg c2] at h
  have hlet := ((filterText_iff U _ _).1 hf).take_letters inst.groupSize
  rcases hk : getKey U inst.keys (filtered.take inst.groupSize) with _ | i
  · rw [hk] at h; cases h
    refine ⟨rfl, rfl, by simp, ?_⟩
    rintro ⟨_, w, hw, _, k, hkm, hki⟩
    rw [huniq w hw] at hki
    have := getKey_none hk k hkm
    rw [lookupName_letters hU hlet] at this
    rw [hki, goStr_letters hlet] at this
    exact absurd rfl this
  rw [hk] at h
  simp only [if_true] at h
  cases h
  refine ⟨rfl, rfl, fun _ => ?_, fun _ => rfl⟩
  obtain ⟨k, hk1, hk2, _⟩ := getKey_some hk
  rw [lookupName_letters hU hlet, goStr_eq_letters hlet] at hk2
  exact ⟨hk0, filtered, (filterText_iff U _ _).1 hf, by omega, k, List.mem_of_getElem? hk1, hk2⟩

/-- non-vacuity -/
example : (tryDecipher unicode15 [] true ex2 (exMsg "b = hej")).1 = .ok () ∧
    (tryDecipher unicode15 [] true ex2 (exMsg "c = hej")).1 = .err .notCipherText := by decide

/-! ## C63: a deciphered message is left alone -/

/-- **C63.** After `TryDecipherPlainText` succeeded, calling it again (dry or not) is refused and changes
nothing at all. -/
theorem C63_try_again (U : Unicode) (hU : U.Lawful) (f f' : Runes) (dry : Bool) (inst inst' : Inst) (m m' : Msg)
    (hg : inst.groupSize ≠ 0) (hid : f ≠ []) (h : tryDecipher U f false inst m = (.ok (), inst', m')) :
    tryDecipher U f' dry inst' m' = (.err .notCipherText, inst', m') := by
  obtain ⟨_, w, i, k, hf, hl, hk, hk1, hd⟩ := tryDecipher_ok h
  obtain ⟨_, _, hk2, _⟩ := getKey_some hk
  rw [‹inst.keys[i]? = some _›] at hk1; cases hk1
  obtain ⟨a1, a2, a3, _⟩ := C20_decipher_marks U hU f { inst with nextAddr := inst.nextAddr + 1 } _ _ _ _ hg hd
  have hkid : m'.keyId.val.length > 0 := by
    rw [a3]
    simp only [(withId_fields f _).2.2.1, tryMsg]
    have hlet := ((filterText_iff U _ _).1 hf).take_letters inst.groupSize
    rw [lookupName_letters hU hlet] at hk2
    have := congrArg List.length hk2
    simp [goStr] at this
    omega
  have hmid : m'.id.length ≠ 0 := by
    rw [a3]
    have : ∀ x : Msg, (withId f x).id.length ≠ 0 := by
      intro x
      unfold withId
      by_cases c : x.id.length = 0
      · simp [c, hid]
      · simp [c]
    exact this _
  have hw : withId f' m' = m' := by unfold withId; rw [if_neg hmid]
  unfold tryDecipher
  simp only [hw]
  rw [if_pos hkid]

/-- non-vacuity -/
example : (tryDecipher unicode15 (lit "ID00") false ex2 (exMsg "A QQQ")).1 = .ok () := by decide

/-! ## C11: what is transmitted can be received -/

/-- **C11**, for any layout: a station that holds the sender's keys, or at least those that may have been chosen for the recipients, and enters any text whose letters are
the key id and the ciphertext, with blanks, line breaks, '=' and lower case as they please, gets key id, ciphertext
and text of the sender. -/
theorem C11_receive (U : Unicode) (hU : U.Lawful) (noise : Nat → Rune) (f f' : Runes)
    (inst inst' : Inst) (m m' : Msg) (htext : ∀ c ∈ m.plainText, c ∈ alphabet)
    (henc : encipher U noise f inst m = (.ok (), inst', m'))
    (rcv : Inst) (hg : rcv.groupSize = inst.groupSize) (hwf : WellFormed rcv.keys)
    (hholds : HoldsPads inst.groupSize inst.keys m.recipients m.keyId.val rcv.keys)
    (msg : Msg) (hk : msg.keyId.val = []) (ht : LettersOf U msg.plainText (m'.keyId.val ++ m'.cipherText)) :
    ∃ rcv' msg', tryDecipher U f' false rcv msg = (.ok (), rcv', msg') ∧ msg'.keyId.val = m'.keyId.val ∧
      msg'.cipherText = m'.cipherText ∧ msg'.plainText = m.plainText := by
  obtain ⟨chunks, hT⟩ : ∃ chunks, encipherT U noise f inst m = (.ok chunks, inst', m') := by
    unfold encipher at henc
    rcases h : encipherT U noise f inst m with ⟨c | e | _, a, b⟩ <;> rw [h] at henc <;> simp at henc
    exact ⟨c, by rw [henc.1, henc.2]⟩
  obtain ⟨inst1, m1, i, s, out, e⟩ := encipherT_ok hT
  obtain ⟨kr, hkr, hidr⟩ := (e.heldPads hU hholds).2
  obtain ⟨j, hj⟩ := List.mem_iff_getElem?.1 hkr
  have hlen := e.keyId_length
  have hge := e.cipher_ge.1
  have htake : (m'.keyId.val ++ m'.cipherText).take rcv.groupSize = m'.keyId.val := by
    rw [hg, ← hlen, List.take_left']; rfl
  have hdrop : (m'.keyId.val ++ m'.cipherText).drop rcv.groupSize = m'.cipherText := by
    rw [hg, ← hlen, List.drop_left']; rfl
  have hgk : getKey U rcv.keys ((m'.keyId.val ++ m'.cipherText).take rcv.groupSize) = some j := by
    rw [htake, ← hidr]; exact hwf.getKey hU hj
  rw [tryDecipher_run hk ((filterText_iff U _ _).2 ht) (by rw [List.length_append]; omega) hgk hj]
  obtain ⟨rcv', msg', h1, h2⟩ := C10_round_trip U hU noise f f' inst inst' m m' htext henc
    { rcv with nextAddr := rcv.nextAddr + 1 } hg hwf hholds
    (tryMsg f' rcv msg kr (m'.keyId.val ++ m'.cipherText)) (by simp [tryMsg, hidr]) (by simp [tryMsg, hdrop])
  rw [h1]
  obtain ⟨_, hm', _⟩ := decipher_fail h1
  refine ⟨_, _, rfl, ?_, ?_, h2⟩
  · rw [hm']; simp [(withId_fields f' _).2.2.1, tryMsg, hidr]
  · rw [hm']; simp [(withId_fields f' _).2.2.2, tryMsg, hdrop]

/-- **C11**, for the form the program prints (print.go:143): key id, blank, ciphertext in groups, in one
line or wrapped at any column. -/
theorem C11_receive_printed (U : Unicode) (hU : U.Lawful) (noise : Nat → Rune) (f f' : Runes)
    (inst inst' : Inst) (m m' : Msg) (htext : ∀ c ∈ m.plainText, c ∈ alphabet)
    (henc : encipher U noise f inst m = (.ok (), inst', m'))
    (rcv : Inst) (hg : rcv.groupSize = inst.groupSize) (hwf : WellFormed rcv.keys)
    (hholds : HoldsPads inst.groupSize inst.keys m.recipients m.keyId.val rcv.keys)
    (lb : Runes) (hlb : lb = lit "\n" ∨ lb = lit "\r\n") (columns : Int) (msg : Msg) (hk : msg.keyId.val = []) :
    ∃ printed, groups lb (some m'.cipherText) inst.groupSize columns = .ok printed ∧
      (msg.plainText = m'.keyId.val ++ [32] ++ printed →
        ∃ rcv' msg', tryDecipher U f' false rcv msg = (.ok (), rcv', msg') ∧ msg'.keyId.val = m'.keyId.val ∧
          msg'.cipherText = m'.cipherText ∧ msg'.plainText = m.plainText) := by
  obtain ⟨chunks, hT⟩ : ∃ chunks, encipherT U noise f inst m = (.ok chunks, inst', m') := by
    unfold encipher at henc
    rcases h : encipherT U noise f inst m with ⟨c | e | _, a, b⟩ <;> rw [h] at henc <;> simp at henc
    exact ⟨c, by rw [henc.1, henc.2]⟩
  obtain ⟨inst1, m1, i, s, out, e⟩ := encipherT_ok hT
  obtain ⟨kr, hkr, hidr⟩ := (e.heldPads hU hholds).2
  have hkl : ∀ c ∈ m'.keyId.val, IsLetter c := by rw [← hidr]; exact hwf.letters kr hkr
  have hcl := e.cipher_length.2.2.1
  obtain ⟨lines, printed, p1, p2, p3, _⟩ := (C32_grouping lb m'.cipherText inst.groupSize columns).1
    (by have := e.hg; omega)
  refine ⟨printed, p1, fun hp => ?_⟩
  refine C11_receive U hU noise f f' inst inst' m m' htext henc rcv hg hwf hholds msg hk ?_
  rw [hp]
  have hlbs : ∀ c ∈ lb, U.isSpace c = true := by
    intro c hc
    apply hU.isSpace_blank
    rcases hlb with rfl | rfl
    · have : lit "\n" = [10] := by decide
      rw [this] at hc; simp at hc; simp [hc]
    · have : lit "\r\n" = [13, 10] := by decide
      rw [this] at hc; simp at hc; rcases hc with rfl | rfl <;> simp
  have hbl : ∀ c ∈ [(32 : Int)], U.isSpace c = true := by
    intro c hc; apply hU.isSpace_blank; simp at hc; simp [hc]
  have hlet : LettersOf U printed m'.cipherText := by
    rw [p2, ← p3]
    have hfl : lines.flatten.flatten = (lines.map (fun l => (l.map id).flatten)).flatten := by
      simp [List.flatten_flatten]
    rw [hfl]
    refine LettersOf.join hlbs _ _ lines ?_
    intro l hl
    have := LettersOf.join (U := U) hbl id id l (by
      intro g hgm
      refine LettersOf.of_letters hU (fun c hc => hcl c ?_)
      rw [← p3]
      exact List.mem_flatten.2 ⟨g, List.mem_flatten.2 ⟨l, hl, hgm⟩, hc⟩)
    simpa only [List.map_id] using this
  have := ((LettersOf.of_letters hU hkl).append (LettersOf.of_blanks hbl)).append hlet
  simpa using this

/-- non-vacuity: the two-key message of C10 as printed, in lower case and with an '=' -/
example : (let r := encipher unicode15 (fun _ => 0) [] ex2 (exMsg "HEJ DU DIN")
    let t := (r.2.2.keyId.val ++ lit " = " ++ r.2.2.cipherText).map unicode15.toLower
    let d := tryDecipher unicode15 [] false ex2 { exMsg "" with plainText := t }
    d.1 = .ok () ∧ d.2.2.plainText = lit "HEJ DU DIN") := by decide

/-! ## C62: enciphering twice -/

/-- **C62.** After a successful `Encipher` that selected its key, enciphering the same message again is
refused, and changes neither the message nor the instance. -/
theorem C62_encipher_twice (U : Unicode) (hU : U.Lawful) (noise noise' : Nat → Rune) (f f' : Runes)
    (inst inst' : Inst) (m m' : Msg) (hwf : WellFormed inst.keys) (hauto : m.keyId.val = []) (hid : f ≠ [])
    (henc : encipher U noise f inst m = (.ok (), inst', m')) :
    encipher U noise' f' inst' m' = (.err .keyIdUsed, inst', m') := by
  obtain ⟨chunks, hT⟩ : ∃ chunks, encipherT U noise f inst m = (.ok chunks, inst', m') := by
    unfold encipher at henc
    rcases h : encipherT U noise f inst m with ⟨c | e | _, a, b⟩ <;> rw [h] at henc <;> simp at henc
    exact ⟨c, by rw [henc.1, henc.2]⟩
  obtain ⟨_, hC15⟩ := C15_partial U hU noise f inst inst' m m' chunks (hwf.distinguishable hU) hauto hT
  obtain ⟨inst1, m1, i, s, out, e⟩ := encipherT_ok hT
  obtain ⟨_, k, hk, _, hkid⟩ := e.auto_first hU hauto (hwf.distinguishable hU)
  have hmem : i ∈ keysOf chunks := List.mem_of_mem_head? (by rw [e.head]; rfl)
  have hk' := hC15 i k hk
  have hsm : SameMat inst'.keys inst.keys := by rw [e.keyId_eq.2.2]; exact e.sameMat
  have hwf' := hwf.congr hsm.symm
  have hmid : m'.id.length ≠ 0 := by
    have : m'.id = (withId f m).id := by
      rw [e.hm]
      cases e.enriched <;> rfl
    rw [this]
    unfold withId
    by_cases c : m.id.length = 0
    · simp [c, hid]
    · simp [c]
  have hw : withId f' m' = m' := by unfold withId; rw [if_neg hmid]
  have hpt : m'.plainText = m.plainText := by
    rw [e.hm]; simp only; rw [e.enriched.plainText.1, (withId_fields f m).1]
  have hgs : inst'.groupSize = inst.groupSize := by rw [e.hinst]; exact e.hg1
  have hpc : presetCheck m'.keyId.val inst'.keys = .err .keyIdUsed := by
    have : ∀ (keys : List Key) (i : Nat) (k : Key), (keys.map (fun k => k.id.val)).Nodup → keys[i]? = some k →
        k.used = true → presetCheck k.id.val keys = .err .keyIdUsed := by
      intro keys
      induction keys with
      | nil => intro i k _ h; simp at h
      | cons x xs ih =>
        intro i k hnd h hu
        simp only [presetCheck]
        cases i with
        | zero =>
          simp at h; subst h
          rw [if_pos ((equalRunes_iff _ _).2 rfl), if_pos hu]
        | succ n =>
          simp at h
          rw [List.map_cons, List.nodup_cons] at hnd
          have hne : ¬ (equalRunes (some x.id.val) (some k.id.val) = true) := by
            rw [equalRunes_iff]
            intro hxk
            exact hnd.1 (by rw [hxk]; exact List.mem_map.2 ⟨k, List.mem_of_getElem? h, rfl⟩)
          rw [if_neg hne]
          exact ih n k hnd.2 h hu
    have := this inst'.keys i _ hwf'.distinct hk' (by simp [hmem])
    rw [hkid]; exact this
  have hen : enrichWithKey U f' inst' m' = (.err .keyIdUsed, inst', m') := by
    unfold enrichWithKey
    simp only [hw]
    have h1 : m'.plainText.length ≠ 0 := by rw [hpt]; simpa using e.plain
    have h2 : m'.keyId.val.length > 0 := by rw [e.keyId_length]; have := e.hg; omega
    rw [if_neg h1, if_pos h2, if_neg (by rw [e.keyId_length, hgs]; simp), hpc]
  unfold encipher encipherT
  simp only [hw, hen]

/-- non-vacuity -/
example : (encipher unicode15 (fun _ => 0) (lit "ID00") ex2 (exMsg "HEJ")).1 = .ok () ∧ WellFormed ex2.keys := by decide

end K431
