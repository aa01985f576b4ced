import Verif.ForgeLemmas
import Verif.PropsReadme

/-!
# C109: altered ciphertexts
-/

namespace K431
open Spec

/-- **C109**, full statement: what deciphers without an error is what was sent; a ciphertext altered on the way is refused, or still read as the text. -/
def C109_Statement : Prop :=
  ∀ (U : Unicode), U.Lawful → ∀ (noise : Nat → Rune) (f f' : Runes) (inst inst' : Inst) (m m' : Msg), WellFormed inst.keys → (∀ c ∈ m.plainText, c ∈ alphabet) →
    encipher U noise f inst m = (.ok (), inst', m') →
    ∀ (c : Runes) (rcv' : Inst) (msg' : Msg), decipher U f' inst { m' with cipherText := c } = (.ok (), rcv', msg') → msg'.plainText = m.plainText

/-- The statement is false: "GO" is read as "NO" if the first letter of the ciphertext is shifted by the difference. -/
theorem C109_violated : ¬ C109_Statement := by
  intro h
  have h1 := h unicode15 unicode15_lawful (fun _ => 0) [] [] ex2 _ (exMsg "GO") _ (by decide) (by decide)
    (show encipher unicode15 (fun _ => 0) [] ex2 (exMsg "GO") = (.ok (), _, _) from rfl)
    (forge (lit "GO") (lit "NO") (encipher unicode15 (fun _ => 0) [] ex2 (exMsg "GO")).2.2.cipherText)
    (decipher unicode15 [] ex2 { (encipher unicode15 (fun _ => 0) [] ex2 (exMsg "GO")).2.2 with
      cipherText := forge (lit "GO") (lit "NO") (encipher unicode15 (fun _ => 0) [] ex2 (exMsg "GO")).2.2.cipherText }).2.1
    (decipher unicode15 [] ex2 { (encipher unicode15 (fun _ => 0) [] ex2 (exMsg "GO")).2.2 with
      cipherText := forge (lit "GO") (lit "NO") (encipher unicode15 (fun _ => 0) [] ex2 (exMsg "GO")).2.2.cipherText }).2.2
  exact absurd (h1 (by decide)) (by decide)

/-- Forging needs no pad.  Whoever knows or guesses a text of the first line of the legend that takes one key, and takes the ciphertext to pieces with `forge`, makes every receiver that could have read it
read any other such text of the same length instead, without an error; whatever the letters of the key are. -/
theorem C109_forge (U : Unicode) (hU : U.Lawful) (noise : Nat → Rune) (f f' : Runes) (inst inst' : Inst) (m m' : Msg) (htext : ∀ c ∈ m.plainText, c ∈ firstTable)
    (henc : encipher U noise f inst m = (.ok (), inst', m')) (hone : ∀ k ∈ inst.keys, IdOf U m'.keyId.val k → m.plainText.length + inst.groupSize + 2 ≤ k.runes.length)
    (hw : WellFormed inst.keys) (rcv : Inst) (hg : rcv.groupSize = inst.groupSize) (hwf : WellFormed rcv.keys)
    (hholds : HoldsPads inst.groupSize inst.keys m.recipients m.keyId.val rcv.keys)
    (wanted : Runes) (hwanted : ∀ c ∈ wanted, c ∈ firstTable) (hlen : wanted.length = m.plainText.length)
    (msg : Msg) (hk : msg.keyId.val = m'.keyId.val) (hc : msg.cipherText = forge m.plainText wanted m'.cipherText) :
    ∃ rcv' msg', decipher U f' rcv msg = (.ok (), rcv', msg') ∧ msg'.plainText = wanted := by
  obtain ⟨chunks, hT⟩ := encipher_T henc
  obtain ⟨inst1, m1, i, s, out, e⟩ := encipherT_ok hT
  have hpt : m1.plainText = m.plainText := by rw [e.enriched.plainText.1, (withId_fields f m).1]
  have hloop := e.loop
  rw [hpt] at hloop
  -- the key
  obtain ⟨ch, hch, hci⟩ := e.first_mem
  obtain ⟨k, hki, kr, hkr, hkid, hkrun⟩ := (e.heldPads hU hholds).1 ch hch
  rw [hci] at hki
  have hidof : ∀ (keys : List Key) (x : Key), WellFormed keys → x ∈ keys → x.id.val = k.id.val → IdOf U m'.keyId.val x := by
    intro keys x hwx hx hxk
    obtain ⟨j, hj⟩ := List.mem_iff_getElem?.1 hx
    have h1 := hwx.getKey hU hj
    rw [hxk, e.firstKey hU keys k hki] at h1
    obtain ⟨y, hy, hn, -⟩ := getKey_some h1
    rw [hj] at hy
    cases hy
    unfold IdOf
    rw [goStr_letters (hwx.letters x hx)] at hn
    exact hn.symm
  have hroom := hone k (List.mem_of_getElem? hki) (hidof _ k hw (List.mem_of_getElem? hki) rfl)
  have hlenAt : keyLenAt inst1.keys i = k.runes.length := by
    obtain ⟨k', h1, h2⟩ := e.enriched.sameMat.symm.get hki
    rw [keyLenAt_eq h1, Key.mat_runes h2]
  obtain ⟨s2, h1, h2, h3, h4⟩ := encLoop_onePad hU (r := m1.recipients) m.plainText _ (loopOk_start inst1.keys i) rfl rfl htext (g := inst.groupSize) (by simp only [hlenAt, List.length_nil]; omega)
  rw [hloop] at h1
  simp only [Prod.mk.injEq, true_and] at h1
  subst h1
  -- the ciphertext
  have hciph := e.ciphered
  rw [cipherChunks_sameMat e.sameMat, e.hchunks, h3, h4, List.nil_append, cipherChunks_one] at hciph
  obtain ⟨k2, hk2, -, hcc⟩ := hciph
  dsimp only at hk2 hcc
  rw [hki] at hk2
  cases hk2
  have henc2 := cipherChunk_letters hcc
  rw [List.nil_append] at henc2
  have hout : m'.cipherText = out := by rw [e.hm]
  have hf := forge_enciphered hlen.symm hwanted henc2
  obtain ⟨z1, z2, hz, hz1, hz2⟩ := enciphered_split hf
  have hread := readsOn_first (g := rcv.groupSize) (keys := rcv.keys) hwanted hz1
  rw [List.length_map] at hz2
  rcases hdec : decipher U f' rcv msg with ⟨o, rcv', msg'⟩
  have hfill := C107_fill hU (f := f') (inst := rcv) (m := msg) hwf (by rw [hg]; exact e.hg) hkr (by rw [hk]; exact hidof _ kr hwf hkr hkid)
    (by rw [hk, e.keyId_length, hg]) (by rw [hc, forge_length, hg]; exact e.cipher_ge.1) (by rw [hkrun]; exact hread) (by exact hz2) (by rw [hc, hout]; exact hz) hdec
  rw [hfill.1]
  exact ⟨rcv', msg', rfl, hfill.2⟩

/-- A ciphertext that has lost letters at its end is read without an error as well, and gives the beginning of the text: whatever can be deciphered can still be deciphered after any number of letters have been cut off,
as long as one group is left. -/
theorem C109_cut (U : Unicode) (f f' : Runes) (rcv rcv' : Inst) (msg msg' : Msg) (h : decipher U f rcv msg = (.ok (), rcv', msg')) (c rest : Runes) (hc : msg.cipherText = c ++ rest)
    (hl : rcv.groupSize ≤ c.length) : ∃ rcv2 msg2, decipher U f' rcv { msg with cipherText := c } = (.ok (), rcv2, msg2) ∧ msg2.plainText <+: msg'.plainText := by
  have w := withId_fields f msg
  have w' := withId_fields f' { msg with cipherText := c }
  unfold decipher at h ⊢
  simp only [w.2.2.1, w.2.2.2, w'.2.2.1, w'.2.2.2] at h ⊢
  by_cases h1 : msg.keyId.val.length ≠ rcv.groupSize
  · rw [if_pos h1] at h; simp at h
  rw [if_neg h1] at h ⊢
  by_cases h2 : msg.cipherText.length < rcv.groupSize
  · rw [if_pos h2] at h; simp at h
  rw [if_neg h2] at h
  rw [if_neg (by omega)]
  rcases hk : getKey U rcv.keys msg.keyId.val with _ | i
  · rw [hk] at h; simp at h
  rw [hk] at h
  dsimp only at h ⊢
  rw [hc, decLoop_append] at h
  rcases hd : decLoop U rcv.groupSize rcv.keys c ⟨i, 0, [], newState, [i], []⟩ with ⟨d | _ | _, p⟩
  · rw [hd] at h
    refine ⟨_, _, rfl, ?_⟩
    dsimp only at h ⊢
    have hp := decLoop_ok_plain _ _ _ _ _ _ _ hd
    have := decLoop_prefix (U := U) (g := rcv.groupSize) (keys := rcv.keys) rest d
    rw [← hp] at this
    rcases hd2 : decLoop U rcv.groupSize rcv.keys rest d with ⟨d2 | _ | _, p2⟩
    · rw [hd2] at h this
      simp only [Prod.mk.injEq, true_and] at h
      rw [← h.2]
      exact this
    · rw [hd2] at h; simp at h
    · rw [hd2] at h; simp at h
  · rw [hd] at h; simp at h
  · rw [hd] at h; simp at h

/-- **C109**, what holds: an alteration does not reach back.  If the beginning `a` of the text would by itself be enciphered to `ca`, and as many letters have arrived unaltered, then `a` is read at the beginning of the
plaintext, whatever follows, and whether or not there is an error afterwards.  Missing: what follows is not checked at all. -/
theorem C109_partial (U : Unicode) (hU : U.Lawful) (noise : Nat → Rune) (f f' : Runes) (inst inst' : Inst) (m m' : Msg) (htext : ∀ c ∈ m.plainText, c ∈ alphabet)
    (henc : encipher U noise f inst m = (.ok (), inst', m'))
    (rcv : Inst) (hg : rcv.groupSize = inst.groupSize) (hwf : WellFormed rcv.keys)
    (hholds : HoldsPads inst.groupSize inst.keys m.recipients m.keyId.val rcv.keys)
    (a b : Runes) (hab : m.plainText = a ++ b) (insta : Inst) (ma : Msg) (ha : encipher U noise f inst { m with plainText := a } = (.ok (), insta, ma))
    (msg : Msg) (hk : msg.keyId.val = m'.keyId.val) (hc : ma.cipherText.length ≤ msg.cipherText.length)
    (hsame : msg.cipherText.take ma.cipherText.length = m'.cipherText.take ma.cipherText.length) :
    ∃ o rcv' msg', decipher U f' rcv msg = (o, rcv', msg') ∧ a <+: msg'.plainText := by
  obtain ⟨chunks, hT⟩ := encipher_T henc
  obtain ⟨inst1, m1, i, s, out, e⟩ := encipherT_ok hT
  obtain ⟨chunksa, hTa⟩ := encipher_T ha
  obtain ⟨inst2, m2, i2, sa, outa, ea⟩ := encipherT_ok hTa
  -- both begin in the same way
  have hstart : inst2 = inst1 ∧ m2.keyId = m1.keyId ∧ m2.recipients = m1.recipients := by
    have h1 := e.enriched
    have h2 := ea.enriched
    have w1 := withId_fields f m
    have w2 := withId_fields f { m with plainText := a }
    have hr1 := e.enriched.plainText.2.1
    have hr2 := ea.enriched.plainText.2.1
    refine ⟨?_, ?_, by rw [hr1, hr2, w1.2.1, w2.2.1]⟩
    · cases h1 with
      | preset _ _ h => cases h2 with
        | preset => rfl
        | auto _ _ h' => rw [w1.2.2.1] at h; rw [w2.2.2.1] at h'; exact absurd h' h
      | auto j k h _ hf => cases h2 with
        | preset _ _ h' => rw [w1.2.2.1] at h; rw [w2.2.2.1] at h'; exact absurd h h'
        | auto j' k' _ _ hf' =>
          rw [w1.2.1] at hf
          rw [w2.2.1] at hf'
          simp only at hf'
          rw [hf] at hf'
          cases hf'
          rfl
    · cases h1 with
      | preset _ _ h => cases h2 with
        | preset => rw [w1.2.2.1, w2.2.2.1]
        | auto _ _ h' => rw [w1.2.2.1] at h; rw [w2.2.2.1] at h'; exact absurd h' h
      | auto j k h _ hf hj => cases h2 with
        | preset _ _ h' => rw [w1.2.2.1] at h; rw [w2.2.2.1] at h'; exact absurd h h'
        | auto j' k' _ _ hf' hj' =>
          rw [w1.2.1] at hf
          rw [w2.2.1] at hf'
          simp only at hf'
          rw [hf] at hf'
          cases hf'
          rw [hj] at hj'
          cases hj'
          rfl
  obtain ⟨rfl, hid, hrec⟩ := hstart
  have hi : i2 = i := by
    have h1 := e.first
    have h2 := ea.first
    rw [hid, h1] at h2
    cases h2
    rfl
  subst hi
  have hloop := e.loop
  have hloopa := ea.loop
  rw [e.enriched.plainText.1, (withId_fields f m).1, hab, encLoop_append] at hloop
  rw [ea.enriched.plainText.1, (withId_fields f _).1, hrec] at hloopa
  dsimp only at hloopa
  rw [hloopa] at hloop
  dsimp only at hloop
  -- the letters of `a` are a beginning of the ciphertext
  have hres : ∀ ch ∈ chunksa, Resolves U inst.keys rcv.keys ch.key := by
    intro ch hch
    obtain ⟨k, hk, kr, h1, h2, h3⟩ := (ea.heldPads hU hholds).1 ch hch
    obtain ⟨j, hj⟩ := List.mem_iff_getElem?.1 h1
    exact ⟨k, j, kr, hk, by rw [← h2]; exact hwf.getKey hU hj, hj, h3⟩
  obtain ⟨ch, hch, hci⟩ := ea.first_mem
  obtain ⟨k, j, kr, r1, r2, r3, r4⟩ := hres ch hch
  rw [hci] at r1
  have hf0 := e.firstKey hU rcv.keys
  have hj : getKey U rcv.keys m'.keyId.val = some j := by rw [← hf0 k r1]; exact r2
  obtain ⟨hok, hsim⟩ := ea.simF hU rcv.keys j (fun k' hk' => by rw [hf0 k' hk', hj])
  obtain ⟨w, more, hmore⟩ := encLoop_extends hok hloop
  obtain ⟨w', more', hmore'⟩ := extends_last hmore (List.replicate (padCount inst.groupSize (s.cur.enc.length + totalLength s.chunks)) 90)
  have hciph := e.ciphered
  rw [cipherChunks_sameMat e.sameMat, e.hchunks, hmore'] at hciph
  obtain ⟨o, rest, ho, hout⟩ := ciphered_prefix hciph
  have hmc : m'.cipherText = out := by rw [e.hm]
  have hol : o.length ≤ ma.cipherText.length := by
    rw [(cipherChunks_spec _ _ _ ho).1, ea.cipher_length.2.2.2, ea.hchunks, totalLength_append, totalLength_append]
    simp [totalLength]
  have hr' : ∀ ch ∈ sa.chunks ++ [sa.cur], Resolves U inst.keys rcv.keys ch.key := by
    intro ch hch
    rcases List.mem_append.1 hch with hch | hch
    · exact hres ch (by rw [ea.hchunks]; exact List.mem_append_left _ hch)
    · rw [List.mem_singleton] at hch; subst hch
      exact hres { sa.cur with enc := sa.cur.enc ++ List.replicate (padCount inst.groupSize (sa.cur.enc.length + totalLength sa.chunks)) 90 }
        (by rw [ea.hchunks]; simp)
  obtain ⟨D, hD, hDp, -⟩ := hsim o ho hr'
  have hmsg : ∃ rest', msg.cipherText = o ++ rest' := by
    refine ⟨msg.cipherText.drop o.length, ?_⟩
    have h1 : msg.cipherText.take o.length = o := by
      have := congrArg (List.take o.length) hsame
      rw [List.take_take, List.take_take, Nat.min_eq_left hol, hmc, hout, List.take_left] at this
      exact this
    conv => lhs; rw [← List.take_append_drop o.length msg.cipherText, h1]
  obtain ⟨rest', hmsg⟩ := hmsg
  have hpre := decLoop_prefix (U := U) (g := inst.groupSize) (keys := rcv.keys) rest' D
  rw [hDp, show ({ m with plainText := a } : Msg).plainText.map canon = a from recovered_supported (fun c hc => htext c (by rw [hab]; simp [hc]))] at hpre
  have hw := withId_fields f' msg
  unfold decipher
  simp only
  rw [hw.2.2.1, hw.2.2.2, hk, e.keyId_length, hg]
  rw [if_neg (by simp), if_neg (by have := ea.cipher_ge.1; omega), hj]
  simp only
  rw [hmsg, decLoop_append, hD]
  simp only
  rcases hd : decLoop U inst.groupSize rcv.keys rest' D with ⟨d | _ | _, p⟩
  · rw [hd] at hpre; exact ⟨_, _, _, rfl, hpre⟩
  · rw [hd] at hpre; exact ⟨_, _, _, rfl, hpre⟩
  · rw [hd] at hpre; exact ⟨_, _, _, rfl, hpre⟩

/-- non-vacuity of `C109_forge` -/
example : let r := encipher unicode15 (fun _ => 0) [] ex2 (exMsg "GO NOW")
    r.1 = .ok () ∧ (∀ c ∈ lit "GO NOW" ++ lit "STAY X", c ∈ firstTable) ∧ (∀ k ∈ ex2.keys, 6 + 1 + 2 ≤ k.runes.length) ∧
    (decipher unicode15 [] ex2 { exMsg "" with keyId := r.2.2.keyId, cipherText := forge (lit "GO NOW") (lit "STAY X") r.2.2.cipherText }).2.2.plainText = lit "STAY X" := by decide

/-- non-vacuity of `C109_cut`: the text takes two keys; cut in the middle of the announcement of the second one, it is read as far as it goes -/
example : let r := encipher unicode15 (fun _ => 0) [] ex2 (exMsg "HEJ DU DIN")
    r.1 = .ok () ∧ (let d := decipher unicode15 [] ex2 { exMsg "" with keyId := r.2.2.keyId, cipherText := r.2.2.cipherText.take 9 };
      d.1 = .ok () ∧ d.2.2.plainText = lit "HEJ DU ") := by decide

/-- non-vacuity of `C109_partial`: the letters after "HEJ" are replaced; "HEJ" is read all the same, here before an error -/
example : let r := encipher unicode15 (fun _ => 0) [] ex2 (exMsg "HEJ DU DIN")
    let a := encipher unicode15 (fun _ => 0) [] ex2 (exMsg "HEJ")
    r.1 = .ok () ∧ a.1 = .ok () ∧ a.2.2.cipherText = r.2.2.cipherText.take 3 ∧
    (let d := decipher unicode15 [] ex2 { exMsg "" with keyId := r.2.2.keyId, cipherText := r.2.2.cipherText.take 3 ++ lit "AA?" };
      d.1 ≠ .ok () ∧ d.2.2.plainText.take 3 = lit "HEJ") := by decide

end K431
