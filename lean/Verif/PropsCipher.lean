import Verif.EncFacts
import Verif.SecrecyLemmas

/-!
# Properties of Encipher and Decipher (C04, C09, C10, C12, C13, C15, C18, C19)
-/

namespace K431
open Spec

/-! ## C04: perfect secrecy -/

/-- **C04.** For every coded text and every ciphertext of letters of the same length there is exactly
one key of that length turning one into the other. -/
theorem C04_perfect_secrecy : ∀ (text cipher : List Int), (∀ c ∈ text, IsLetter c) →
    (∀ c ∈ cipher, IsLetter c) → text.length = cipher.length →
    ∃ key, (key.length = text.length ∧ (∀ c ∈ key, IsLetter c) ∧ cipherChunk key text = (.ok (), cipher)) ∧
      ∀ key', key'.length = text.length → cipherChunk key' text = (.ok (), cipher) → key' = key := by
  intro text
  induction text with
  | nil =>
    intro cipher _ _ hl
    have : cipher = [] := List.length_eq_zero_iff.1 hl.symm
    subst this
    exact ⟨[], ⟨rfl, by simp, rfl⟩, fun k hk _ => List.length_eq_zero_iff.1 hk⟩
  | cons e es ih =>
    intro cipher ht hc hl
    cases cipher with
    | nil => simp at hl
    | cons z zs =>
      obtain ⟨ks, ⟨h1, h2, h3⟩, h4⟩ := ih zs (fun c h => ht c (by simp [h])) (fun c h => hc c (by simp [h]))
        (by simpa using hl)
      obtain ⟨k, hk, hu⟩ := key_for_letter (ht e (by simp)) (hc z (by simp))
      refine ⟨k :: ks, ⟨by simp [h1], ?_, ?_⟩, ?_⟩
      · intro c hcm
        rcases List.mem_cons.1 hcm with rfl | hcm
        · exact hk.1
        · exact h2 c hcm
      · simp only [cipherChunk, (trigraph_ok_iff _ _ _).2 hk, h3]
      · intro key' hl' hc'
        cases key' with
        | nil => simp at hl'
        | cons k' ks' =>
          simp only [cipherChunk] at hc'
          rcases hg : trigraph k' e with z' | x | _
          · rw [hg] at hc'
            simp only [Prod.mk.injEq, List.cons.injEq] at hc'
            obtain ⟨e1, rfl, e3⟩ := hc'
            rw [hu k' ((trigraph_ok_iff _ _ _).1 hg),
              h4 ks' (by simpa using hl') (by rw [← e3, ← e1])]
          · rw [hg] at hc'; simp at hc'
          · rw [hg] at hc'; simp at hc'

/-- **C04**, counting form: among the 26ⁿ keys of length n exactly one gives a particular ciphertext,
whatever the text.  So with a uniformly random key all ciphertexts are equally likely. -/
theorem C04_uniform (text cipher : List Int) (ht : ∀ c ∈ text, IsLetter c)
    (hc : ∀ c ∈ cipher, IsLetter c) (hl : text.length = cipher.length) :
    (allWords text.length).length = 26 ^ text.length ∧
    (allWords text.length).countP (fun key => cipherChunk key text = (.ok (), cipher)) = 1 := by
  refine ⟨length_allWords _, ?_⟩
  obtain ⟨key, ⟨h1, h2, h3⟩, h4⟩ := C04_perfect_secrecy text cipher ht hc hl
  have hmem : key ∈ allWords text.length := (mem_allWords _ _).2 ⟨h1, h2⟩
  have : (allWords text.length).countP (fun key => decide (cipherChunk key text = (.ok (), cipher))) =
      (allWords text.length).count key := by
    rw [List.count]
    apply List.countP_congr
    intro k hk
    simp only [decide_eq_true_eq, beq_iff_eq]
    constructor
    · exact h4 k ((mem_allWords _ _).1 hk).1
    · rintro rfl; exact h3
  rw [this]
  exact List.count_eq_one_of_mem (nodup_allWords _) hmem

/-- non-vacuity: the text "HEJ" and the ciphertext "ABC" -/
example : (∀ c ∈ lit "HEJ", IsLetter c) ∧ cipherChunk (lit "SUO") (lit "HEJ") = (.ok (), lit "ABC") := by
  decide

/-! ## C18: key selection -/

/-- **C18.** `FindKey` returns the first selectable key, and nothing exactly if there is none. -/
theorem C18_key_selection (U : Unicode) (groupSize : Nat) (keys : List Key) (recipients : List Runes) :
    (∀ i, findKey U groupSize keys recipients = some i ↔
      (∃ k, keys[i]? = some k ∧ Selectable groupSize recipients k) ∧
      ∀ (j : Nat) (k' : Key), j < i → keys[j]? = some k' → ¬ Selectable groupSize recipients k') ∧
    (findKey U groupSize keys recipients = none ↔ ∀ k ∈ keys, ¬ Selectable groupSize recipients k) := by
  have some_spec : ∀ i, findKey U groupSize keys recipients = some i →
      (∃ k, keys[i]? = some k ∧ Selectable groupSize recipients k) ∧
      ∀ (j : Nat) (k' : Key), j < i → keys[j]? = some k' → ¬ Selectable groupSize recipients k' := by
    intro i h
    obtain ⟨k, h1, h2, h3⟩ := findKey_some h
    exact ⟨⟨k, h1, (eligible_iff _ _ _ _).1 h2⟩, fun j k' hj hk => by
      rw [← eligible_iff U]; exact h3 j k' hj hk⟩
  have none_spec : findKey U groupSize keys recipients = none →
      ∀ k ∈ keys, ¬ Selectable groupSize recipients k := by
    intro h k hk
    rw [← eligible_iff U]
    exact findKey_none h k hk
  refine ⟨?_, ?_⟩
  · intro i
    refine ⟨some_spec i, ?_⟩
    rintro ⟨⟨k, hk, hs⟩, hmin⟩
    rcases hf : findKey U groupSize keys recipients with _ | i'
    · exact absurd hs (none_spec hf k (List.mem_of_getElem? hk))
    · obtain ⟨⟨k', hk', hs'⟩, hmin'⟩ := some_spec i' hf
      have h1 : ¬ i < i' := fun h => hmin' i k h hk hs
      have h2 : ¬ i' < i := fun h => hmin i' k' h hk' hs'
      congr 1; omega
  · refine ⟨none_spec, ?_⟩
    intro h
    rcases hf : findKey U groupSize keys recipients with _ | i
    · rfl
    · obtain ⟨⟨k, hk, hs⟩, _⟩ := some_spec i hf
      exact absurd hs (h k (List.mem_of_getElem? hk))

/-! Small stores for the examples: group size 1, ids "A", "B", "C". -/

/-- a fresh anonymous key -/
def exKey (addr : Nat) (id pad : String) : Key := ⟨⟨addr, lit id⟩, lit pad, [], 0, 0, false, false, []⟩
/-- a message without key -/
def exMsg (text : String) : Msg := ⟨lit "ID00", [], [], 0, Sl.nil, lit text, [], []⟩
/-- an instance with these keys -/
def exInst (keys : List Key) : Inst := ⟨1, 10, 80, 80, keys, [], lit "SA6MWA", 100⟩
/-- two keys of ten letters -/
def ex2 : Inst := exInst [exKey 1 "A" "QWERTYUIOP", exKey 2 "B" "ASDFGHJKLZ"]

/-- non-vacuity of C18: the used key is skipped -/
example : findKey unicode15 1 [{ exKey 1 "A" "QQQ" with used := true }, exKey 2 "B" "ZZZ"] [] = some 1 ∧
    findKey unicode15 1 [{ exKey 1 "A" "QQQ" with used := true }] [] = none := by decide

/-! ## C10: round trip -/

theorem recovered_supported {text : Runes} (h : ∀ c ∈ text, c ∈ alphabet) : recovered text = text := by
  unfold recovered
  conv => rhs; rw [← List.map_id text]
  exact List.map_congr_left (fun c hc => canon_of_alphabet c (h c hc))

/-- **C10**, general form.  Whenever `Encipher` succeeds, every station of the same group size whose
`GetKey` resolves the ids of the used keys to the same key letters deciphers the message.  The keys
are the ones the run of `Encipher` used (`chunks`); nothing else about either store is assumed. -/
theorem C10_round_trip_general (U : Unicode) (hU : U.Lawful) (noise : Nat → Rune) (f f' : Runes)
    (inst inst' : Inst) (m m' : Msg) (chunks : List Chunk)
    (henc : encipherT U noise f inst m = (.ok chunks, inst', m'))
    (rcv : Inst) (hg : rcv.groupSize = inst.groupSize)
    (hres : ∀ ch ∈ chunks, Resolves U inst.keys rcv.keys ch.key)
    (msg : Msg) (hk : msg.keyId.val = m'.keyId.val) (hc : msg.cipherText = m'.cipherText) :
    ∃ rcv' msg', decipher U f' rcv msg = (.ok (), rcv', msg') ∧ msg'.plainText = recovered m.plainText := by
  obtain ⟨inst1, m1, i, s, out, e⟩ := encipherT_ok henc
  obtain ⟨stack, h, _⟩ := e.decipher hU f' rcv hg hres msg hk hc
  exact ⟨_, _, h, rfl⟩

/-- **C10.** If `Encipher` succeeds on a message over the legend, every station with the same group
size and pairwise different ids of letters that holds the keys of the sender (same id, same letters), or at least those that may have been chosen for the recipients,
deciphers key id and ciphertext to exactly the text, however many keys the message takes. -/
theorem C10_round_trip (U : Unicode) (hU : U.Lawful) (noise : Nat → Rune) (f f' : Runes)
    (inst inst' : Inst) (m m' : Msg) (htext : ∀ c ∈ m.plainText, c ∈ alphabet)
    (henc : encipher U noise f inst m = (.ok (), inst', m'))
    (rcv : Inst) (hg : rcv.groupSize = inst.groupSize) (hwf : WellFormed rcv.keys)
    (hholds : HoldsPads inst.groupSize inst.keys m.recipients m.keyId.val rcv.keys)
    (msg : Msg) (hk : msg.keyId.val = m'.keyId.val) (hc : msg.cipherText = m'.cipherText) :
    ∃ rcv' msg', decipher U f' rcv msg = (.ok (), rcv', msg') ∧ msg'.plainText = m.plainText := by
  obtain ⟨chunks, hT⟩ : ∃ chunks, encipherT U noise f inst m = (.ok chunks, inst', m') := by
    unfold encipher at henc
    rcases h : encipherT U noise f inst m with ⟨c | e | _, a, b⟩ <;> rw [h] at henc <;> simp at henc
    exact ⟨c, by rw [henc.1, henc.2]⟩
  obtain ⟨inst1, m1, i, s, out, e⟩ := encipherT_ok hT
  have hres : ∀ ch ∈ chunks, Resolves U inst.keys rcv.keys ch.key := by
    intro ch hch
    obtain ⟨k, hk, kr, h1, h2, h3⟩ := (e.heldPads hU hholds).1 ch hch
    obtain ⟨j, hj⟩ := List.mem_iff_getElem?.1 h1
    exact ⟨k, j, kr, hk, by rw [← h2]; exact hwf.getKey hU hj, hj, h3⟩
  obtain ⟨rcv', msg', h1, h2⟩ := C10_round_trip_general U hU noise f f' inst inst' m m' chunks hT rcv hg hres msg hk hc
  exact ⟨rcv', msg', h1, by rw [h2, recovered_supported htext]⟩

/-- non-vacuity: two keys, a text that needs a key change -/
example : WellFormed ex2.keys ∧ (∀ c ∈ lit "HEJ DU DIN", c ∈ alphabet) ∧
    (encipherT unicode15 (fun _ => 0) [] ex2 (exMsg "HEJ DU DIN")).1.val?.map keysOf = some [0, 1] ∧
    (let r := encipher unicode15 (fun _ => 0) [] ex2 (exMsg "HEJ DU DIN")
     (decipher unicode15 [] ex2 { exMsg "" with keyId := r.2.2.keyId, cipherText := r.2.2.cipherText }).2.2.plainText
      = lit "HEJ DU DIN") := by decide

/-! ## C09: nothing is silently altered -/

/-- **C09**, full statement: `Encipher` never panics, and if it succeeds, a station with the same
keys recovers the text that was entered. -/
def C09_Statement : Prop :=
  ∀ (U : Unicode), U.Lawful → ∀ (noise : Nat → Rune) (f f' : Runes) (inst : Inst) (m : Msg),
    inst.groupSize ≠ 0 → WellFormed inst.keys →
    (encipher U noise f inst m).1 ≠ .panic ∧
    ∀ inst' m', encipher U noise f inst m = (.ok (), inst', m') →
      (decipher U f' inst m').2.2.plainText = m.plainText

/-- The statement is false: small dotless i (U+0131) is accepted and comes out as `i`. -/
theorem C09_violated : ¬ C09_Statement := by
  intro h
  have h1 := (h unicode15 unicode15_lawful (fun _ => 0) [] [] ex2 (exMsg "ı") (by decide) (by decide)).2
    _ _ (show encipher unicode15 (fun _ => 0) [] ex2 (exMsg "ı") = (.ok (), _, _) from rfl)
  revert h1
  decide

/-- ... and an exclamation mark makes `Encipher` panic. -/
theorem C09_violated_panic : (encipher unicode15 (fun _ => 0) [] ex2 (exMsg "HEJ!")).1 = .panic := by decide

/-- **C09**, what holds: text over the legend never makes `Encipher` panic; if `Encipher` succeeds,
the text consists of characters of the legend and of small dotless i and long s, and a station that
resolves the keys recovers it with only these two replaced.  Missing: these two are altered and
other unsupported characters cause a panic instead of an error. -/
theorem C09_partial (U : Unicode) (hU : U.Lawful) (noise : Nat → Rune) (f f' : Runes) (inst : Inst) (m : Msg)
    (hg : inst.groupSize ≠ 0) :
    ((∀ c ∈ m.plainText, c ∈ alphabet) → (encipherT U noise f inst m).1 ≠ .panic) ∧
    ∀ chunks inst' m', encipherT U noise f inst m = (.ok chunks, inst', m') →
      (∀ c ∈ m.plainText, c ∈ alphabet ∨ c = dotlessI ∨ c = longS) ∧
      ∀ rcv : Inst, rcv.groupSize = inst.groupSize →
        (∀ ch ∈ chunks, Resolves U inst.keys rcv.keys ch.key) →
        (decipher U f' rcv m').2.2.plainText = recovered m.plainText := by
  refine ⟨encipherT_not_panic hU noise f inst m hg, ?_⟩
  intro chunks inst' m' h
  obtain ⟨inst1, m1, i, s, out, e⟩ := encipherT_ok h
  refine ⟨?_, ?_⟩
  · have := encLoop_alphabet hU (loopOk_start _ _) e.loop
    rwa [e.enriched.plainText.1, (withId_fields f m).1] at this
  · intro rcv hgr hres
    obtain ⟨rcv', msg', h1, h2⟩ := C10_round_trip_general U hU noise f f' inst inst' m m' chunks h rcv hgr hres
      m' rfl rfl
    rw [h1]; exact h2

/-! ## C12: whole groups of letters -/

/-- **C12.** After a successful `Encipher` the ciphertext is a non-empty sequence of letters, its length
is a multiple of the group size, and the key id is one group long. -/
theorem C12_whole_groups (U : Unicode) (noise : Nat → Rune) (f : Runes) (inst inst' : Inst) (m m' : Msg)
    (h : encipher U noise f inst m = (.ok (), inst', m')) :
    m'.cipherText ≠ [] ∧ (∀ c ∈ m'.cipherText, IsLetter c) ∧
      (∃ n, m'.cipherText.length = n * inst.groupSize) ∧ m'.keyId.val.length = inst.groupSize := by
  obtain ⟨chunks, hT⟩ : ∃ chunks, encipherT U noise f inst m = (.ok chunks, inst', m') := by
    unfold encipher at h
    rcases h' : encipherT U noise f inst m with ⟨c | e | _, a, b⟩ <;> rw [h'] at h <;> simp at h
    exact ⟨c, by rw [h.1, h.2]⟩
  obtain ⟨inst1, m1, i, s, out, e⟩ := encipherT_ok hT
  refine ⟨e.cipher_ge.2, e.cipher_length.2.2.1, ?_, e.keyId_length⟩
  obtain ⟨n, hn⟩ := Nat.dvd_of_mod_eq_zero e.cipher_length.1
  exact ⟨n, by rw [hn, Nat.mul_comm]⟩

/-- a store with group size 5 -/
def ex5 : Inst := { ex2 with groupSize := 5, keys := [exKey 1 "ABCDE" "QWERTYUIOPASDFG"] }

/-- non-vacuity, with group size 5: "HEJ" becomes one group -/
example : (encipher unicode15 (fun _ => 0) [] ex5 (exMsg "HEJ")).1 = .ok () ∧
    (encipher unicode15 (fun _ => 0) [] ex5 (exMsg "HEJ")).2.2.cipherText.length = 5 := by decide

/-! ## C13: no key letter twice

`lettersUsed chunks` lists, for each ciphertext letter, the key and the position of the key letter it
was made with; the theorems prove that this is what the list says. -/

/-- **C13**, full statement: in a successful `Encipher` each ciphertext letter is made with the key letter
that `lettersUsed` names, and none occurs twice. -/
def C13_Statement : Prop :=
  ∀ (U : Unicode), U.Lawful → ∀ (noise : Nat → Rune) (f : Runes) (inst inst' : Inst) (m m' : Msg)
    (chunks : List Chunk), WellFormed inst.keys →
    encipherT U noise f inst m = (.ok chunks, inst', m') →
    (lettersUsed chunks).length = m'.cipherText.length ∧ (lettersUsed chunks).Nodup

/-- a long message given the key id "A", and a store holding only that key -/
def exPreset : Msg := { exMsg "HEJ DU DIN" with keyId := ⟨1, lit "A"⟩ }
/-- the store -/
def ex1 : Inst := exInst [exKey 1 "A" "QWERTYUIOP"]

/-- The statement is false: a message that comes with a key id does not mark its key as used, so the
key change selects the same key again and its letters encipher two parts of the message. -/
theorem C13_violated : ¬ C13_Statement := by
  intro h
  have := h unicode15 unicode15_lawful (fun _ => 0) [] ex1 _ exPreset _ _ (by decide)
    (show encipherT unicode15 (fun _ => 0) [] ex1 exPreset = (.ok _, _, _) from rfl)
  revert this
  decide

/-- in the witness both chunks use key number 0 from its first letter -/
example : (encipherT unicode15 (fun _ => 0) [] ex1 exPreset).1.val?.map keysOf = some [0, 0] := by decide

/-- **C13**, what holds: if the key is selected automatically (no key id given), each ciphertext letter
is the trigraph of a coded letter and the key letter named by `lettersUsed`, and no key letter is
named twice.  Missing: messages given a key id. -/
theorem C13_partial (U : Unicode) (hU : U.Lawful) (noise : Nat → Rune) (f : Runes) (inst inst' : Inst)
    (m m' : Msg) (chunks : List Chunk) (hwf : Distinguishable U inst.keys) (hauto : m.keyId.val = [])
    (h : encipherT U noise f inst m = (.ok chunks, inst', m')) :
    (lettersUsed chunks).length = m'.cipherText.length ∧ (lettersUsed chunks).Nodup ∧
    ∀ (n j p : Nat) (z : Rune), (lettersUsed chunks)[n]? = some (j, p) → m'.cipherText[n]? = some z →
      ∃ k kr e, inst.keys[j]? = some k ∧ k.runes[p]? = some kr ∧ Trigraph kr e z := by
  obtain ⟨inst1, m1, i, s, out, e⟩ := encipherT_ok h
  obtain ⟨h1, h2⟩ := cipherChunks_letters _ _ _ e.ciphered
  rw [e.keyId_eq.2.1]
  refine ⟨h1, lettersUsed_nodup _ (e.auto_flags hU hauto hwf).2.1, ?_⟩
  intro n j p z hn hz
  obtain ⟨k, kr, x, a, b, _, d⟩ := h2 n j p z hn hz
  obtain ⟨k', a', hm⟩ := e.sameMat.get a
  exact ⟨k', kr, x, a', by rw [Key.mat_runes hm]; exact b, d⟩

/-- non-vacuity: the two-key message of C10 -/
example : (encipherT unicode15 (fun _ => 0) [] ex2 (exMsg "HEJ DU DIN")).1.val?.map (fun c => (lettersUsed c).length)
    = some 13 := by decide

/-! ## C15: used keys are marked -/

/-- **C15**, full statement. -/
def C15_Statement : Prop :=
  ∀ (U : Unicode), U.Lawful → ∀ (noise : Nat → Rune) (f : Runes) (inst inst' : Inst) (m m' : Msg)
    (chunks : List Chunk), WellFormed inst.keys →
    encipherT U noise f inst m = (.ok chunks, inst', m') →
    ∀ (j : Nat) (k : Key), inst.keys[j]? = some k →
      ∃ k', inst'.keys[j]? = some k' ∧ k'.used = (k.used || decide (j ∈ keysOf chunks))

/-- a short message given the key id "A" -/
def exPresetShort : Msg := { exMsg "HEJ" with keyId := ⟨1, lit "A"⟩ }

/-- The statement is false: the key given with the message stays unmarked. -/
theorem C15_violated : ¬ C15_Statement := by
  intro h
  obtain ⟨k', h1, h2⟩ := h unicode15 unicode15_lawful (fun _ => 0) [] ex1 _ exPresetShort _ _ (by decide)
    (show encipherT unicode15 (fun _ => 0) [] ex1 exPresetShort = (.ok _, _, _) from rfl) 0 _ rfl
  revert h2
  have : k' = exKey 1 "A" "QWERTYUIOP" := by
    have h3 : (encipherT unicode15 (fun _ => 0) [] ex1 exPresetShort).2.1.keys[0]? =
      some (exKey 1 "A" "QWERTYUIOP") := by decide
    exact (Option.some.inj (h1.symm.trans h3))
  subst this
  decide

/-- **C15**, what holds: with an automatically selected key, after success exactly the keys of the
chunks are marked in addition, and nothing else about any key changes.  Missing: the key given with
the message is not marked. -/
theorem C15_partial (U : Unicode) (hU : U.Lawful) (noise : Nat → Rune) (f : Runes) (inst inst' : Inst)
    (m m' : Msg) (chunks : List Chunk) (hwf : Distinguishable U inst.keys) (hauto : m.keyId.val = [])
    (h : encipherT U noise f inst m = (.ok chunks, inst', m')) :
    inst'.keys.length = inst.keys.length ∧
    ∀ (j : Nat) (k : Key), inst.keys[j]? = some k →
      inst'.keys[j]? = some { k with used := k.used || decide (j ∈ keysOf chunks) } := by
  obtain ⟨inst1, m1, i, s, out, e⟩ := encipherT_ok h
  obtain ⟨h1, _, _⟩ := e.auto_flags hU hauto hwf
  have hsm : SameMat inst'.keys inst.keys := by rw [e.keyId_eq.2.2]; exact e.sameMat
  refine ⟨hsm.length, ?_⟩
  intro j k hk
  obtain ⟨k', hk', hm⟩ := hsm.symm.get hk
  have hu := h1 j
  simp only [usedAt, hk', hk] at hu
  rw [hk', ← hu]
  obtain ⟨a1, a2, a3, a4, a5, a6, a7, a8⟩ := k'
  obtain ⟨b1, b2, b3, b4, b5, b6, b7, b8⟩ := k
  simp only [Key.mat, Key.mk.injEq, true_and] at hm
  simp [hm]

/-- non-vacuity -/
example : (encipher unicode15 (fun _ => 0) [] ex2 (exMsg "HEJ")).2.1.keys.map Key.used = [true, false] := by decide

/-! ## C19: compromised keys -/

/-- **C19**, full statement: no successful `Encipher` uses a compromised key. -/
def C19_Statement : Prop :=
  ∀ (U : Unicode), U.Lawful → ∀ (noise : Nat → Rune) (f : Runes) (inst inst' : Inst) (m m' : Msg)
    (chunks : List Chunk), WellFormed inst.keys →
    encipherT U noise f inst m = (.ok chunks, inst', m') →
    ∀ j ∈ keysOf chunks, ∀ k, inst.keys[j]? = some k → k.compromised = false

/-- a store whose only key is marked compromised -/
def exComp : Inst := exInst [{ exKey 1 "A" "QWERTYUIOP" with compromised := true }]

/-- The statement is false: `FindKey` does not look at the compromised flag. -/
theorem C19_violated : ¬ C19_Statement := by
  intro h
  have := h unicode15 unicode15_lawful (fun _ => 0) [] exComp _ (exMsg "HEJ") _ _ (by decide)
    (show encipherT unicode15 (fun _ => 0) [] exComp (exMsg "HEJ") = (.ok _, _, _) from rfl)
    0 (by decide) { exKey 1 "A" "QWERTYUIOP" with compromised := true } rfl
  revert this
  decide

/-- **C19**, what holds: if every compromised key of the store is also marked used, no compromised key
is used.  And a message that comes with the id of a compromised key is always refused.  Missing:
compromised keys that are not marked used are selected. -/
theorem C19_partial (U : Unicode) (hU : U.Lawful) (noise : Nat → Rune) (f : Runes) (inst inst' : Inst)
    (m m' : Msg) (chunks : List Chunk) (hwf : WellFormed inst.keys)
    (h : encipherT U noise f inst m = (.ok chunks, inst', m')) :
    (∀ k ∈ inst.keys, k.id.val = m.keyId.val → m.keyId.val ≠ [] → k.compromised = false) ∧
    ((∀ k ∈ inst.keys, k.compromised = true → k.used = true) → m.keyId.val = [] →
      ∀ j ∈ keysOf chunks, ∀ k, inst.keys[j]? = some k → k.compromised = false) := by
  obtain ⟨inst1, m1, i, s, out, e⟩ := encipherT_ok h
  refine ⟨?_, ?_⟩
  · intro k hk hid hne
    have hen := e.enriched
    cases hen with
    | preset j k' h1 h2 h3 h4 h5 h6 =>
      rw [(withId_fields f m).2.2.1] at h4
      obtain ⟨j', hj'⟩ := List.mem_iff_getElem?.1 hk
      have := hwf.inj hj' h3 (by rw [hid, h4])
      subst this
      rw [hj'] at h3; cases h3; exact h6
    | auto j k' h1 => rw [(withId_fields f m).2.2.1] at h1; exact absurd h1 hne
  · intro hcu hauto j hj k hk
    obtain ⟨k', hk', hel⟩ := (e.auto_flags hU hauto (hwf.distinguishable hU)).2.2 j hj
    rw [hk] at hk'; cases hk'
    rcases hc : k.compromised with _ | _
    · rfl
    · have := hcu k (List.mem_of_getElem? hk) hc
      rw [hel.1] at this; cases this

/-- non-vacuity: a store with a compromised, used key and a good one -/
example : (encipherT unicode15 (fun _ => 0) []
    (exInst [{ exKey 1 "A" "QWERTYUIOP" with compromised := true, used := true }, exKey 2 "B" "ASDFGHJKLZ"])
    (exMsg "HEJ")).1.val?.map keysOf = some [1] := by decide

end K431
