import Verif.EncEnough
import Verif.PropsCipher

/-!
# Properties of Encipher: when it fails and what is left (C16, C17)
-/

namespace K431
open Spec

/-! ## C16: a failed Encipher gives everything back -/

/-- **C16**, full statement: if `Encipher` does not succeed on a message without ciphertext, all keys and all
stored messages are as before, and the message has its text and no ciphertext. -/
def C16_Statement : Prop :=
  ∀ (U : Unicode), U.Lawful → ∀ (noise : Nat → Rune) (f : Runes) (inst inst' : Inst) (m m' : Msg) (o : Outcome Unit),
    inst.groupSize ≠ 0 → WellFormed inst.keys → (inst.keys.map (fun k => k.id.addr)).Nodup → m.cipherText = [] →
    encipher U noise f inst m = (o, inst', m') → o ≠ .ok () →
    inst'.keys = inst.keys ∧ inst'.messages = inst.messages ∧ m'.plainText = m.plainText ∧ m'.cipherText = []

/-- The statement is false: after running out of keys the id of the key that was selected is
overwritten with random runes (here zeros), since message and key share the array. -/
theorem C16_violated : ¬ C16_Statement := by
  intro h
  have := (h unicode15 unicode15_lawful (fun _ => 0) [] ex1 _ (exMsg "HEJ DU DIN") _ _ (by decide) (by decide) (by decide) rfl
    (show encipher unicode15 (fun _ => 0) [] ex1 (exMsg "HEJ DU DIN") = (.err .outOfKeys, _, _) from rfl) (by decide)).1
  revert this
  decide

/-- the key after the failed call -/
example : (encipher unicode15 (fun _ => 0) [] ex1 (exMsg "HEJ DU DIN")).2.1.keys.map (fun k => (k.id.val, k.used)) =
    [([0], false)] := by decide

/-- a store whose second key has only three letters -/
def exShort : Inst := exInst [exKey 1 "A" "QWERTYUIOP", exKey 2 "B" "ASD"]

/-- ... and if the second key is too short for its part, the ciphertext of the first part stays in the message. -/
theorem C16_violated_ciphertext :
    (encipher unicode15 (fun _ => 0) [] exShort (exMsg "HEJ DU x")).1 = .err .keyTooShort ∧
    (encipher unicode15 (fun _ => 0) [] exShort (exMsg "HEJ DU x")).2.2.cipherText ≠ [] := by decide

/-- ... and a key whose id is not found by `GetKey` (as happens to the overwritten ids) is left marked used. -/
theorem C16_violated_mark :
    (encipher unicode15 (fun _ => 0) [] (exInst [exKey 1 "a" "QWERTYUIOP"]) (exMsg "HEJ")).1 = .err .keyNotFound ∧
    (encipher unicode15 (fun _ => 0) [] (exInst [exKey 1 "a" "QWERTYUIOP"]) (exMsg "HEJ")).2.1.keys.map Key.used = [true] := by
  decide

/-- The key `k'` is the key `k` except that its id may have been overwritten if its array is `a`. -/
def SameButId (a : Nat) (k k' : Key) : Prop :=
  k' = { k with id := k'.id } ∧ k'.id.addr = k.id.addr ∧ k'.id.val.length = k.id.val.length ∧
    (k.id.addr ≠ a → k'.id = k.id)

/-- The array a failing `Encipher` overwrites: that of the message's key id, if it has one, else that of the id of the
key selected for it. -/
def OwnArray (inst : Inst) (m : Msg) (a : Nat) : Prop :=
  (m.keyId.val ≠ [] → a = m.keyId.addr) ∧
  (m.keyId.val = [] → ∃ k ∈ inst.keys, Selectable inst.groupSize m.recipients k ∧ k.id.addr = a)

theorem wiped_facts (a : Nat) (noise : Nat → Rune) (s : Sl) : (s.wiped a noise).addr = s.addr ∧
    (s.wiped a noise).val.length = s.val.length ∧ (s.addr ≠ a → s.wiped a noise = s) := by
  unfold Sl.wiped
  by_cases h : s.addr = a <;> simp [h, noiseRunes]

/-- **C16**, what holds, in a store with pairwise different ids of letters: whenever `Encipher` does not succeed,
either nothing but a missing message id changed; or there is one array `a` (the one holding the key
id of the message) such that all keys are as before -- letters, keepers, flags -- except that the id of a key
sharing `a` may be overwritten; likewise the key ids of stored messages; the text is
unchanged, the message has no key id, and it has no ciphertext unless a key was too short or contained something else than
letters.  In particular the keys are exactly as before if no key shares `a`, e.g. if the key id was given with the
message.  Missing: the overwritten id, the left-over ciphertext. -/
theorem C16_partial (U : Unicode) (hU : U.Lawful) (noise : Nat → Rune) (f : Runes) (inst inst' : Inst) (m m' : Msg)
    (o : Outcome Unit) (hg : inst.groupSize ≠ 0) (hwf : WellFormed inst.keys)
    (h : encipher U noise f inst m = (o, inst', m')) (ho : o ≠ .ok ()) :
    (inst' = inst ∧ m' = withId f m) ∨
    ∃ a, OwnArray inst m a ∧
      inst' = { inst with keys := inst'.keys, messages := inst'.messages } ∧
      inst'.keys.length = inst.keys.length ∧
      (∀ (j : Nat) (k : Key), inst.keys[j]? = some k → ∃ k', inst'.keys[j]? = some k' ∧ SameButId a k k') ∧
      ((∀ k ∈ inst.keys, k.id.addr ≠ a) → inst'.keys = inst.keys) ∧
      (∃ g : Sl → Sl, (∀ s, s.addr ≠ a → g s = s) ∧
        inst'.messages = inst.messages.map (fun x => { x with keyId := g x.keyId })) ∧
      m' = { withId f m with keyId := Sl.nil, cipherText := m'.cipherText } ∧
      (o ≠ .err .keyTooShort → o ≠ .err .outOfRange → m'.cipherText = []) := by
  obtain ⟨w1, w2, w3, w4⟩ := withId_fields f m
  -- the message key is always found again
  have hfound : ∀ inst1 m1, Enriched U inst (withId f m) inst1 m1 →
      m1.keyId.val ≠ [] ∧ inst1 = { inst with keys := inst1.keys } ∧ SameMat inst1.keys inst.keys ∧
      m1 = { withId f m with keyId := m1.keyId } ∧ OwnArray inst m m1.keyId.addr ∧
      ∃ i, getKey U inst1.keys m1.keyId.val = some i ∧ usedAt inst.keys i = false ∧
        ∀ j, j ≠ i → usedAt inst1.keys j = usedAt inst.keys j := by
    intro inst1 m1 hen
    cases hen with
    | preset i k h1 h2 h3 h4 h5 h6 h7 =>
      refine ⟨h1, rfl, SameMat.refl _, rfl, ⟨fun _ => by rw [w3], fun e => absurd (by rw [w3]; exact e) h1⟩,
        i, ?_, by simp [usedAt, h3, h5], fun _ _ => rfl⟩
      rw [← h4]; exact hwf.getKey hU h3
    | auto i k h1 h2 h3 h4 =>
      obtain ⟨k', a1, a2, _⟩ := findKey_some h3
      rw [h4] at a1; cases a1
      refine ⟨?_, rfl, setUsed_sameMat _ _ _, rfl, ⟨fun e => absurd (by rw [← w3]; exact h1) e, fun _ =>
        ⟨k, List.mem_of_getElem? h4, by rw [← eligible_iff U, ← w2]; exact a2, rfl⟩⟩, i, ?_, by simp [usedAt, h4, a2.1], ?_⟩
      · intro e
        have := a2.2.1
        rw [show k.id.val = [] from e] at this
        exact hg this.symm
      · rw [getKey_congr U _ (setUsed_sameMat _ _ _).ids]; exact hwf.getKey hU h4
      · intro j hj
        rw [usedAt_setUsed (List.getElem?_eq_some_iff.1 h4).1, if_neg (fun e => hj e.symm)]
  -- everything about a release
  have main : ∀ (inst1 : Inst) (m1 : Msg) (s0 s : LoopState) (i : Nat) (ct : Runes), Enriched U inst (withId f m) inst1 m1 → getKey U inst1.keys m1.keyId.val = some i →
      SameMat s.keys inst1.keys → keysOf (s.chunks ++ [s.cur]) ⊆ keysOf (s0.chunks ++ [s0.cur]) →
      keysOf (s0.chunks ++ [s0.cur]) ⊆ keysOf (s.chunks ++ [s.cur]) →
      (∀ j, j ∉ keysOf (s0.chunks ++ [s0.cur]) → usedAt s.keys j = usedAt inst1.keys j) →
      (∀ j ∈ keysOf (s0.chunks ++ [s0.cur]), j = i ∨ usedAt inst1.keys j = false) →
      (o ≠ .err .keyTooShort → o ≠ .err .outOfRange → ct = []) →
      inst' = (release U noise inst1 { m1 with cipherText := [] } s ct).1 →
      m' = (release U noise inst1 { m1 with cipherText := [] } s ct).2 →
      ∃ a, OwnArray inst m a ∧
      inst' = { inst with keys := inst'.keys, messages := inst'.messages } ∧
      inst'.keys.length = inst.keys.length ∧
      (∀ (j : Nat) (k : Key), inst.keys[j]? = some k → ∃ k', inst'.keys[j]? = some k' ∧ SameButId a k k') ∧
      ((∀ k ∈ inst.keys, k.id.addr ≠ a) → inst'.keys = inst.keys) ∧
      (∃ g : Sl → Sl, (∀ s, s.addr ≠ a → g s = s) ∧
        inst'.messages = inst.messages.map (fun x => { x with keyId := g x.keyId })) ∧
      m' = { withId f m with keyId := Sl.nil, cipherText := m'.cipherText } ∧
      (o ≠ .err .keyTooShort → o ≠ .err .outOfRange → m'.cipherText = []) := by
    intro inst1 m1 s0 s i ct hen hgk hsm hsub hsub' hout hin hct hi' hm'
    obtain ⟨f1, f2, f3, f4, f5, i', f6, f7, f8⟩ := hfound inst1 m1 hen
    rw [hgk] at f6; cases f6
    have hl : m1.keyId.val.length ≠ 0 := by simpa using f1
    have hgk' : getKey U s.keys m1.keyId.val = some i := by rw [getKey_congr U _ hsm.ids]; exact hgk
    have hget := fun j => release_get (U := U) (noise := noise) (inst := inst1) (m := { m1 with cipherText := [] })
      (s := s) (ct := ct) f1 hgk' j
    simp only at hget
    have hkeys : ∀ (j : Nat), inst'.keys[j]? = (inst.keys[j]?).map (fun k => { k with id := k.id.wiped m1.keyId.addr noise }) := by
      intro j
      rw [hi', hget j]
      rcases hs : s.keys[j]? with _ | ks
      · have : inst.keys[j]? = none := by
          rw [List.getElem?_eq_none_iff] at hs ⊢
          rw [← f3.length, ← hsm.length]; exact hs
        rw [this]; rfl
      · obtain ⟨k, hk, hmat⟩ := (hsm.trans f3).get hs
        rw [hk]
        simp only [Option.map_some, releasedKey, Option.some.injEq]
        have hu : (if (j = i ∨ j ∈ keysOf (s.chunks ++ [s.cur])) then false else ks.used) = k.used := by
          by_cases hji : j = i
          · subst hji
            have : k.used = false := by simpa [usedAt, hk] using f7
            simp [this]
          · have hu1 := f8 j hji
            by_cases hjm : j ∈ keysOf (s.chunks ++ [s.cur])
            · rw [if_pos (.inr hjm)]
              rcases hin j (hsub hjm) with h | h
              · exact absurd h hji
              · rw [hu1] at h
                simpa [usedAt, hk] using h.symm
            · rw [if_neg (by rintro (h | h); exacts [hji h, hjm h])]
              have := hout j (fun h => hjm (hsub' h))
              rw [hu1] at this
              simpa [usedAt, hk, hs] using this
        rw [hu]
        obtain ⟨a1, a2, a3, a4, a5, a6, a7, a8⟩ := ks
        obtain ⟨b1, b2, b3, b4, b5, b6, b7, b8⟩ := k
        simp only [Key.mat, Key.mk.injEq, true_and] at hmat
        simp [hmat]
    have hlen : inst'.keys.length = inst.keys.length := by
      have : inst'.keys = inst.keys.map (fun k => { k with id := k.id.wiped m1.keyId.addr noise }) := by
        apply List.ext_getElem?
        intro j; rw [hkeys j, List.getElem?_map]
      rw [this, List.length_map]
    refine ⟨m1.keyId.addr, f5, ?_, hlen, ?_, ?_, ?_, ?_, ?_⟩
    · rw [hi']
      simp only [release]
      rw [f2]
    · intro j k hk
      refine ⟨_, by rw [hkeys j, hk]; rfl, ?_⟩
      obtain ⟨x1, x2, x3⟩ := wiped_facts m1.keyId.addr noise k.id
      exact ⟨rfl, x1, x2, x3⟩
    · intro hall
      apply List.ext_getElem?
      intro j
      rw [hkeys j]
      rcases hk : inst.keys[j]? with _ | k
      · rfl
      · simp only [Option.map_some, Option.some.injEq]
        rw [(wiped_facts m1.keyId.addr noise k.id).2.2 (hall k (List.mem_of_getElem? hk))]
    · refine ⟨Sl.wiped m1.keyId.addr noise, fun s hs => (wiped_facts _ noise s).2.2 hs, ?_⟩
      have hmsg : inst1.messages = inst.messages := by rw [f2]
      rw [hi']
      simp only [release, if_neg hl, hmsg]
      rfl
    · rw [hm', f4]; simp [release]
    · intro h1 h2; rw [hm']; exact hct h1 h2
  have hfail := encipher_fail hg h ho
  cases hfail with
  | enrich _ _ => exact .inl ⟨rfl, rfl⟩
  | lost inst1 m1 hen hnone _ =>
    obtain ⟨_, _, _, _, _, i, hi, _⟩ := hfound _ _ hen
    rw [hnone] at hi; cases hi
  | loop inst1 m1 i s hen hgk hel _ =>
    right
    obtain ⟨t1, t2, t3, t4⟩ := encLoop_touched (loopOk_start _ _) rfl hel
    exact main inst1 m1 s s i [] hen hgk t1 (fun _ h => h) (fun _ h => h) t2 t3 (fun _ _ => rfl) rfl rfl
  | cipher inst1 m1 i s cur out hen hgk hel hck _ hcc _ =>
    right
    obtain ⟨t1, t2, t3, t4⟩ := encLoop_touched (loopOk_start _ _) rfl hel
    have hk : ∀ j, j ∈ keysOf (s.chunks ++ [cur] ++ [cur]) ↔ j ∈ keysOf (s.chunks ++ [s.cur]) := by
      intro j; simp [keysOf, hck]
    refine main inst1 m1 s { s with chunks := s.chunks ++ [cur], cur := cur } i out hen hgk t1
      (fun j h => (hk j).1 h) (fun j h => (hk j).2 h) t2 t3 ?_ rfl rfl
    intro h1 h2
    have hex : ∀ ch ∈ s.chunks ++ [cur], ∃ k, s.keys[ch.key]? = some k := by
      intro ch hch
      have hj : ch.key ∈ keysOf (s.chunks ++ [s.cur]) := by
        have : ch.key ∈ keysOf (s.chunks ++ [cur]) := List.mem_map_of_mem hch
        simpa [keysOf, hck] using this
      have hlt : ch.key < s.keys.length := by
        rcases t4 ch.key hj with h | h
        · rw [h, t1.length]
          obtain ⟨k, hk, _⟩ := getKey_some hgk
          exact (List.getElem?_eq_some_iff.1 hk).1
        · exact h
      exact ⟨_, List.getElem?_eq_getElem hlt⟩
    rcases cipherChunks_err _ _ _ _ hcc hex with h | h | h
    · exact absurd h ho
    · exact absurd h h1
    · exact absurd h h2

/-- non-vacuity: the two failures above -/
example : WellFormed ex1.keys ∧ (encipher unicode15 (fun _ => 0) [] ex1 (exMsg "HEJ DU DIN")).1 = .err .outOfKeys ∧
    (encipher unicode15 (fun _ => 0) [] ex1 { exMsg "HEJ!" with keyId := ⟨7, lit "A"⟩ }).1 = .panic ∧
    (encipher unicode15 (fun _ => 0) [] ex1 { exMsg "HEJ!" with keyId := ⟨7, lit "A"⟩ }).2.1 = ex1 := by decide

/-! ## C17: enough key material is enough -/

/-- A text of the characters `allowed` is enciphered if the unused keys for the recipients have together four letters of
capacity per character (a character codes to at most four letters; the capacity leaves room for announcing the next key). -/
def C17_For (allowed : Runes) : Prop :=
  ∀ (U : Unicode), U.Lawful → ∀ (noise : Nat → Rune) (f : Runes) (inst : Inst) (m : Msg),
    inst.groupSize ≠ 0 → WellFormed inst.keys → (∀ k ∈ inst.keys, ∀ c ∈ k.runes, IsLetter c) →
    m.plainText ≠ [] → m.keyId.val = [] → m.cipherText = [] → (∀ c ∈ m.plainText, c ∈ allowed) →
    (∀ k ∈ inst.keys, Selectable inst.groupSize m.recipients k → inst.groupSize + 3 ≤ k.runes.length) →
    4 * m.plainText.length ≤ available inst.groupSize m.recipients inst.keys →
    (encipher U noise f inst m).1 = .ok ()

/-- **C17**, full statement: this holds for all characters of the coding legend. -/
def C17_Statement : Prop := C17_For alphabet

/-- five keys of ten letters -/
def exFive : Inst := exInst [exKey 1 "A" "QWERTYUIOP", exKey 2 "B" "ASDFGHJKLZ", exKey 3 "C" "POIUYTREWQ",
  exKey 4 "D" "MNBVCXZLKJ", exKey 5 "E" "QAZWSXEDCR"]

/-- The statement is false: the test whether a key is used up does not count the letters the next character may need.
Here six letters are used, `g` takes four more, and the announcement of the next key does not fit any more. -/
theorem C17_violated : ¬ C17_Statement := by
  intro h
  have := h unicode15 unicode15_lawful (fun _ => 0) [] exFive (exMsg "ABCDEFgA") (by decide) (by decide) (by decide) (by decide)
    (by decide) (by decide) (by decide) (by decide) (by decide)
  revert this
  decide

example : (encipher unicode15 (fun _ => 0) [] exFive (exMsg "ABCDEFgA")).1 = .err .keyTooShort := by decide

/-- It is false also for texts without small letters, i.e. for ordinary traffic with letters and digits: here a letter after a digit
takes two letters, and so does the announcement of the next key before its id. -/
theorem C17_violated_capitals : ¬ C17_For (capitals ++ neutrals) := by
  intro h
  have := h unicode15 unicode15_lawful (fun _ => 0) [] exFive (exMsg "ABCD5AB") (by decide) (by decide) (by decide) (by decide)
    (by decide) (by decide) (by decide) (by decide) (by decide)
  revert this
  decide

example : (encipher unicode15 (fun _ => 0) [] exFive (exMsg "ABCD5AB")).1 = .err .keyTooShort := by decide

/-- **C17**, what holds.  With keys of letters only: (1) under the hypotheses of `C17_Statement` the only possible failure
is `keyTooShort`, i.e. `Encipher` does not run out of keys; (2) text of the first coding table is
enciphered if the keys have one letter of capacity per character; (3) any text over the legend is enciphered if
each key fit for the message has a capacity of four letters per character.  Missing: text that needs
several keys and has characters coded to several letters; by `C17_violated_capitals` the statement is false for it even without
small letters. -/
theorem C17_partial (U : Unicode) (hU : U.Lawful) (noise : Nat → Rune) (f : Runes) (inst : Inst) (m : Msg)
    (hg : inst.groupSize ≠ 0) (hwf : WellFormed inst.keys) (hkeys : ∀ k ∈ inst.keys, ∀ c ∈ k.runes, IsLetter c)
    (hp : m.plainText ≠ []) (hid : m.keyId.val = []) (hct : m.cipherText = []) :
    ((∀ c ∈ m.plainText, c ∈ alphabet) →
      4 * m.plainText.length ≤ available inst.groupSize m.recipients inst.keys →
      (encipher U noise f inst m).1 = .ok () ∨ (encipher U noise f inst m).1 = .err .keyTooShort) ∧
    ((∀ c ∈ m.plainText, c ∈ firstTable) →
      (∀ k ∈ inst.keys, Selectable inst.groupSize m.recipients k → inst.groupSize + 3 ≤ k.runes.length) →
      m.plainText.length ≤ available inst.groupSize m.recipients inst.keys →
      (encipher U noise f inst m).1 = .ok ()) ∧
    ((∀ c ∈ m.plainText, c ∈ alphabet) →
      (∃ k ∈ inst.keys, Selectable inst.groupSize m.recipients k) →
      (∀ k ∈ inst.keys, Selectable inst.groupSize m.recipients k → 4 * m.plainText.length ≤ capacity inst.groupSize k) →
      (encipher U noise f inst m).1 = .ok ()) := by
  have hpl : 0 < m.plainText.length := List.length_pos_iff.2 hp
  have hids : ∀ k ∈ inst.keys, ∀ c ∈ k.id.val, IsLetter c := hwf.2
  rcases he : encipher U noise f inst m with ⟨o, inst', m'⟩
  simp only
  refine ⟨?_, ?_, ?_⟩
  · intro hal hav
    by_cases ho : o = .ok ()
    · exact .inl ho
    right
    obtain ⟨i, k, s0, rfl, hk, hsel, s, hs⟩ := encipher_fail_auto hU hg hwf hp hid hct
      (available_pos _ _ _ (by omega)) he ho
    have hilt := (List.getElem?_eq_some_iff.1 hk).1
    have hloop := encLoop_enough hU m.plainText _ (loopOk_start (setUsed inst.keys i true) i) hal
      (g := inst.groupSize) (r := m.recipients) (by rw [capLeft_start hk hsel]; exact hav)
    rcases hs with hs | ⟨hs, cur, out, hck, hce, hcc⟩
    · rw [hs] at hloop; exact absurd hloop ho
    · obtain ⟨_, c2, c3⟩ := chunks_ready hids hkeys hilt hs hck hce
      have := (cipherChunks_total _ c2 _ c3).1
      rw [hcc] at this
      exact this.resolve_left ho
  · intro hal hlong hav
    by_cases ho : o = .ok ()
    · exact ho
    exfalso
    obtain ⟨i, k, s0, rfl, hk, hsel, s, hs⟩ := encipher_fail_auto hU hg hwf hp hid hct
      (available_pos _ _ _ (by omega)) he ho
    have hilt := (List.getElem?_eq_some_iff.1 hk).1
    have hk0 := hlong k (List.mem_of_getElem? hk) hsel
    obtain ⟨s', hs', hinv⟩ := encLoop_first hU m.plainText ⟨setUsed inst.keys i true, newState, [], ⟨[], i⟩⟩
      (g := inst.groupSize) (r := m.recipients)
      ⟨loopOk_start _ _, rfl, rfl, (by
        intro k' hk' hs'
        obtain ⟨p, hp⟩ := List.mem_iff_getElem?.1 hk'
        simp only [setUsed_get] at hp
        rcases hq : inst.keys[p]? with _ | k0
        · rw [hq] at hp; cases hp
        · rw [hq] at hp
          simp only [Option.map_some, Option.some.injEq] at hp
          by_cases hjp : i = p
          · rw [if_pos hjp] at hp
            subst hp
            exact absurd hs'.1 (by simp)
          · rw [if_neg hjp] at hp
            subst hp
            exact hlong k0 (List.mem_of_getElem? hq) hs'),
        (by simp only [keyLenAt_setUsed, keyLenAt_eq hk]; exact hk0), (by simp), (by simp)⟩
      hal (by rw [capLeft_start hk hsel]; exact hav)
    rcases hs with hs | ⟨hs, cur, out, hck, hce, hcc⟩
    · rw [hs] at hs'; cases hs'; exact ho rfl
    · rw [hs] at hs'; cases hs'
      obtain ⟨_, c2, c3⟩ := chunks_ready hids hkeys hilt hs hck hce
      have := (cipherChunks_total _ c2 _ c3).2 (by
        intro ch hch
        rcases List.mem_append.1 hch with hch | hch
        · exact hinv.fits ch hch
        · rw [List.mem_singleton] at hch; subst hch
          have h1 := padCount_lt inst.groupSize (s.cur.enc.length + totalLength s.chunks) hg
          have h2 := hinv.cur
          have h3 := hinv.curLong
          rw [hck, hce, List.length_append, List.length_replicate]
          unfold capAt at h2
          omega)
      rw [hcc] at this
      exact ho this
  · intro hal hex hcap
    by_cases ho : o = .ok ()
    · exact ho
    exfalso
    obtain ⟨i, k, s0, rfl, hk, hsel, s, hs⟩ := encipher_fail_auto hU hg hwf hp hid hct hex he ho
    have hilt := (List.getElem?_eq_some_iff.1 hk).1
    have hc := hcap k (List.mem_of_getElem? hk) hsel
    have hca : capAt inst.groupSize (setUsed inst.keys i true) i = capacity inst.groupSize k := by
      simp only [capAt, keyLenAt_setUsed, keyLenAt_eq hk, capacity]
    obtain ⟨s', hs', e1, e2, e3, e4⟩ := encLoop_single hU m.plainText
      ⟨setUsed inst.keys i true, newState, [], ⟨[], i⟩⟩ (g := inst.groupSize) (r := m.recipients)
      (loopOk_start _ _) hal (by simp only [hca, List.length_nil]; omega)
    rcases hs with hs | ⟨hs, cur, out, hck, hce, hcc⟩
    · rw [hs] at hs'; cases hs'; exact ho rfl
    · rw [hs] at hs'; cases hs'
      obtain ⟨_, c2, c3⟩ := chunks_ready hids hkeys hilt hs hck hce
      have := (cipherChunks_total _ c2 _ c3).2 (by
        intro ch hch
        rw [e1] at hch
        simp only [List.nil_append, List.mem_singleton] at hch
        subst hch
        have h1 := padCount_lt inst.groupSize (s.cur.enc.length + totalLength s.chunks) hg
        simp only at e3 e4
        rw [hck, hce, List.length_append, List.length_replicate, e3, e2]
        rw [hca] at e4
        simp only [keyLenAt_setUsed, keyLenAt_eq hk]
        unfold capacity at hc e4
        omega)
      rw [hcc] at this
      exact ho this

/-- non-vacuity: texts for each of the three parts -/
example : WellFormed exFive.keys ∧ (∀ k ∈ exFive.keys, ∀ c ∈ k.runes, IsLetter c) ∧
    available 1 (exMsg "x").recipients exFive.keys = 35 ∧
    (encipher unicode15 (fun _ => 0) [] exFive (exMsg "ABC DEF GHIJKLMNO")).1 = .ok () ∧
    (encipher unicode15 (fun _ => 0) [] exFive (exMsg "x")).1 = .ok () := by decide

end K431
