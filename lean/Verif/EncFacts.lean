import Verif.SpecCipher
import Verif.EncLemmas

/-! # Helper lemmas: lengths, flags and key selection of a successful Encipher -/

namespace K431
open Spec

theorem eqBy_false (U : Unicode) (a b : Runes) : eqBy U false a b = true ↔ a = b := by
  simp [eqBy, equalRunes_iff]

theorem needleIn_iff (U : Unicode) (n : Runes) : ∀ hs : List Runes, needleIn U false n hs = true ↔ n ∈ hs := by
  intro hs
  induction hs with
  | nil => simp [needleIn]
  | cons h hs ih =>
    simp only [needleIn, List.mem_cons]
    by_cases he : eqBy U false h n = true
    · rw [if_pos he]; rw [eqBy_false] at he; simp [he]
    · rw [if_neg he, ih]; rw [eqBy_false] at he
      constructor
      · exact Or.inr
      · rintro (h1 | h1)
        · exact absurd h1.symm he
        · exact h1

theorem allNeedlesLoop_iff (U : Unicode) (hs : List Runes) : ∀ ns : List Runes,
    allNeedlesLoop U false hs ns = true ↔ ∀ n ∈ ns, n ∈ hs := by
  intro ns
  induction ns with
  | nil => simp [allNeedlesLoop]
  | cons n ns ih =>
    simp only [allNeedlesLoop]
    by_cases h : needleIn U false n hs = true
    · rw [if_pos h, ih]; rw [needleIn_iff] at h; simp [h]
    · rw [if_neg h]; rw [needleIn_iff] at h; simp [h]

theorem allNeedles_iff (U : Unicode) (ns hs : List Runes) (hne : ns ≠ []) :
    allNeedlesInHaystack U (some ns) (some hs) false = true ↔ ∀ n ∈ ns, n ∈ hs := by
  simp only [allNeedlesInHaystack]
  have h1 : ns.length ≠ 0 := by simpa using hne
  by_cases h2 : hs.length = 0
  · have : hs = [] := List.length_eq_zero_iff.1 h2
    subst this
    simp only [List.length_nil, or_true, if_true, Bool.false_eq_true, List.not_mem_nil, false_iff]
    intro h
    cases ns with
    | nil => exact hne rfl
    | cons n ns => exact h n (by simp)
  · rw [if_neg (by omega), allNeedlesLoop_iff]

theorem eligible_iff (U : Unicode) (g : Nat) (r : List Runes) (k : Key) :
    Eligible U g r k ↔ Selectable g r k := by
  unfold Eligible Selectable KeptBy
  by_cases hr : r = []
  · subst hr; simp
  · have : r.length ≠ 0 := by simpa using hr
    rw [if_neg this, if_neg hr, allNeedles_iff U r _ hr]
    simp only [Key.names, List.mem_map]

theorem cipherChunks_spec (keys : List Key) : ∀ (chs : List Chunk) (out : Runes),
    cipherChunks keys chs = (.ok (), out) →
      out.length = totalLength chs ∧ (∀ c ∈ out, IsLetter c) ∧
      ∀ ch ∈ chs, ∃ k, keys[ch.key]? = some k ∧ ch.enc.length ≤ k.runes.length := by
  intro chs
  induction chs with
  | nil => intro out h; simp [cipherChunks] at h; subst h; simp [totalLength]
  | cons ch chs ih =>
    intro out h
    have h' := (cipherChunks_append keys [ch] chs out).1 h
    obtain ⟨o1, o2, h1, h2, rfl⟩ := h'
    rw [cipherChunks_one] at h1
    obtain ⟨k, hk, hl, h3⟩ := h1
    obtain ⟨a, b, c⟩ := (cipherChunk_ok _ _ _).1 h3
    obtain ⟨i1, i2, i3⟩ := ih _ h2
    refine ⟨?_, ?_, ?_⟩
    · rw [List.length_append, b, i1]; simp [totalLength]
    · intro x hx
      rcases List.mem_append.1 hx with hx | hx
      · obtain ⟨i, hi⟩ := List.mem_iff_getElem?.1 hx
        have hlt := (List.getElem?_eq_some_iff.1 hi).1
        have e1 : k.runes[i]? = some (k.runes[i]'(by omega)) := List.getElem?_eq_getElem _
        have e2 : ch.enc[i]? = some (ch.enc[i]'(by omega)) := List.getElem?_eq_getElem _
        exact (c i _ _ _ e1 e2 hi).2.2.1
      · exact i2 x hx
    · intro ch' hch
      rcases List.mem_cons.1 hch with rfl | hch
      · exact ⟨k, hk, hl⟩
      · exact i3 ch' hch

theorem totalLength_append (a b : List Chunk) : totalLength (a ++ b) = totalLength a + totalLength b := by
  induction a with
  | nil => simp [totalLength]
  | cons x xs ih => simp [totalLength] at ih ⊢; omega

theorem padCount_spec (g n : Nat) (hg : g ≠ 0) : (n + padCount g n) % g = 0 := by
  unfold padCount
  have hlt : n % g < g := Nat.mod_lt _ (by omega)
  have hdm := Nat.div_add_mod n g
  by_cases h : n % g = 0
  · rw [h]; simp [h]
  · rw [Nat.mod_eq_of_lt (show g - n % g < g by omega)]
    have : n + (g - n % g) = g * (n / g + 1) := by rw [Nat.mul_add]; omega
    rw [this]; exact Nat.mul_mod_right _ _

theorem padCount_lt (g n : Nat) (hg : g ≠ 0) : padCount g n < g := Nat.mod_lt _ (by omega)

/-- the coded text is never shorter than the text -/
theorem encLoop_length {U : Unicode} {g : Nat} {r : List Runes} {text : Runes} {s s' : LoopState}
    (hs : LoopOk s) (h : encLoop U g r text s = (.ok (), s')) :
    totalLength s.chunks + s.cur.enc.length + text.length ≤ totalLength s'.chunks + s'.cur.enc.length := by
  obtain ⟨_, h2⟩ := encLoop_inv_ok (g := g) (r := r) (U := U)
    (fun d a => totalLength s.chunks + s.cur.enc.length + d.length ≤ totalLength a.chunks + a.cur.enc.length)
    (fun d a b hp hok hn => by
      obtain ⟨j, k, _, _, rfl⟩ := nextChunk_ok hok hn
      simp only [totalLength_append]
      simp [totalLength] at hp ⊢
      omega)
    (fun d a c t i hp hok hf => by
      have := word_length U a.st.table a.st.shift c t i
      simp only [afterChar, List.length_append, List.length_singleton] at hp ⊢
      omega) (by simp) hs h
  exact h2

/-- the flag of key `j` -/
def usedAt (keys : List Key) (j : Nat) : Bool :=
  match keys[j]? with
  | some k => k.used
  | none => false

theorem usedAt_setUsed {keys : List Key} {i : Nat} (hi : i < keys.length) (b : Bool) (j : Nat) :
    usedAt (setUsed keys i b) j = if i = j then b else usedAt keys j := by
  unfold usedAt
  rw [setUsed_get]
  by_cases h : i = j
  · subst h
    rw [List.getElem?_eq_getElem hi]; simp
  · rcases keys[j]? with _ | k <;> simp [h]

/-- Flag bookkeeping of the loop when it starts with a key marked used. -/
theorem encLoop_flags {U : Unicode} {g : Nat} {r : List Runes} {text : Runes} {s s' : LoopState}
    {o : Outcome Unit} (keys0 : List Key) (hlen : s.keys.length = keys0.length)
    (hs : LoopOk s) (hch : s.chunks = [])
    (hflag : ∀ j, usedAt s.keys j = (usedAt keys0 j || decide (j = s.cur.key)))
    (hcur : usedAt s.keys s.cur.key = true)
    (h : encLoop U g r text s = (o, s')) :
    (∀ j, usedAt s'.keys j = (usedAt keys0 j || decide (j ∈ keysOf (s'.chunks ++ [s'.cur])))) ∧
    (keysOf (s'.chunks ++ [s'.cur])).Nodup ∧
    (∀ j ∈ keysOf (s'.chunks ++ [s'.cur]), usedAt s'.keys j = true) ∧
    s'.keys.length = keys0.length ∧
    ((keysOf (s'.chunks ++ [s'.cur])).head? = some s.cur.key) ∧
    (∀ j ∈ keysOf (s'.chunks ++ [s'.cur]), j ≠ s.cur.key → usedAt keys0 j = false ∧ 
        ∃ k, s.keys[j]? = some k ∧ Eligible U g r k) := by
  obtain ⟨_, d1, d2, _, hP, _⟩ := encLoop_inv (U := U) (g := g) (r := r)
    (fun _ a => (∀ j, usedAt a.keys j = (usedAt keys0 j || decide (j ∈ keysOf (a.chunks ++ [a.cur])))) ∧
      (keysOf (a.chunks ++ [a.cur])).Nodup ∧
      (∀ j ∈ keysOf (a.chunks ++ [a.cur]), usedAt a.keys j = true) ∧
      a.keys.length = keys0.length ∧ SameMat a.keys s.keys ∧
      ((keysOf (a.chunks ++ [a.cur])).head? = some s.cur.key) ∧
      (∀ j ∈ keysOf (a.chunks ++ [a.cur]), j ≠ s.cur.key → usedAt keys0 j = false ∧ 
        ∃ k, s.keys[j]? = some k ∧ Eligible U g r k))
    (by
      rintro d a b ⟨p1, p2, p3, p4, p5, p6, p7⟩ hok hn
      obtain ⟨j, k, hf, hk, rfl⟩ := nextChunk_ok hok hn
      obtain ⟨k', e1, e2, _⟩ := findKey_some hf
      rw [hk] at e1; cases e1
      have hj : j < a.keys.length := (List.getElem?_eq_some_iff.1 hk).1
      have hju : usedAt a.keys j = false := by simp [usedAt, hk, e2.1]
      have hkeys : ∀ enc, keysOf (a.chunks ++ [{ a.cur with enc := enc }] ++ [⟨[], j⟩]) =
          keysOf (a.chunks ++ [a.cur]) ++ [j] := by intro enc; simp [keysOf]
      have hnot : j ∉ keysOf (a.chunks ++ [a.cur]) := by
        intro hm; rw [p3 j hm] at hju; cases hju
      simp only [hkeys]
      refine ⟨?_, ?_, ?_, by rw [setUsed_length]; exact p4, (setUsed_sameMat _ _ _).trans p5, ?_, ?_⟩
      · intro i
        rw [usedAt_setUsed hj, p1 i]
        by_cases hji : j = i
        · subst hji; simp
        · have : ¬ i = j := fun h => hji h.symm
          simp [hji, this]
      · rw [List.nodup_append]
        refine ⟨p2, by simp, ?_⟩
        intro x hx y hy
        rw [List.mem_singleton] at hy
        subst hy
        intro he; subst he; exact hnot hx
      · intro i hi
        rw [usedAt_setUsed hj]
        split
        · rfl
        · rename_i hne
          rcases List.mem_append.1 hi with hi | hi
          · exact p3 i hi
          · rw [List.mem_singleton] at hi; exact absurd hi.symm hne
      · rw [List.head?_append, p6]; rfl
      · intro i hi hne
        rcases List.mem_append.1 hi with hi | hi
        · exact p7 i hi hne
        · rw [List.mem_singleton] at hi
          subst hi
          have := p1 i
          rw [hju] at this
          refine ⟨by cases h : usedAt keys0 i <;> simp [h] at this ⊢, ?_⟩
          obtain ⟨k2, m1, m2⟩ := p5.get hk
          refine ⟨k2, m1, ?_⟩
          have hu2 : k2.used = false := by
            have h3 := hflag i
            have h4 : usedAt keys0 i = false := by cases h : usedAt keys0 i <;> simp [h] at this ⊢
            rw [h4] at h3
            simp only [usedAt, m1, Bool.false_or] at h3
            rw [h3]; simp [hne]
          exact ⟨hu2, by rw [Key.mat_id m2]; exact e2.2.1, by rw [Key.names, Key.mat_keepers m2]; exact e2.2.2⟩)
    (by
      rintro d a c t i ⟨p1, p2, p3, p4, p5, p6, p7⟩ _ _
      have hkeys : keysOf ((afterChar U a c t i).chunks ++ [(afterChar U a c t i).cur]) =
        keysOf (a.chunks ++ [a.cur]) := by simp [keysOf, afterChar]
      rw [hkeys]
      exact ⟨p1, p2, p3, p4, p5, p6, p7⟩)
    text [] s o s'
    ⟨by intro j; rw [hflag j]; simp [keysOf, hch], by simp [keysOf, hch],
      by intro j hj; simp [keysOf, hch] at hj; subst hj; exact hcur, hlen, SameMat.refl _,
      by simp [keysOf, hch],
      by intro j hj hne; simp [keysOf, hch] at hj; exact absurd hj hne⟩ hs h
  obtain ⟨p1, p2, p3, p4, p5, p6, p7⟩ := hP
  refine ⟨p1, p2, p3, p4, p6, ?_⟩
  intro j hj hne
  obtain ⟨a, k, b, c⟩ := p7 j hj hne
  exact ⟨a, k, b, c⟩

/-- the first key stays the first -/
theorem encLoop_head {U : Unicode} {g : Nat} {r : List Runes} {text : Runes} {s s' : LoopState}
    {o : Outcome Unit} (hs : LoopOk s) (h : encLoop U g r text s = (o, s')) :
    (keysOf (s'.chunks ++ [s'.cur])).head? = (keysOf (s.chunks ++ [s.cur])).head? := by
  obtain ⟨_, d1, d2, _, hP, _⟩ := encLoop_inv (U := U) (g := g) (r := r)
    (fun _ a => (keysOf (a.chunks ++ [a.cur])).head? = (keysOf (s.chunks ++ [s.cur])).head?)
    (by
      intro d a b hp hok hn
      obtain ⟨j, k, hf, hk, rfl⟩ := nextChunk_ok hok hn
      have hkeys : ∀ enc, keysOf (a.chunks ++ [{ a.cur with enc := enc }] ++ [⟨[], j⟩]) =
          keysOf (a.chunks ++ [a.cur]) ++ [j] := by intro enc; simp [keysOf]
      simp only [hkeys]
      rw [List.head?_append, hp]
      cases s.chunks <;> simp [keysOf])
    (by
      intro d a c t i hp _ _
      have hkeys : keysOf ((afterChar U a c t i).chunks ++ [(afterChar U a c t i).cur]) =
        keysOf (a.chunks ++ [a.cur]) := by simp [keysOf, afterChar]
      rw [hkeys]; exact hp)
    text [] s o s' rfl hs h
  exact hP

section
variable {U : Unicode} {f : Runes} {inst inst' inst1 : Inst} {m m' m1 : Msg} {chunks : List Chunk}
  {i : Nat} {s : LoopState} {out : Runes}

theorem EncOk.keysOf_eq (e : EncOk U f inst m chunks inst' m' inst1 m1 i s out) :
    keysOf chunks = keysOf (s.chunks ++ [s.cur]) := by
  rw [e.hchunks]; simp [keysOf]

theorem EncOk.head (e : EncOk U f inst m chunks inst' m' inst1 m1 i s out) :
    (keysOf chunks).head? = some i := by
  rw [e.keysOf_eq, encLoop_head (loopOk_start _ _) e.loop]; rfl

theorem EncOk.first_mem (e : EncOk U f inst m chunks inst' m' inst1 m1 i s out) :
    ∃ ch ∈ chunks, ch.key = i := by
  have h := e.head
  have hm : i ∈ keysOf chunks := List.mem_of_mem_head? (by rw [h]; rfl)
  simpa [keysOf] using hm

theorem EncOk.keyId_eq (e : EncOk U f inst m chunks inst' m' inst1 m1 i s out) :
    m'.keyId = m1.keyId ∧ m'.cipherText = out ∧ inst'.keys = s.keys := by
  rw [e.hm, e.hinst]; exact ⟨rfl, rfl, rfl⟩

theorem EncOk.keyId_length (e : EncOk U f inst m chunks inst' m' inst1 m1 i s out) :
    m'.keyId.val.length = inst.groupSize := by
  rw [e.keyId_eq.1]
  have h := e.enriched
  cases h with
  | preset _ _ _ h => exact h
  | auto j k h1 h2 h3 h4 =>
    obtain ⟨k', a, b, _⟩ := findKey_some h3
    rw [h4] at a; cases a
    exact b.2.1

/-- the id of the message is the id of a key in the store -/
theorem EncOk.keyId_key (e : EncOk U f inst m chunks inst' m' inst1 m1 i s out) :
    ∃ k ∈ inst.keys, k.id.val = m'.keyId.val := by
  rw [e.keyId_eq.1]
  have h := e.enriched
  cases h with
  | preset j k h1 h2 h3 h4 => exact ⟨k, List.mem_of_getElem? h3, h4⟩
  | auto j k h1 h2 h3 h4 => exact ⟨k, List.mem_of_getElem? h4, rfl⟩

theorem EncOk.cipher_length (e : EncOk U f inst m chunks inst' m' inst1 m1 i s out) :
    m'.cipherText.length % inst.groupSize = 0 ∧ m.plainText.length ≤ m'.cipherText.length ∧
      (∀ c ∈ m'.cipherText, IsLetter c) ∧ m'.cipherText.length = totalLength chunks := by
  obtain ⟨h1, h2, _⟩ := cipherChunks_spec _ _ _ e.ciphered
  rw [e.keyId_eq.2.1]
  have hl := encLoop_length (loopOk_start _ _) e.loop
  have hp : m1.plainText = m.plainText := by
    rw [e.enriched.plainText.1, (withId_fields f m).1]
  rw [hp] at hl
  have htot : totalLength chunks = s.cur.enc.length + totalLength s.chunks +
      padCount inst.groupSize (s.cur.enc.length + totalLength s.chunks) := by
    rw [e.hchunks, totalLength_append]; simp [totalLength]; omega
  refine ⟨?_, ?_, h2, h1⟩
  · rw [h1, htot]; exact padCount_spec _ _ e.hg
  · rw [h1, htot]; simp [totalLength] at hl ⊢; omega

theorem EncOk.cipher_ge (e : EncOk U f inst m chunks inst' m' inst1 m1 i s out) :
    inst.groupSize ≤ m'.cipherText.length ∧ m'.cipherText ≠ [] := by
  obtain ⟨h1, h2, _⟩ := e.cipher_length
  have hp : 0 < m.plainText.length := List.length_pos_iff.2 e.plain
  have : m'.cipherText.length ≠ 0 := by omega
  refine ⟨Nat.le_of_dvd (by omega) (Nat.dvd_of_mod_eq_zero h1), fun h => by rw [h] at this; simp at this⟩

/-- the keys other than the first are selectable ones; the first is the message key -/
theorem EncOk.keys (e : EncOk U f inst m chunks inst' m' inst1 m1 i s out) :
    ∀ ch ∈ chunks, ∃ k, inst.keys[ch.key]? = some k ∧ ch.enc.length ≤ k.runes.length := by
  intro ch hch
  obtain ⟨k, h1, h2⟩ := (cipherChunks_spec _ _ _ e.ciphered).2.2 ch hch
  obtain ⟨k', h3, h4⟩ := e.sameMat.get h1
  exact ⟨k', h3, by rw [Key.mat_runes h4]; exact h2⟩

theorem EncOk.firstKey (hU : U.Lawful) (e : EncOk U f inst m chunks inst' m' inst1 m1 i s out) (rkeys : List Key) :
    ∀ k, inst.keys[i]? = some k → getKey U rkeys k.id.val = getKey U rkeys m'.keyId.val := by
  intro k hk
  have h := e.first
  rw [getKey_congr U _ e.enriched.sameMat.ids] at h
  rw [e.keyId_eq.1]
  exact getKey_of_found hU h hk

/-- round trip with the keys that get marked -/
theorem EncOk.decipher (hU : U.Lawful) (e : EncOk U f inst m chunks inst' m' inst1 m1 i s out)
    (f' : Runes) (rcv : Inst) (hg : rcv.groupSize = inst.groupSize)
    (hres : ∀ ch ∈ chunks, Resolves U inst.keys rcv.keys ch.key)
    (msg : Msg) (hk : msg.keyId.val = m'.keyId.val) (hc : msg.cipherText = m'.cipherText) :
    ∃ stack, K431.decipher U f' rcv msg =
        (.ok (), { rcv with keys := stack.foldl (fun ks j => setUsed ks j true) rcv.keys },
          { withId f' msg with plainText := m.plainText.map canon }) ∧
      Rel2 (fun (ch : Chunk) j => ResolvesTo U inst.keys rcv.keys ch.key j) chunks stack := by
  obtain ⟨ch, hch, hci⟩ := e.first_mem
  obtain ⟨k, j, kr, r1, r2, r3, r4⟩ := hres ch hch
  rw [hci] at r1
  have hf0 := e.firstKey hU rcv.keys
  have hj : getKey U rcv.keys m'.keyId.val = some j := by rw [← hf0 k r1]; exact r2
  obtain ⟨D, hD, hst⟩ := e.decodes hU rcv.keys j (fun k' hk' => by rw [hf0 k' hk', hj]) hres
  refine ⟨D.stack, ?_, hst⟩
  have hw := withId_fields f' msg
  unfold K431.decipher
  simp only
  rw [hw.2.2.1, hw.2.2.2, hk, hc, e.keyId_length, hg]
  rw [if_neg (by simp), if_neg (by have := e.cipher_ge.1; omega), hj]
  simp only
  rw [hD]

/-- only supported characters (and the two special runes) get through -/
theorem encLoop_alphabet (hU : U.Lawful) {g : Nat} {r : List Runes} {text : Runes} {s s' : LoopState}
    (hs : LoopOk s) (h : encLoop U g r text s = (.ok (), s')) :
    ∀ c ∈ text, c ∈ alphabet ∨ c = dotlessI ∨ c = longS := by
  obtain ⟨_, h2⟩ := encLoop_inv_ok (g := g) (r := r) (U := U)
    (fun d _ => ∀ c ∈ d, c ∈ alphabet ∨ c = dotlessI ∨ c = longS)
    (fun d a b hp _ _ => hp)
    (fun d a c t i hp hok hf => by
      intro x hx
      rcases List.mem_append.1 hx with hx | hx
      · exact hp x hx
      · rw [List.mem_singleton] at hx; subst hx
        exact alphabet_of_findInTables U hU _ _ _ hf) (by simp) hs h
  exact h2

/-! ## Which key letters were used -/

theorem cipherChunks_letters (keys : List Key) : ∀ (chs : List Chunk) (out : Runes),
    cipherChunks keys chs = (.ok (), out) →
    (lettersUsed chs).length = out.length ∧
    ∀ (n j p : Nat) (z : Rune), (lettersUsed chs)[n]? = some (j, p) → out[n]? = some z →
      ∃ k kr e, keys[j]? = some k ∧ k.runes[p]? = some kr ∧
        (chs.flatMap Chunk.enc)[n]? = some e ∧ Trigraph kr e z := by
  intro chs
  induction chs with
  | nil => intro out h; simp [cipherChunks] at h; subst h; simp [lettersUsed]
  | cons ch chs ih =>
    intro out h
    obtain ⟨o1, o2, h1, h2, rfl⟩ := (cipherChunks_append keys [ch] chs out).1 h
    rw [cipherChunks_one] at h1
    obtain ⟨k, hk, hl, h3⟩ := h1
    obtain ⟨a, b, c⟩ := (cipherChunk_ok _ _ _).1 h3
    obtain ⟨i1, i2⟩ := ih _ h2
    have hlu : lettersUsed (ch :: chs) = (List.range ch.enc.length).map (fun p => (ch.key, p)) ++ lettersUsed chs := rfl
    refine ⟨by rw [hlu, List.length_append, List.length_append, i1, b]; simp, ?_⟩
    intro n j p z hn hz
    rw [hlu] at hn
    by_cases hlt : n < ch.enc.length
    · rw [List.getElem?_append_left (by simpa using hlt)] at hn
      rw [List.getElem?_append_left (by omega)] at hz
      simp [List.getElem?_range hlt] at hn
      obtain ⟨rfl, rfl⟩ := hn
      have e1 : k.runes[n]? = some (k.runes[n]'(by omega)) := List.getElem?_eq_getElem _
      have e2 : ch.enc[n]? = some (ch.enc[n]'(by omega)) := List.getElem?_eq_getElem _
      refine ⟨k, _, _, hk, e1, ?_, c n _ _ _ e1 e2 hz⟩
      rw [List.flatMap_cons, List.getElem?_append_left hlt, e2]
    · have hlen : ((List.range ch.enc.length).map (fun p => (ch.key, p))).length = ch.enc.length := by simp
      rw [List.getElem?_append_right (by rw [hlen]; omega), hlen] at hn
      rw [List.getElem?_append_right (by omega), b] at hz
      obtain ⟨k', kr, e, x1, x2, x3, x4⟩ := i2 _ _ _ _ hn hz
      refine ⟨k', kr, e, x1, x2, ?_, x4⟩
      rw [List.flatMap_cons, List.getElem?_append_right (by omega), x3]

theorem lettersUsed_nodup : ∀ chs : List Chunk, (keysOf chs).Nodup → (lettersUsed chs).Nodup := by
  intro chs
  induction chs with
  | nil => intro _; simp [lettersUsed]
  | cons ch chs ih =>
    intro h
    have hlu : lettersUsed (ch :: chs) = (List.range ch.enc.length).map (fun p => (ch.key, p)) ++ lettersUsed chs := rfl
    have hko : keysOf (ch :: chs) = ch.key :: keysOf chs := rfl
    rw [hko, List.nodup_cons] at h
    rw [hlu, List.nodup_append]
    refine ⟨?_, ih h.2, ?_⟩
    · rw [List.Nodup, List.pairwise_map]
      exact List.Pairwise.imp (fun h e => h (by simpa using e)) List.nodup_range
    · rintro ⟨j, p⟩ ha ⟨j', p'⟩ hb he
      simp only [List.mem_map, Prod.mk.injEq] at ha
      obtain ⟨_, _, rfl, _⟩ := ha
      simp only [Prod.mk.injEq] at he
      obtain ⟨rfl, rfl⟩ := he
      simp only [lettersUsed, List.mem_flatMap, List.mem_map, Prod.mk.injEq] at hb
      obtain ⟨c, hc, _, _, hck, _⟩ := hb
      exact h.1 (by rw [← hck]; exact List.mem_map_of_mem hc)

/-- With an automatically selected key in a well-formed store, the first chunk's key is the selected
one. -/
theorem EncOk.auto_first (hU : U.Lawful) (e : EncOk U f inst m chunks inst' m' inst1 m1 i s out)
    (hauto : m.keyId.val = []) (hwf : Distinguishable U inst.keys) :
    inst1.keys = setUsed inst.keys i true ∧ ∃ k, inst.keys[i]? = some k ∧
      Eligible U inst.groupSize m.recipients k ∧ m'.keyId = k.id := by
  have h := e.enriched
  have hk1 := e.first
  have hid := e.keyId_eq.1
  rw [getKey_congr U _ e.enriched.sameMat.ids] at hk1
  cases h with
  | preset j k h1 => rw [(withId_fields f m).2.2.1, hauto] at h1; exact absurd rfl h1
  | auto j k h1 h2 h3 h4 =>
    simp only at hk1
    cases hwf.getKey hU h4 hk1
    obtain ⟨k', a, b, _⟩ := findKey_some h3
    rw [h4] at a; cases a
    rw [(withId_fields f m).2.1] at b
    exact ⟨rfl, k, h4, b, by rw [hid]⟩

theorem EncOk.auto_flags (hU : U.Lawful) (e : EncOk U f inst m chunks inst' m' inst1 m1 i s out)
    (hauto : m.keyId.val = []) (hwf : Distinguishable U inst.keys) :
    (∀ j, usedAt inst'.keys j = (usedAt inst.keys j || decide (j ∈ keysOf chunks))) ∧
    (keysOf chunks).Nodup ∧
    ∀ j ∈ keysOf chunks, ∃ k, inst.keys[j]? = some k ∧ Eligible U inst.groupSize m.recipients k := by
  obtain ⟨h1, k, hk, hel, _⟩ := e.auto_first hU hauto hwf
  have hi : i < inst.keys.length := (List.getElem?_eq_some_iff.1 hk).1
  have hrec : m1.recipients = m.recipients := by
    rw [e.enriched.plainText.2.1, (withId_fields f m).2.1]
  obtain ⟨p1, p2, p3, p4, p5, p6⟩ := encLoop_flags inst.keys
    (by simp only; rw [h1, setUsed_length]) (loopOk_start _ _) rfl
    (by intro j; simp only; rw [h1, usedAt_setUsed hi]
        by_cases hij : i = j
        · simp [hij]
        · have : ¬ j = i := fun h => hij h.symm
          simp [hij, this])
    (by simp only; rw [h1, usedAt_setUsed hi]; simp) e.loop
  rw [← e.keysOf_eq] at p1 p2 p3 p5 p6
  refine ⟨by rw [e.keyId_eq.2.2]; exact p1, p2, ?_⟩
  intro j hj
  by_cases hji : j = i
  · subst hji; exact ⟨k, hk, hel⟩
  · obtain ⟨q1, k2, q2, q3⟩ := p6 j hj hji
    simp only at q2
    rw [h1, setUsed_get] at q2
    have hij : ¬ i = j := fun h => hji h.symm
    simp only [hij, if_false] at q2
    rcases hkj : inst.keys[j]? with _ | kj
    · rw [hkj] at q2; cases q2
    · rw [hkj] at q2
      simp at q2
      subst q2
      exact ⟨kj, rfl, by rw [← hrec]; exact q3⟩

/-! ## No panics -/

theorem enrich_not_panic (U : Unicode) (f : Runes) (inst : Inst) (m : Msg) :
    (enrichWithKey U f inst m).1 ≠ .panic := by
  unfold enrichWithKey
  simp only
  repeat' split
  all_goals first
    | (exact presetCheck_not_panic _ _)
    | (intro h; cases h; done)
    | (rename_i hf _ hi
       obtain ⟨k, h, _⟩ := findKey_some hf
       rw [hi] at h; cases h)
    | (rename_i hf hi
       obtain ⟨k, h, _⟩ := findKey_some hf
       rw [hi] at h; cases h)

theorem nextChunk_not_panic {g : Nat} {r : List Runes} {s : LoopState} (hs : LoopOk s) :
    (nextChunk U g r s).1 ≠ .panic := by
  unfold nextChunk
  rcases hf : findKey U g s.keys r with _ | j
  · simp
  · simp only
    obtain ⟨k, hk, _⟩ := findKey_some hf
    rw [hk]
    simp only [changeKey, secondaryTable]
    rw [gotoTable_some 1 (by decide) s.st hs.plain.tab]
    by_cases ht : s.st.table = 1 <;> simp [ht]

theorem encLoop_not_panic (hU : U.Lawful) {g : Nat} {r : List Runes} : ∀ {text : Runes} {s : LoopState},
    LoopOk s → (∀ c ∈ text, c ∈ alphabet) → (encLoop U g r text s).1 ≠ .panic := by
  intro text
  induction text with
  | nil => intro s _ _; simp [encLoop]
  | cons c cs ih =>
    intro s hs hc
    obtain ⟨t, i, hf⟩ := findInTables_of_alphabet U hU c (hc c (by simp))
    have main : ∀ s1, LoopOk s1 →
        (match encodeCharacter U s1.st c s1.cur.enc with
          | .err e => ((.err e, s1) : Outcome Unit × LoopState)
          | .panic => (.panic, s1)
          | .ok (st, enc) => encLoop U g r cs { s1 with st := st, cur := { s1.cur with enc := enc } }).1 ≠ .panic := by
      intro s1 hs1
      rw [encodeCharacter_eq U s1.st hs1.plain.b hs1.plain.tab, hf]
      exact ih (hs1.char hf) (fun c h => hc c (by simp [h]))
    simp only [encLoop]
    by_cases hx : keyExhausted g s = true
    · rw [if_pos hx]
      have hnp := nextChunk_not_panic (U := U) (g := g) (r := r) hs
      rcases hn : nextChunk U g r s with ⟨u | e | _, s1⟩
      · exact main s1 (hs.next hn)
      · simp
      · rw [hn] at hnp; exact absurd rfl hnp
    · rw [if_neg hx]
      exact main s hs

theorem cipherChunk_not_panic : ∀ (es ks : Runes), es.length ≤ ks.length → (cipherChunk ks es).1 ≠ .panic := by
  intro es
  induction es with
  | nil => intro ks _; simp [cipherChunk]
  | cons e es ih =>
    intro ks h
    cases ks with
    | nil => simp at h
    | cons k ks =>
      simp only [cipherChunk]
      rcases ht : trigraph k e with z | x | _
      · exact ih ks (by simpa using h)
      · simp
      · exact absurd ht (trigraph_not_panic _ _)

theorem cipherChunks_not_panic (keys : List Key) : ∀ chs : List Chunk, (cipherChunks keys chs).1 ≠ .panic := by
  intro chs
  induction chs with
  | nil => simp [cipherChunks]
  | cons ch chs ih =>
    simp only [cipherChunks]
    rcases keys[ch.key]? with _ | k
    · simp
    · simp only
      by_cases hl : ch.enc.length > k.runes.length
      · simp [hl]
      · rw [if_neg hl]
        have := cipherChunk_not_panic ch.enc k.runes (by omega)
        rcases hc : cipherChunk k.runes ch.enc with ⟨u | e | _, o⟩
        · exact ih
        · simp
        · rw [hc] at this; exact absurd rfl this

theorem encipherT_not_panic (hU : U.Lawful) (noise : Nat → Rune) (f : Runes) (inst : Inst) (m : Msg)
    (hg : inst.groupSize ≠ 0) (ht : ∀ c ∈ m.plainText, c ∈ alphabet) :
    (encipherT U noise f inst m).1 ≠ .panic := by
  unfold encipherT
  simp only [enrich_withId]
  have hnp := enrich_not_panic U f inst m
  rcases he : enrichWithKey U f inst m with ⟨u | e | _, inst1, m1⟩
  · simp only
    rcases hk : getKey U inst1.keys m1.keyId.val with _ | i
    · simp
    · simp only
      have hgs := enrich_groupSize he
      obtain ⟨_, hen⟩ := enrich_ok hg he
      have hpt : m1.plainText = m.plainText := by
        rw [hen.plainText.1, (withId_fields f m).1]
      have hl := encLoop_not_panic hU (g := inst1.groupSize) (r := m1.recipients)
        (text := m1.plainText) (loopOk_start inst1.keys i) (by rw [hpt]; exact ht)
      rcases hel : encLoop U inst1.groupSize m1.recipients m1.plainText ⟨inst1.keys, newState, [], ⟨[], i⟩⟩
        with ⟨u' | e' | _, s⟩
      · simp only
        rw [if_neg (by rw [hgs]; exact hg)]
        have hcp := cipherChunks_not_panic s.keys (s.chunks ++ [⟨
          (pad s.st (padCount inst1.groupSize (s.cur.enc.length + totalLength s.chunks)) s.cur.enc).2, s.cur.key⟩])
        rcases hcc : cipherChunks s.keys (s.chunks ++ [⟨
          (pad s.st (padCount inst1.groupSize (s.cur.enc.length + totalLength s.chunks)) s.cur.enc).2, s.cur.key⟩])
          with ⟨u2 | e2 | _, o⟩
        · simp [hcc]
        · simp [hcc]
        · rw [hcc] at hcp; exact absurd rfl hcp
      · simp
      · rw [hel] at hl; exact absurd rfl hl
  · simp
  · rw [he] at hnp; exact absurd rfl hnp

theorem EncOk.heldPads (hU : U.Lawful) (e : EncOk U f inst m chunks inst' m' inst1 m1 i s out) {held : List Key} (h : HoldsPads inst.groupSize inst.keys m.recipients m.keyId.val held) :
    (∀ ch ∈ chunks, ∃ k, inst.keys[ch.key]? = some k ∧ Holds held k.id.val k.runes) ∧ ∃ k ∈ held, k.id.val = m'.keyId.val := by
  rcases h with h | ⟨hwf, hauto, h⟩
  · obtain ⟨k0, hk0, hid0⟩ := e.keyId_key
    obtain ⟨kr, h1, h2, -⟩ := h k0 hk0
    refine ⟨?_, kr, h1, h2.trans hid0⟩
    intro ch hch
    obtain ⟨k, hk, -⟩ := e.keys ch hch
    exact ⟨k, hk, h k (List.mem_of_getElem? hk)⟩
  · have hd := hwf.distinguishable hU
    obtain ⟨-, k0, hk0, hel0, hid0⟩ := e.auto_first hU hauto hd
    obtain ⟨kr, h1, h2, -⟩ := h k0 (List.mem_of_getElem? hk0) ((eligible_iff _ _ _ _).1 hel0)
    refine ⟨?_, kr, h1, by rw [h2, hid0]⟩
    intro ch hch
    obtain ⟨k, hk, hel⟩ := (e.auto_flags hU hauto hd).2.2 ch.key (List.mem_map.2 ⟨ch, hch, rfl⟩)
    exact ⟨k, hk, h k (List.mem_of_getElem? hk) ((eligible_iff _ _ _ _).1 hel)⟩

end

end K431
