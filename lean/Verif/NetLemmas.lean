import Verif.SpecNet
import Verif.PropsCipher
import Verif.PropsDecipher

/-!
# Lemmas about nets
-/

namespace K431

open Spec

/-! ## Deciphering with more keys -/

theorem getKeyFrom_append (name : Runes) : ∀ (a b : List Key) (n i : Nat), getKeyFrom name n a = some i → getKeyFrom name n (a ++ b) = some i := by
  intro a
  induction a with
  | nil => intro b n i h; cases h
  | cons k ks ih =>
    intro b n i h
    simp only [List.cons_append, getKeyFrom] at h ⊢
    split
    · rename_i hn; rw [if_pos hn] at h; exact h
    · rename_i hn; rw [if_neg hn] at h; exact ih b (n + 1) i h

theorem getKeyFrom_shift (name : Runes) : ∀ (b : List Key) (n i j : Nat), getKeyFrom name n b = some i → getKeyFrom name (n + j) b = some (i + j) := by
  intro b
  induction b with
  | nil => intro n i j h; cases h
  | cons k ks ih =>
    intro n i j h
    simp only [getKeyFrom] at h ⊢
    split
    · rename_i hn; rw [if_pos hn] at h; cases h; rfl
    · rename_i hn
      rw [if_neg hn] at h
      have := ih (n + 1) i j h
      rwa [show n + j + 1 = n + 1 + j by omega]

theorem getKeyFrom_append_none (name : Runes) : ∀ (a b : List Key) (n i : Nat), getKeyFrom name n a = none → getKeyFrom name n b = some i →
    getKeyFrom name n (a ++ b) = some (i + a.length) := by
  intro a
  induction a with
  | nil => intro b n i _ h; exact h
  | cons k ks ih =>
    intro b n i h hb
    simp only [List.cons_append, getKeyFrom] at h ⊢
    split
    · rename_i hn; rw [if_pos hn] at h; cases h
    · rename_i hn
      rw [if_neg hn] at h
      have := ih b (n + 1) (i + 1) h (getKeyFrom_shift name b n i 1 hb)
      rw [this]
      simp; omega

theorem getKey_append {U : Unicode} {a b : List Key} {id : Runes} {i : Nat} (h : getKey U a id = some i) : getKey U (a ++ b) id = some i :=
  getKeyFrom_append _ _ _ _ _ h

theorem getElem?_append_some {α : Type} {a b : List α} {i : Nat} {x : α} (h : a[i]? = some x) : (a ++ b)[i]? = some x := by
  rw [List.getElem?_append_left (List.getElem?_eq_some_iff.1 h).1]; exact h

theorem decStep_append {U : Unicode} {g : Nat} {a b : List Key} {d d' : DState} {c : Rune} (h : decStep U g a d c = .ok d') :
    decStep U g (a ++ b) d c = .ok d' := by
  unfold decStep at h ⊢
  rcases hk : a[d.key]? with _ | k
  · rw [hk] at h; cases h
  rw [hk] at h
  rw [getElem?_append_some hk]
  simp only at h ⊢
  split
  · rename_i h1; rw [if_pos h1] at h; cases h
  · rename_i h1
    rw [if_neg h1] at h
    rcases hr : k.runes[d.ki]? with _ | kr
    · rw [hr] at h; cases h
    rw [hr] at h
    simp only at h ⊢
    rcases ht : trigraph kr c with e | e | _
    · rw [ht] at h
      simp only at h ⊢
      rcases hd : decodeCharacter U d.st e d.plain with ⟨st, plain⟩ | x | _
      · rw [hd] at h
        simp only at h ⊢
        split
        · rename_i h2
          rw [if_pos h2] at h
          split
          · rename_i h3
            rw [if_pos h3] at h
            rcases hg : getKey U a (d.nextKey ++ [e]) with _ | j
            · rw [hg] at h; cases h
            · rw [hg] at h; rw [getKey_append hg]; exact h
          · rename_i h3; rw [if_neg h3] at h; exact h
        · rename_i h2; rw [if_neg h2] at h; exact h
      · rw [hd] at h; cases h
      · rw [hd] at h; cases h
    · rw [ht] at h; cases h
    · rw [ht] at h; cases h

theorem decLoop_append_keys {U : Unicode} {g : Nat} {a b : List Key} : ∀ {w : Runes} {d d' : DState} {p : Runes},
    decLoop U g a w d = (.ok d', p) → decLoop U g (a ++ b) w d = (.ok d', p) := by
  intro w
  induction w with
  | nil => intro d d' p h; exact h
  | cons c cs ih =>
    intro d d' p h
    unfold decLoop at h ⊢
    rcases hs : decStep U g a d c with d1 | e | _
    · rw [hs] at h
      rw [decStep_append hs]
      exact ih h
    · rw [hs] at h; cases h
    · rw [hs] at h; cases h

theorem decStep_stack {U : Unicode} {g : Nat} {keys : List Key} {d d' : DState} {c : Rune} (h : decStep U g keys d c = .ok d') :
    d'.stack = d.stack ∨ ∃ j, j < keys.length ∧ d'.stack = d.stack ++ [j] := by
  unfold decStep at h
  rcases hk : keys[d.key]? with _ | k
  · rw [hk] at h; cases h
  rw [hk] at h
  simp only at h
  split at h
  · cases h
  · rcases hr : k.runes[d.ki]? with _ | kr
    · rw [hr] at h; cases h
    rw [hr] at h
    simp only at h
    rcases ht : trigraph kr c with e | e | _
    · rw [ht] at h
      simp only at h
      rcases hd : decodeCharacter U d.st e d.plain with ⟨st, plain⟩ | x | _
      · rw [hd] at h
        simp only at h
        split at h
        · split at h
          · rcases hg : getKey U keys (d.nextKey ++ [e]) with _ | j
            · rw [hg] at h; cases h
            · rw [hg] at h; cases h
              obtain ⟨k, hk, _⟩ := getKey_some hg
              exact .inr ⟨j, (List.getElem?_eq_some_iff.1 hk).1, rfl⟩
          · cases h; exact .inl rfl
        · cases h; exact .inl rfl
      · rw [hd] at h; cases h
      · rw [hd] at h; cases h
    · rw [ht] at h; cases h
    · rw [ht] at h; cases h

theorem decLoop_stack {U : Unicode} {g : Nat} {keys : List Key} : ∀ {w : Runes} {d d' : DState} {p : Runes},
    decLoop U g keys w d = (.ok d', p) → (∀ j ∈ d.stack, j < keys.length) → ∀ j ∈ d'.stack, j < keys.length := by
  intro w
  induction w with
  | nil => intro d d' p h hs; cases h; exact hs
  | cons c cs ih =>
    intro d d' p h hs
    unfold decLoop at h
    rcases hd : decStep U g keys d c with d1 | e | _
    · rw [hd] at h
      refine ih h ?_
      rcases decStep_stack hd with h1 | ⟨j, hj, h1⟩
      · rw [h1]; exact hs
      · rw [h1]
        intro x hx
        rcases List.mem_append.1 hx with hx | hx
        · exact hs x hx
        · rw [List.mem_singleton] at hx; subst hx; exact hj
    · rw [hd] at h; cases h
    · rw [hd] at h; cases h

/-- what a successful `Decipher` did -/
theorem decipher_ok_loop {U : Unicode} {f : Runes} {inst inst' : Inst} {m m' : Msg} (h : decipher U f inst m = (.ok (), inst', m')) :
    ∃ i d p, getKey U inst.keys m.keyId.val = some i ∧
      decLoop U inst.groupSize inst.keys m.cipherText ⟨i, 0, [], newState, [i], []⟩ = (.ok d, p) ∧
      inst' = { inst with keys := d.stack.foldl (fun ks j => setUsed ks j true) inst.keys } := by
  unfold decipher at h
  simp only [(withId_fields f m).2.2.1, (withId_fields f m).2.2.2] at h
  by_cases c1 : m.keyId.val.length ≠ inst.groupSize
  · rw [if_pos c1] at h; cases h
  rw [if_neg c1] at h
  by_cases c2 : m.cipherText.length < inst.groupSize
  · rw [if_pos c2] at h; cases h
  rw [if_neg c2] at h
  rcases hk : getKey U inst.keys m.keyId.val with _ | i
  · rw [hk] at h; cases h
  rw [hk] at h
  simp only at h
  rcases hd : decLoop U inst.groupSize inst.keys m.cipherText ⟨i, 0, [], newState, [i], []⟩ with ⟨d | e | _, p⟩
  · rw [hd] at h; cases h
    exact ⟨i, d, p, rfl, hd, rfl⟩
  · rw [hd] at h; cases h
  · rw [hd] at h; cases h

theorem Rel2.exists_right {α β : Type} {R : α → β → Prop} {as : List α} {bs : List β} (h : Rel2 R as bs) : ∀ a ∈ as, ∃ b ∈ bs, R a b := by
  induction h with
  | nil => intro a h; cases h
  | cons h1 _ ih =>
    intro a ha
    rcases List.mem_cons.1 ha with rfl | ha
    · exact ⟨_, by simp, h1⟩
    · obtain ⟨b, hb, hr⟩ := ih a ha
      exact ⟨b, by simp [hb], hr⟩

/-- Who can decipher a message, has all its pads, and they are marked afterwards.  The sender's keys may by now have other flags. -/
theorem reading_marks {U : Unicode} (hU : U.Lawful) {noise : Nat → Rune} {f f' : Runes} {inst inst' rcv rcv' : Inst} {m m' msg msg' : Msg}
    {chunks : List Chunk} (h : encipherT U noise f inst m = (.ok chunks, inst', m')) (hg : rcv.groupSize = inst.groupSize)
    (hwf : WellFormed inst.keys) (hwr : WellFormed rcv.keys)
    (hsame : ∀ ch ∈ chunks, ∀ k, inst.keys[ch.key]? = some k → ∀ l ∈ rcv.keys, k.id.val = l.id.val → k.runes = l.runes)
    (hk : msg.keyId.val = m'.keyId.val) (hc : msg.cipherText = m'.cipherText)
    (hd : decipher U f' rcv msg = (.ok (), rcv', msg')) :
    ∀ id ∈ padsOf inst.keys chunks, ∃ k' ∈ rcv'.keys, k'.id.val = id ∧ k'.used = true := by
  obtain ⟨inst1, m1, i, s, out, e⟩ := encipherT_ok h
  -- the receiver with the sender's keys added
  have hres : ∀ ch ∈ chunks, Resolves U inst.keys (rcv.keys ++ inst.keys) ch.key := by
    intro ch hch
    obtain ⟨k, hk, _⟩ := e.keys ch hch
    rcases hr : getKey U rcv.keys k.id.val with _ | j
    · refine ⟨k, ch.key + rcv.keys.length, k, hk, getKeyFrom_append_none _ _ _ _ _ hr (hwf.getKey hU hk), ?_, rfl⟩
      rw [List.getElem?_append_right (by omega)]
      simpa using hk
    · obtain ⟨kr, h1, h2, _⟩ := getKey_some hr
      refine ⟨k, j, kr, hk, getKey_append hr, getElem?_append_some h1, ?_⟩
      have hl := hwf.letters k (List.mem_of_getElem? hk)
      rw [lookupName_letters hU hl, goStr_letters (hwr.letters kr (List.mem_of_getElem? h1))] at h2
      exact (hsame ch hch k hk kr (List.mem_of_getElem? h1) h2.symm).symm
  obtain ⟨j1, d1, p1, b1, b2, b3⟩ := decipher_ok_loop hd
  obtain ⟨D, hD, hrel⟩ := e.decodes hU (rcv.keys ++ inst.keys) j1 (fun k hk' => by
    rw [e.firstKey hU _ k hk', ← hk]; exact getKey_append b1) hres
  have hdd : D = d1 := by
    have := decLoop_append_keys (b := inst.keys) b2
    rw [hc, hg, hD] at this
    simp at this
    exact this.1
  subst hdd
  have hst := decLoop_stack b2 (by
    intro j hj
    rw [List.mem_singleton] at hj
    subst hj
    obtain ⟨k, hk, _⟩ := getKey_some b1
    exact (List.getElem?_eq_some_iff.1 hk).1)
  intro id hid
  obtain ⟨ch, hch, hch2⟩ := List.mem_filterMap.1 hid
  obtain ⟨j, hj, k, kr, r1, r2, r3, _⟩ := hrel.exists_right ch hch
  rw [r1] at hch2
  simp only [Option.map_some, Option.some.injEq] at hch2
  have hlt := hst j hj
  rw [List.getElem?_append_left hlt] at r3
  obtain ⟨k2, hk2, h2, _⟩ := getKey_some r2
  rw [List.getElem?_append_left hlt, r3] at hk2
  cases hk2
  rw [lookupName_letters hU (hwf.letters k (List.mem_of_getElem? r1)), goStr_letters (hwr.letters kr (List.mem_of_getElem? r3))] at h2
  refine ⟨{ kr with used := true }, ?_, by rw [← hch2]; exact h2, rfl⟩
  rw [b3]
  apply List.mem_of_getElem? (i := j)
  rw [foldl_setUsed, r3]
  simp [hj]

/-! ## The invariant -/

theorem Marked.refl (a : List Key) : Marked a a := ⟨rfl, fun j k h => ⟨false, by simp [h]⟩⟩

theorem Marked.back {a b : List Key} (h : Marked a b) {j : Nat} {k' : Key} (hk : b[j]? = some k') : ∃ k, a[j]? = some k ∧ k.mat = k'.mat ∧ (k.used = true → k'.used = true) := by
  have hlt : j < a.length := by rw [← h.1]; exact (List.getElem?_eq_some_iff.1 hk).1
  obtain ⟨x, hx⟩ := h.2 j a[j] (List.getElem?_eq_getElem hlt)
  rw [hk] at hx
  cases hx
  exact ⟨a[j], List.getElem?_eq_getElem hlt, rfl, fun hu => by simp [hu]⟩

theorem Marked.sameMat {a b : List Key} (h : Marked a b) : SameMat b a := by
  apply List.ext_getElem?
  intro j
  rw [List.getElem?_map, List.getElem?_map]
  rcases ha : a[j]? with _ | k
  · have : b[j]? = none := by
      rw [List.getElem?_eq_none_iff] at ha ⊢
      rw [h.1]; exact ha
    rw [this]
  · obtain ⟨x, hx⟩ := h.2 j k ha
    rw [hx]; rfl

theorem Marked.used {a b : List Key} (h : Marked a b) {id : Runes} (ha : ∀ k ∈ a, k.id.val = id → k.used = true) : ∀ k ∈ b, k.id.val = id → k.used = true := by
  intro k' hk' hid
  obtain ⟨j, hj⟩ := List.mem_iff_getElem?.1 hk'
  obtain ⟨k, h1, h2, h3⟩ := h.back hj
  exact h3 (ha k (List.mem_of_getElem? h1) (by rw [Key.mat_id h2]; exact hid))

/-- deciphering only marks -/
theorem decipher_marked {U : Unicode} (hU : U.Lawful) {f : Runes} {inst inst' : Inst} {m m' : Msg} {o : Outcome Unit} (hg : inst.groupSize ≠ 0)
    (h : decipher U f inst m = (o, inst', m')) : Marked inst.keys inst'.keys ∧ inst'.groupSize = inst.groupSize := by
  obtain ⟨_, h1, _, h2⟩ := C20_decipher_marks U hU f inst inst' m m' o hg h
  by_cases ho : o = .ok ()
  · obtain ⟨chunks, keys', rfl, _, _, _, _, _, hl, hk⟩ := h2 ho
    exact ⟨⟨hl, fun j k hj => ⟨_, hk j k hj⟩⟩, rfl⟩
  · rw [h1 ho]; exact ⟨Marked.refl _, rfl⟩

/-- the ids of the keys used, and that they are in the store -/
theorem padsOf_mem {keys : List Key} {chunks : List Chunk} {id : Runes} (h : id ∈ padsOf keys chunks) :
    ∃ j k, j ∈ keysOf chunks ∧ keys[j]? = some k ∧ k.id.val = id := by
  obtain ⟨ch, hch, h2⟩ := List.mem_filterMap.1 h
  rcases hk : keys[ch.key]? with _ | k
  · rw [hk] at h2; cases h2
  · rw [hk] at h2
    simp at h2
    exact ⟨ch.key, k, List.mem_map.2 ⟨ch, hch, rfl⟩, hk, h2⟩

theorem padsOf_nodup {keys : List Key} (hwf : WellFormed keys) : ∀ {chunks : List Chunk}, (keysOf chunks).Nodup → (padsOf keys chunks).Nodup := by
  intro chunks
  induction chunks with
  | nil => intro _; exact List.nodup_nil
  | cons c cs ih =>
    intro h
    have h' : c.key ∉ keysOf cs ∧ (keysOf cs).Nodup := by simpa [keysOf] using h
    unfold padsOf
    rw [List.filterMap_cons]
    rcases hk : keys[c.key]? with _ | k
    · exact ih h'.2
    · simp only [Option.map_some]
      refine List.nodup_cons.2 ⟨?_, ih h'.2⟩
      intro hm
      obtain ⟨j, k', hj, hk', he⟩ := padsOf_mem hm
      have := hwf.inj hk' hk he
      subst this
      exact h'.1 hj

/-- what has happened to a net that started as `n0` -/
structure NInv (U : Unicode) (n0 n : Net) : Prop where
  mat : ∀ s, SameMat (n.station s).keys (n0.station s).keys
  size : ∀ s, (n.station s).groupSize = (n0.station s).groupSize
  origin : ∀ msg ∈ n.sent, ∃ noise f inst inst' m m' chunks, encipherT U noise f inst m = (.ok chunks, inst', m') ∧
    inst.groupSize = (n0.station msg.sender).groupSize ∧ SameMat inst.keys (n0.station msg.sender).keys ∧
    msg.text = m.plainText ∧ msg.keyId = m'.keyId.val ∧ msg.cipherText = m'.cipherText ∧ msg.pads = padsOf inst.keys chunks
  own : ∀ msg ∈ n.sent, ∀ id ∈ msg.pads, ∀ k ∈ (n.station msg.sender).keys, k.id.val = id → k.used = true
  read : ∀ t number, (t, number) ∈ n.read → ∀ msg, n.sent[number]? = some msg → ∀ id ∈ msg.pads, ∀ k ∈ (n.station t).keys,
    k.id.val = id → k.used = true
  number : ∀ t number, (t, number) ∈ n.read → number < n.sent.length
  nodup : (n.sent.flatMap Sent.pads).Nodup

theorem NInv.start {U : Unicode} {n : Net} (h : n.Start) : NInv U n n := by
  refine ⟨fun s => SameMat.refl _, fun s => rfl, ?_, ?_, ?_, ?_, ?_⟩
  · rw [h.quiet.1]; simp
  · rw [h.quiet.1]; simp
  · rw [h.quiet.2]; simp
  · rw [h.quiet.2]; simp
  · rw [h.quiet.1]; simp

theorem NInv.wellFormed {U : Unicode} {n0 n : Net} (h : NInv U n0 n) (h0 : n0.Start) (s : Nat) : WellFormed (n.station s).keys :=
  (h0.ids s).congr (h.mat s).symm

theorem NInv.groupSize {U : Unicode} {n0 n : Net} (h : NInv U n0 n) (h0 : n0.Start) (s : Nat) : (n.station s).groupSize ≠ 0 := by
  obtain ⟨g, hg, hs⟩ := h0.size
  rw [h.size, hs]; exact hg

/-- a station's keys get more marks -/
theorem NInv.mark {U : Unicode} {n0 n : Net} (h : NInv U n0 n) {s : Nat} {i : Inst} (hm : Marked (n.station s).keys i.keys)
    (hg : i.groupSize = (n.station s).groupSize) : NInv U n0 ⟨n.set s i, n.sent, n.read⟩ := by
  have hmk : ∀ t, Marked (n.station t).keys (n.set s i t).keys := by
    intro t
    unfold Net.set
    split
    · rename_i e; subst e; exact hm
    · exact Marked.refl _
  refine ⟨fun t => (hmk t).sameMat.trans (h.mat t), ?_, h.origin, ?_, ?_, h.number, h.nodup⟩
  · intro t
    show (n.set s i t).groupSize = _
    unfold Net.set
    split
    · rename_i e; subst e; rw [hg]; exact h.size t
    · exact h.size t
  · intro msg hmsg id hid
    exact (hmk msg.sender).used (h.own msg hmsg id hid)
  · intro t number hr msg hmsg id hid
    exact (hmk t).used (h.read t number hr msg hmsg id hid)

end K431
