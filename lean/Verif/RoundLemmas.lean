import Verif.SpecCipher
import Verif.CipherLemmas

/-! # Helper lemmas for the round trip: Decipher follows the coding loop -/

namespace K431
open Spec

theorem decodeCharacter_mono (U : Unicode) (st st' : CState) (x : Rune) (out out' : Runes)
    (h : decodeCharacter U st x out = .ok (st', out')) (hk : st'.keyChange = false) :
    st.keyChange = false ∧ st.gotChangeKeyChar = false := by
  rcases hg : st.gotChangeKeyChar with _ | _
  · refine ⟨?_, rfl⟩
    rcases hkk : st.keyChange with _ | _
    · rfl
    · unfold decodeCharacter at h
      simp only [hg, Bool.false_eq_true, if_false, hkk, if_true] at h
      repeat' split at h
      all_goals first | cases h | skip
      rw [hkk] at hk; cases hk
  · exfalso
    unfold decodeCharacter at h
    simp only [hg, if_true] at h
    repeat' split at h
    all_goals first | cases h | skip
    cases hk

theorem decode_id (U : Unicode) (st : CState) (x : Rune) (hx : IsLetter x) (hb : st.binary = false)
    (hg : st.gotChangeKeyChar = true ∨ st.keyChange = true) (out : Runes) :
    decodeCharacter U st x out =
      .ok ({ st with gotChangeKeyChar := false, keyChange := true }, out) := by
  have hx' : ¬ (x < 65 ∨ x > 90) := by unfold IsLetter at hx; omega
  obtain ⟨tb, cc, g, k, s, b⟩ := st
  simp only at hb hg
  subst hb
  cases g <;> cases k <;> simp_all [decodeCharacter]

theorem decLoop_append (U : Unicode) (g : Nat) (keys : List Key) (a b : Runes) : ∀ d : DState,
    decLoop U g keys (a ++ b) d =
      match decLoop U g keys a d with
      | (.ok d', _) => decLoop U g keys b d'
      | r => r := by
  induction a with
  | nil => intro d; rfl
  | cons x xs ih =>
    intro d
    simp only [List.cons_append, decLoop]
    rcases decStep U g keys d x with d' | e | _
    · exact ih d'
    · rfl
    · rfl

theorem decLoop_ok_plain (U : Unicode) (g : Nat) (keys : List Key) : ∀ (a : Runes) (d d' : DState)
    (p : Runes), decLoop U g keys a d = (.ok d', p) → p = d'.plain := by
  intro a
  induction a with
  | nil => intro d d' p h; simp [decLoop] at h; rw [← h.2, h.1]
  | cons x xs ih =>
    intro d d' p h
    simp only [decLoop] at h
    rcases hs : decStep U g keys d x with d1 | e | _
    · rw [hs] at h; exact ih _ _ _ h
    · rw [hs] at h; simp at h
    · rw [hs] at h; simp at h

/-- one letter: the key letter recovers the coded letter -/
theorem decStep_eq (U : Unicode) (g : Nat) (keys : List Key) (d : DState) (k : Key) (kr e c : Rune)
    (hk : keys[d.key]? = some k) (hr : k.runes[d.ki]? = some kr) (ht : Trigraph kr e c) :
    decStep U g keys d c =
      match decodeCharacter U d.st e d.plain with
      | .err x => .err x
      | .panic => .panic
      | .ok (st, plain) =>
        if st.keyChange then
          if (d.nextKey ++ [e]).length ≥ g then
            match getKey U keys (d.nextKey ++ [e]) with
            | none => .err .keyNotFound
            | some j => .ok ⟨j, 0, [], newState, d.stack ++ [j], plain⟩
          else .ok ⟨d.key, d.ki + 1, d.nextKey ++ [e], st, d.stack, plain⟩
        else .ok ⟨d.key, d.ki + 1, d.nextKey, st, d.stack, plain⟩ := by
  have hlt : ¬ (d.ki ≥ k.runes.length) := by
    have := (List.getElem?_eq_some_iff.1 hr).1; omega
  have h2 := (trigraph_ok_iff _ _ _).2 ht.swap23
  unfold decStep
  simp only [hk, if_neg hlt, hr, h2]
  rfl

/-- a run of letters without key change -/
theorem decLoop_plain (U : Unicode) (g : Nat) (keys : List Key) : ∀ (w : Runes) (d : DState) (k : Key)
    (out : Runes) (st' : CState) (p' : Runes),
    keys[d.key]? = some k → cipherChunk (k.runes.drop d.ki) w = (.ok (), out) →
    decodeAll U d.st w d.plain = .ok (st', p') → st'.keyChange = false →
    decLoop U g keys out d = (.ok { d with ki := d.ki + w.length, st := st', plain := p' }, p') := by
  intro w
  induction w with
  | nil =>
    intro d k out st' p' hk hc hd hf
    simp [cipherChunk] at hc
    simp [decodeAll] at hd
    obtain ⟨rfl, rfl⟩ := hd
    subst hc
    simp [decLoop]
  | cons e es ih =>
    intro d k out st' p' hk hc hd hf
    rcases hdr : k.runes.drop d.ki with _ | ⟨kr, krs⟩
    · rw [hdr] at hc; simp [cipherChunk] at hc
    · rw [hdr] at hc
      have hr : k.runes[d.ki]? = some kr := by
        have := congrArg (fun l => l[0]?) hdr
        simpa using this
      have hdr2 : k.runes.drop (d.ki + 1) = krs := by
        have := congrArg List.tail hdr
        simpa using this
      simp only [cipherChunk] at hc
      rcases ht : trigraph kr e with z | x | _
      · rw [ht] at hc
        simp only [Prod.mk.injEq] at hc
        obtain ⟨h1, h2⟩ := hc
        simp only [decodeAll] at hd
        rcases hdc : decodeCharacter U d.st e d.plain with ⟨st1, p1⟩ | x | _
        · rw [hdc] at hd
          simp only at hd
          have hf1 : st1.keyChange = false := by
            cases es with
            | nil => simp [decodeAll] at hd; rw [hd.1]; exact hf
            | cons y ys =>
              -- keyChange never goes back
              have : ∀ (l : Runes) (s : CState) (p : Runes), decodeAll U s l p = .ok (st', p') →
                  s.keyChange = false := by
                intro l
                induction l with
                | nil => intro s p h; simp [decodeAll] at h; rw [h.1]; exact hf
                | cons y ys ih2 =>
                  intro s p h
                  simp only [decodeAll] at h
                  rcases hy : decodeCharacter U s y p with ⟨s1, p1⟩ | x | _
                  · rw [hy] at h
                    exact (decodeCharacter_mono U _ _ _ _ _ hy (ih2 _ _ h)).1
                  · rw [hy] at h; cases h
                  · rw [hy] at h; cases h
              exact this _ _ _ hd
          rw [← h2]
          simp only [decLoop]
          rw [decStep_eq U g keys d k kr e z hk hr ((trigraph_ok_iff _ _ _).1 ht), hdc]
          simp only [hf1, Bool.false_eq_true, if_false]
          have := ih ⟨d.key, d.ki + 1, d.nextKey, st1, d.stack, p1⟩ k (cipherChunk krs es).2 st' p' hk
            (by rw [hdr2, ← h1]) hd hf
          rw [this]
          simp only [List.length_cons, Prod.mk.injEq, and_true, Outcome.ok.injEq, DState.mk.injEq,
            true_and]
          omega
        · rw [hdc] at hd; cases hd
        · rw [hdc] at hd; cases hd
      · rw [ht] at hc; simp at hc
      · rw [ht] at hc; simp at hc

/-- the key id at the end of a chunk -/
theorem decLoop_id (U : Unicode) (g : Nat) (keys : List Key) (j : Nat) : ∀ (id : Runes) (d : DState) (k : Key)
    (out : Runes), id ≠ [] → keys[d.key]? = some k →
    cipherChunk (k.runes.drop d.ki) id = (.ok (), out) →
    d.st.binary = false → (d.st.gotChangeKeyChar = true ∨ d.st.keyChange = true) →
    (d.nextKey ++ id).length = g → getKey U keys (d.nextKey ++ id) = some j →
    decLoop U g keys out d = (.ok ⟨j, 0, [], newState, d.stack ++ [j], d.plain⟩, d.plain) := by
  intro id
  induction id with
  | nil => intro d k out h; exact absurd rfl h
  | cons e es ih =>
    intro d k out _ hk hc hb hg hl hj
    rcases hdr : k.runes.drop d.ki with _ | ⟨kr, krs⟩
    · rw [hdr] at hc; simp [cipherChunk] at hc
    · rw [hdr] at hc
      have hr : k.runes[d.ki]? = some kr := by
        have := congrArg (fun l => l[0]?) hdr
        simpa using this
      have hdr2 : k.runes.drop (d.ki + 1) = krs := by
        have := congrArg List.tail hdr
        simpa using this
      simp only [cipherChunk] at hc
      rcases ht : trigraph kr e with z | x | _
      · rw [ht] at hc
        simp only [Prod.mk.injEq] at hc
        obtain ⟨h1, h2⟩ := hc
        have hT := (trigraph_ok_iff _ _ _).1 ht
        rw [← h2]
        simp only [decLoop]
        rw [decStep_eq U g keys d k kr e z hk hr hT, decode_id U d.st e hT.2.1 hb hg]
        simp only [if_true]
        cases es with
        | nil =>
          have hl' : (d.nextKey ++ [e]).length ≥ g := by omega
          rw [if_pos hl', hj]
          simp [cipherChunk, decLoop]
        | cons y ys =>
          have hl' : ¬ ((d.nextKey ++ [e]).length ≥ g) := by
            simp only [List.length_append, List.length_cons, List.length_nil] at hl ⊢; omega
          rw [if_neg hl']
          exact ih ⟨d.key, d.ki + 1, d.nextKey ++ [e],
            { d.st with gotChangeKeyChar := false, keyChange := true }, d.stack, d.plain⟩ k _ (by simp) hk
            (by rw [hdr2, ← h1]) hb (Or.inr rfl) (by simpa using hl) (by simpa using hj)
      · rw [ht] at hc; simp at hc
      · rw [ht] at hc; simp at hc

/-- padding decodes to nothing -/
theorem decode_pad (U : Unicode) (out : Runes) : ∀ (n : Nat) (st : CState), Plain st →
    ∃ st', decodeAll U st (List.replicate n 90) out = .ok (st', out) ∧ Plain st' := by
  intro n
  induction n with
  | zero => intro st h; exact ⟨st, rfl, h⟩
  | succ n ih =>
    intro st h
    rw [List.replicate_succ]
    simp only [decodeAll]
    rw [decode_switch U st h]
    exact ih _ ⟨by simp only; omega, h.g, h.k, h.b⟩

/-- switching to the second table and announcing a key change -/
theorem decode_announce (U : Unicode) (st : CState) (h : Plain st) (out : Runes) :
    decodeAll U st (sw st.table 1 ++ [89]) out =
      .ok ({ st with table := 1, gotChangeKeyChar := true }, out) := by
  have htb : st.table = 0 ∨ st.table = 1 := by have := h.tab; omega
  rcases htb with ht | ht
  · simp only [sw, ht, show ¬ (0 = 1) by decide, if_false, List.singleton_append, decodeAll]
    rw [decode_switch U st h]
    simp only [ht]
    rw [decode_changeKey U { st with table := 1 - 0 } ⟨by simp, h.g, h.k, h.b⟩ rfl]
  · simp only [sw, ht, if_true, List.nil_append, decodeAll]
    rw [decode_changeKey U st h ht]
    obtain ⟨tb, cc, g, k, s, b⟩ := st
    simp at ht; subst ht; rfl

/-- two lists of the same length are related position by position -/
inductive Rel2 {α β : Type} (R : α → β → Prop) : List α → List β → Prop
  | nil : Rel2 R [] []
  | cons {a b as bs} : R a b → Rel2 R as bs → Rel2 R (a :: as) (b :: bs)

/-- Simulation invariant between the coding loop and the receiver's loop.  `keys0` are the sender's
keys (up to flags), `i0` the receiver's index of the first key. -/
def Sim (U : Unicode) (g : Nat) (keys0 rkeys : List Key) (i0 : Nat) (d : Runes) (s : LoopState) : Prop :=
  ∀ out, cipherChunks keys0 (s.chunks ++ [s.cur]) = (.ok (), out) →
    (∀ ch ∈ s.chunks ++ [s.cur], Resolves U keys0 rkeys ch.key) →
    ∃ D : DState, decLoop U g rkeys out ⟨i0, 0, [], newState, [i0], []⟩ = (.ok D, D.plain) ∧
      D.plain = d.map canon ∧ D.nextKey = [] ∧ D.ki = s.cur.enc.length ∧
      Plain D.st ∧ D.st.table = s.st.table ∧ D.st.shift = s.st.shift ∧
      ResolvesTo U keys0 rkeys s.cur.key D.key ∧
      Rel2 (fun (ch : Chunk) j => ResolvesTo U keys0 rkeys ch.key j) (s.chunks ++ [s.cur]) D.stack

theorem forall₂_append_one {α β : Type} {R : α → β → Prop} {l : List α} {l' : List β} {a : α} {b : β}
    (h : Rel2 R l l') (hab : R a b) : Rel2 R (l ++ [a]) (l' ++ [b]) := by
  induction h with
  | nil => exact .cons hab .nil
  | cons h1 _ ih => exact .cons h1 ih

theorem forall₂_change_last {α β : Type} {R : α → β → Prop} {l : List α} {l' : List β} {a a' : α}
    (h : Rel2 R (l ++ [a]) l') (hab : ∀ b, R a b → R a' b) : Rel2 R (l ++ [a']) l' := by
  induction l generalizing l' with
  | nil =>
    cases h with
    | cons h1 h2 => cases h2; exact .cons (hab _ h1) .nil
  | cons x xs ih =>
    cases h with
    | cons h1 h2 => exact .cons h1 (ih h2)

/-- Extending the current chunk by letters `w` that decode without a key change. -/
theorem Sim.extend {U : Unicode} {g : Nat} {keys0 rkeys : List Key} {i0 : Nat} {d : Runes} {s : LoopState}
    (h : Sim U g keys0 rkeys i0 d s) (w : Runes) (out : Runes)
    (hc : cipherChunks keys0 (s.chunks ++ [{ s.cur with enc := s.cur.enc ++ w }]) = (.ok (), out))
    (hr : ∀ ch ∈ s.chunks ++ [s.cur], Resolves U keys0 rkeys ch.key) :
    ∃ D : DState, D.plain = d.map canon ∧ D.nextKey = [] ∧ D.ki = s.cur.enc.length ∧
      Plain D.st ∧ D.st.table = s.st.table ∧ D.st.shift = s.st.shift ∧
      ResolvesTo U keys0 rkeys s.cur.key D.key ∧
      Rel2 (fun (ch : Chunk) j => ResolvesTo U keys0 rkeys ch.key j) (s.chunks ++ [s.cur]) D.stack ∧
      ∃ (kr : Key) (o2 : Runes), rkeys[D.key]? = some kr ∧ cipherChunk (kr.runes.drop D.ki) w = (.ok (), o2) ∧
        decLoop U g rkeys out ⟨i0, 0, [], newState, [i0], []⟩ = decLoop U g rkeys o2 D := by
  rw [cipherChunks_append] at hc
  obtain ⟨o1, o2, h1, h2, rfl⟩ := hc
  rw [cipherChunks_one] at h2
  obtain ⟨k, hk, hl, h3⟩ := h2
  obtain ⟨p1, p2, e1, e2, rfl⟩ := cipherChunk_append _ _ _ _ h3
  have hone : cipherChunks keys0 (s.chunks ++ [s.cur]) = (.ok (), o1 ++ p1) := by
    rw [cipherChunks_append]
    refine ⟨o1, p1, h1, ?_, rfl⟩
    rw [cipherChunks_one]
    simp only [List.length_append] at hl
    exact ⟨k, hk, by omega, e1⟩
  obtain ⟨D, a1, a2, a3, a4, a5, a6, a7, a8, a9⟩ := h _ hone hr
  obtain ⟨k', kr, b1, b2, b3, b4⟩ := a8
  simp only at hk
  rw [hk] at b1; cases b1
  refine ⟨D, a2, a3, a4, a5, a6, a7, ⟨k, kr, hk, b2, b3, b4⟩, a9, kr, p2, b3, by rw [b4, a4]; exact e2, ?_⟩
  rw [← List.append_assoc, decLoop_append, a1]

theorem Sim.char {U : Unicode} (hU : U.Lawful) {g : Nat} {keys0 rkeys : List Key} {i0 : Nat} {d : Runes}
    {s : LoopState} (h : Sim U g keys0 rkeys i0 d s) {c : Rune} {t i : Nat}
    (hf : findInTables (U.toUpper c) 0 characterTables = some (t, i)) :
    Sim U g keys0 rkeys i0 (d ++ [c]) (afterChar U s c t i) := by
  intro out hc hr
  have hr' : ∀ ch ∈ s.chunks ++ [s.cur], Resolves U keys0 rkeys ch.key := by
    intro ch hch
    rcases List.mem_append.1 hch with hch | hch
    · exact hr ch (List.mem_append_left _ hch)
    · rw [List.mem_singleton] at hch; subst hch
      exact hr { s.cur with enc := s.cur.enc ++ word U s.st.table s.st.shift c t i }
        (by simp [afterChar])
  obtain ⟨D, a2, a3, a4, a5, a6, a7, a8, a9, kr, o2, b1, b2, b3⟩ := h.extend _ _ hc hr'
  have hw := decode_word U hU D.st a5 c t i D.plain hf
  rw [a6, a7] at hw
  have ht := (findInTables_spec _ _ _ hf).1
  have hd := decLoop_plain U g rkeys _ D kr o2 _ _ b1 b2 hw a5.k
  rw [b3, hd]
  refine ⟨_, rfl, by simp [a2], a3, by simp [afterChar, a4], ⟨by simp only; omega, a5.g, a5.k, a5.b⟩,
    rfl, rfl, a8, ?_⟩
  exact forall₂_change_last a9 (fun _ h => h)

theorem Sim.next {U : Unicode} {g : Nat} (hg : g ≠ 0) {r : List Runes} {keys0 rkeys : List Key} {i0 : Nat}
    {d : Runes} {s s' : LoopState} (h : Sim U g keys0 rkeys i0 d s) (hs : LoopOk s)
    (hm : SameMat s.keys keys0)
    (hn : nextChunk U g r s = (.ok (), s')) : Sim U g keys0 rkeys i0 d s' := by
  obtain ⟨j, k, h1, h2, rfl⟩ := nextChunk_ok hs hn
  obtain ⟨_, e1, e2, _⟩ := findKey_some h1
  rw [h2] at e1; cases e1
  intro out hc hr
  have hr' : ∀ ch ∈ s.chunks ++ [s.cur], Resolves U keys0 rkeys ch.key := by
    intro ch hch
    rcases List.mem_append.1 hch with hch | hch
    · exact hr ch (by simp [hch])
    · rw [List.mem_singleton] at hch; subst hch
      exact hr { s.cur with enc := s.cur.enc ++ sw s.st.table 1 ++ [89] ++ k.id.val } (by simp)
  simp only at hc
  rw [cipherChunks_append] at hc
  obtain ⟨o1, o2, hc1, hc2, rfl⟩ := hc
  rw [cipherChunks_one] at hc2
  obtain ⟨_, _, _, hc2⟩ := hc2
  simp [cipherChunk] at hc2
  subst hc2
  rw [List.append_nil]
  rw [show s.cur.enc ++ sw s.st.table 1 ++ [89] ++ k.id.val =
    s.cur.enc ++ (sw s.st.table 1 ++ [89] ++ k.id.val) by simp] at hc1
  obtain ⟨D, a2, a3, a4, a5, a6, a7, a8, a9, kr, o2, b1, b2, b3⟩ := h.extend _ _ hc1 hr'
  obtain ⟨p1, p2, c1, c2, rfl⟩ := cipherChunk_append _ _ _ _ b2
  have hann := decode_announce U D.st a5 D.plain
  rw [a6] at hann
  have hd := decLoop_plain U g rkeys _ D kr p1 _ _ b1 c1 hann a5.k
  obtain ⟨k', jr, krn, f1, f2, f3, f4⟩ := hr ⟨[], j⟩ (by simp)
  obtain ⟨k2, m1, m2⟩ := hm.get h2
  rw [f1] at m1; cases m1
  rw [Key.mat_id m2] at f2
  rw [Key.mat_runes m2] at f4
  have hidl : k.id.val.length = g := e2.2.1
  have hid := decLoop_id U g rkeys jr k.id.val
    { D with ki := D.ki + (sw s.st.table 1 ++ [89]).length,
             st := { D.st with table := 1, gotChangeKeyChar := true } } kr p2
    (by intro h; rw [h] at hidl; simp at hidl; omega) b1
    (by rw [← List.drop_drop]; exact c2) a5.b (Or.inl rfl) (by simp only [a3]; simpa using hidl)
    (by simp only [a3]; simpa using f2)
  refine ⟨⟨jr, 0, [], newState, D.stack ++ [jr], D.plain⟩, ?_, a2, rfl, rfl, plain_new, rfl, rfl,
    ⟨k', krn, f1, by rw [Key.mat_id m2]; exact f2, f3, by rw [Key.mat_runes m2]; exact f4⟩, ?_⟩
  · rw [b3, decLoop_append, hd]
    simp only []
    rw [hid]
  · exact forall₂_append_one (forall₂_change_last a9 (fun _ h => h))
      ⟨k', krn, f1, by rw [Key.mat_id m2]; exact f2, f3, by rw [Key.mat_runes m2]; exact f4⟩

end K431
