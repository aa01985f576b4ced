import Verif.DecLemmas
import Verif.EncLemmas

/-! # Helper lemmas: Decipher with another store that holds the same pads -/

namespace K431
open Spec

/-- every pad that is found in `a` is found in `b` -/
def Carries (U : Unicode) (a b : List Key) : Prop :=
  ∀ id i k, getKey U a id = some i → a[i]? = some k → ∃ j k', getKey U b id = some j ∧ b[j]? = some k' ∧ k'.id.val = k.id.val ∧ k'.runes = k.runes

theorem carries_of_holds {U : Unicode} (hU : U.Lawful) {a b : List Key} (hb : WellFormed b)
    (h : ∀ k ∈ a, ∃ k' ∈ b, k'.id.val = k.id.val ∧ k'.runes = k.runes) : Carries U a b := by
  intro id i k hi hk
  obtain ⟨k', hk', e1, e2⟩ := h k (List.mem_of_getElem? hk)
  obtain ⟨j, hj⟩ := List.mem_iff_getElem?.1 hk'
  have := hb.getKey hU hj
  rw [e1, getKey_of_found hU hi hk] at this
  exact ⟨j, k', this, hj, e1, e2⟩

/-- the same state, except that keys are found at other places -/
structure Alike (a b : List Key) (d e : DState) : Prop where
  key : ∃ k k', a[d.key]? = some k ∧ b[e.key]? = some k' ∧ k'.runes = k.runes
  rest : e.ki = d.ki ∧ e.nextKey = d.nextKey ∧ e.st = d.st ∧ e.plain = d.plain
  stack : e.stack.map (fun j => (b[j]?).map (fun k => k.id.val)) = d.stack.map (fun i => (a[i]?).map (fun k => k.id.val))

theorem decStep_alike {U : Unicode} {g : Nat} {a b : List Key} (h : Carries U a b) {d e d' : DState} (hde : Alike a b d e) {c : Rune}
    (hd : decStep U g a d c = .ok d') : ∃ e', decStep U g b e c = .ok e' ∧ Alike a b d' e' := by
  obtain ⟨⟨k, k', h1, h2, h3⟩, ⟨r1, r2, r3, r4⟩, hst⟩ := hde
  unfold decStep at hd ⊢
  rw [h2]
  rw [h1] at hd
  dsimp only at hd ⊢
  rw [h3, r1, r2, r3, r4]
  by_cases h4 : d.ki ≥ k.runes.length
  · simp [h4] at hd
  · simp only [h4, if_false] at hd ⊢
    cases hk : k.runes[d.ki]? with
    | none => rw [hk] at hd; cases hd
    | some kr =>
      rw [hk] at hd
      dsimp only at hd ⊢
      cases ht : trigraph kr c with
      | err x => rw [ht] at hd; cases hd
      | panic => rw [ht] at hd; cases hd
      | ok z =>
        rw [ht] at hd
        dsimp only at hd ⊢
        cases hc : decodeCharacter U d.st z d.plain with
        | err x => rw [hc] at hd; cases hd
        | panic => rw [hc] at hd; cases hd
        | ok p =>
          rw [hc] at hd
          obtain ⟨st, plain⟩ := p
          dsimp only at hd ⊢
          by_cases h5 : st.keyChange = true
          · simp only [h5, if_true] at hd ⊢
            by_cases h6 : (d.nextKey ++ [z]).length ≥ g
            · simp only [h6, if_true] at hd ⊢
              cases hg : getKey U a (d.nextKey ++ [z]) with
              | none => rw [hg] at hd; cases hd
              | some i =>
                rw [hg] at hd
                cases hd
                obtain ⟨k1, hk1, -⟩ := getKey_some hg
                obtain ⟨j, k2, hj, hk2, e1, e2⟩ := h _ i k1 hg hk1
                rw [hj]
                refine ⟨_, rfl, ⟨k1, k2, hk1, hk2, e2⟩, ⟨rfl, rfl, rfl, rfl⟩, ?_⟩
                simp [hst, hk1, hk2, e1]
            · simp only [h6, if_false] at hd ⊢
              cases hd
              exact ⟨_, rfl, ⟨k, k', h1, h2, h3⟩, ⟨rfl, rfl, rfl, rfl⟩, hst⟩
          · simp only [h5] at hd ⊢
            cases hd
            exact ⟨_, rfl, ⟨k, k', h1, h2, h3⟩, ⟨rfl, rfl, rfl, rfl⟩, hst⟩

theorem decLoop_alike {U : Unicode} {g : Nat} {a b : List Key} (h : Carries U a b) : ∀ (ct : Runes) {d e d' : DState} {p : Runes}, Alike a b d e →
    decLoop U g a ct d = (.ok d', p) → ∃ e', decLoop U g b ct e = (.ok e', p) ∧ Alike a b d' e'
  | [], d, e, d', p, hde, hd => by
    simp only [decLoop, Prod.mk.injEq, Outcome.ok.injEq] at hd ⊢
    obtain ⟨rfl, rfl⟩ := hd
    exact ⟨e, ⟨rfl, hde.rest.2.2.2⟩, hde⟩
  | c :: cs, d, e, d', p, hde, hd => by
    unfold decLoop at hd ⊢
    cases h1 : decStep U g a d c with
    | err x => rw [h1] at hd; simp at hd
    | panic => rw [h1] at hd; simp at hd
    | ok d1 =>
      rw [h1] at hd
      obtain ⟨e1, h2, h3⟩ := decStep_alike h hde h1
      rw [h2]
      exact decLoop_alike h cs h3 hd

/-- the keys that are marked -/
theorem marked_iff (l : List Nat) (keys : List Key) (j : Nat) (k : Key) (hk : keys[j]? = some k) :
    (l.foldl (fun ks j => setUsed ks j true) keys)[j]? = some { k with used := k.used || l.contains j } := by
  induction l generalizing keys k with
  | nil => simpa using hk
  | cons i l ih =>
    simp only [List.foldl_cons]
    by_cases h : i = j
    · subst h
      rw [ih (setUsed keys i true) { k with used := true } (by simp [setUsed, List.getElem?_modify, hk])]
      simp
    · rw [ih (setUsed keys i true) k (by simp [setUsed, List.getElem?_modify, hk, h])]
      have : j ≠ i := fun e => h e.symm
      simp [this]

/-- the marks, by the ids of the keys -/
theorem marked_ids {keys : List Key} (hw : WellFormed keys) {l : List Nat} {ids : List Runes}
    (hl : l.map (fun j => (keys[j]?).map (fun k => k.id.val)) = ids.map some) (j : Nat) (k : Key) (hk : keys[j]? = some k) :
    (l.foldl (fun ks j => setUsed ks j true) keys)[j]? = some { k with used := k.used || ids.contains k.id.val } := by
  rw [marked_iff l keys j k hk]
  have : l.contains j = ids.contains k.id.val := by
    rw [Bool.eq_iff_iff]
    simp only [List.contains_iff_mem]
    constructor
    · intro h
      have : (keys[j]?).map (fun k => k.id.val) ∈ ids.map some := by rw [← hl]; exact List.mem_map.2 ⟨j, h, rfl⟩
      rw [hk] at this
      simpa using this
    · intro h
      have : some k.id.val ∈ l.map (fun j => (keys[j]?).map (fun k => k.id.val)) := by rw [hl]; exact List.mem_map.2 ⟨_, h, rfl⟩
      obtain ⟨i, hi, e⟩ := List.mem_map.1 this
      cases hki : keys[i]? with
      | none => rw [hki] at e; cases e
      | some k' =>
        rw [hki] at e
        rw [← hw.inj hki hk (by simpa using e)]
        exact hi
  rw [this]

theorem decStep_stackKeys {U : Unicode} {g : Nat} {a : List Key} {d d' : DState} {c : Rune} (h : decStep U g a d c = .ok d')
    (hs : ∀ i ∈ d.stack, ∃ k, a[i]? = some k) : ∀ i ∈ d'.stack, ∃ k, a[i]? = some k := by
  unfold decStep at h
  split at h
  · cases h
  split at h
  · cases h
  split at h
  · cases h
  split at h
  · cases h
  · cases h
  split at h
  · cases h
  · cases h
  split at h
  · dsimp only at h
    split at h
    · split at h
      · cases h
      · rename_i j hj
        cases h
        intro i hi
        rcases List.mem_append.1 hi with hi | hi
        · exact hs i hi
        · rw [List.mem_singleton.1 hi]
          obtain ⟨k, hk, -⟩ := getKey_some hj
          exact ⟨k, hk⟩
    · cases h; exact hs
  · cases h; exact hs

theorem decLoop_stackKeys {U : Unicode} {g : Nat} {a : List Key} : ∀ (ct : Runes) {d d' : DState} {p : Runes}, decLoop U g a ct d = (.ok d', p) →
    (∀ i ∈ d.stack, ∃ k, a[i]? = some k) → ∀ i ∈ d'.stack, ∃ k, a[i]? = some k
  | [], d, d', p, h, hs => by
    simp only [decLoop, Prod.mk.injEq, Outcome.ok.injEq] at h
    rw [← h.1]; exact hs
  | c :: cs, d, d', p, h, hs => by
    unfold decLoop at h
    cases h1 : decStep U g a d c with
    | err x => rw [h1] at h; simp at h
    | panic => rw [h1] at h; simp at h
    | ok d1 =>
      rw [h1] at h
      exact decLoop_stackKeys cs h (decStep_stackKeys h1 hs)

/-- the place of the array of the key id does not matter -/
theorem decipher_addr (U : Unicode) (f : Runes) (inst : Inst) (m : Msg) (x : Nat) :
    decipher U f inst { m with keyId := ⟨x, m.keyId.val⟩ } =
      ((decipher U f inst m).1, (decipher U f inst m).2.1, { (decipher U f inst m).2.2 with keyId := ⟨x, m.keyId.val⟩ }) := by
  have hw : withId f { m with keyId := ⟨x, m.keyId.val⟩ } = { withId f m with keyId := ⟨x, m.keyId.val⟩ } := by
    unfold withId
    dsimp only
    split <;> rfl
  have hv : (withId f m).keyId = m.keyId := (withId_fields f m).2.2.1
  unfold decipher
  simp only [hw, hv]
  generalize withId f m = m1
  by_cases h1 : m.keyId.val.length ≠ inst.groupSize
  · simp [h1]
  simp only [h1, if_false]
  by_cases h2 : m1.cipherText.length < inst.groupSize
  · simp [h2]
  simp only [h2, if_false]
  cases getKey U inst.keys m.keyId.val with
  | none => rfl
  | some i =>
    dsimp only
    generalize decLoop U inst.groupSize inst.keys m1.cipherText _ = r
    obtain ⟨o, p⟩ := r
    cases o <;> rfl

theorem decipher_keyId {U : Unicode} {f : Runes} {inst inst' : Inst} {m m' : Msg} {o : Outcome Unit} (h : decipher U f inst m = (o, inst', m')) : m'.keyId.val = m.keyId.val := by
  have := decipher_addr U f inst m m.keyId.addr
  have e : ({ m with keyId := ⟨m.keyId.addr, m.keyId.val⟩ } : Msg) = m := rfl
  rw [e, h] at this
  have := congrArg (fun r => r.2.2.keyId.val) this
  simpa using this

end K431
