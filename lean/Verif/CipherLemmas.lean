import Verif.Cipher
import Verif.CodecLemmas
import Verif.DianaLemmas

/-! # Helper lemmas about Encipher and Decipher -/

namespace K431
open Spec

/-! ## Key look-up -/

theorem findKeyFrom_bound (U : Unicode) (g : Nat) (r : List Runes) : ∀ (keys : List Key) (n i : Nat),
    findKeyFrom U g r n keys = some i → n ≤ i ∧ i < n + keys.length := by
  intro keys
  induction keys with
  | nil => intro n i h; simp [findKeyFrom] at h
  | cons k ks ih =>
    intro n i h
    simp only [findKeyFrom] at h
    have hrec : findKeyFrom U g r (n + 1) ks = some i → n ≤ i ∧ i < n + (k :: ks).length := by
      intro h; have := ih _ _ h; simp only [List.length_cons]; omega
    have here : some n = some i → n ≤ i ∧ i < n + (k :: ks).length := by
      intro h; cases h; simp
    repeat' split at h
    all_goals first | exact hrec h | exact here h

/-- what a key must satisfy to be selected -/
def Eligible (U : Unicode) (g : Nat) (r : List Runes) (k : Key) : Prop :=
  k.used = false ∧ k.id.val.length = g ∧
    if r.length = 0 then k.keepers.length = 0
    else allNeedlesInHaystack U (some r) (some k.names) false = true

theorem findKeyFrom_some (U : Unicode) (g : Nat) (r : List Runes) : ∀ (keys : List Key) (n i : Nat),
    findKeyFrom U g r n keys = some i →
      ∃ k, keys[i - n]? = some k ∧ Eligible U g r k ∧
        ∀ j k', j < i - n → keys[j]? = some k' → ¬ Eligible U g r k' := by
  intro keys
  induction keys with
  | nil => intro n i h; simp [findKeyFrom] at h
  | cons k ks ih =>
    intro n i h
    have hrec : ¬ Eligible U g r k → findKeyFrom U g r (n + 1) ks = some i →
        ∃ k', (k :: ks)[i - n]? = some k' ∧ Eligible U g r k' ∧
        ∀ j k', j < i - n → (k :: ks)[j]? = some k' → ¬ Eligible U g r k' := by
      intro hne h
      obtain ⟨k', h1, h2, h3⟩ := ih _ _ h
      have hb := findKeyFrom_bound U g r ks _ _ h
      have e : i - n = (i - (n + 1)) + 1 := by omega
      refine ⟨k', by rw [e]; simpa using h1, h2, ?_⟩
      intro j k'' hj hk
      cases j with
      | zero => simp at hk; subst hk; exact hne
      | succ j => exact h3 j k'' (by omega) (by simpa using hk)
    have here : Eligible U g r k → some n = some i →
        ∃ k', (k :: ks)[i - n]? = some k' ∧ Eligible U g r k' ∧
        ∀ j k', j < i - n → (k :: ks)[j]? = some k' → ¬ Eligible U g r k' := by
      intro he h; cases h
      exact ⟨k, by simp, he, by intro j _ hj; omega⟩
    simp only [findKeyFrom] at h
    unfold Eligible at hrec here
    split at h
    · rename_i hu; exact hrec (by simp [hu]) h
    · rename_i hu
      simp only [Bool.not_eq_true] at hu
      split at h
      · rename_i hl; exact hrec (by simp [hl]) h
      · rename_i hl
        simp only [ne_eq, Decidable.not_not] at hl
        split at h
        · rename_i hr
          split at h
          · rename_i hk; exact here ⟨hu, hl, by simp [hr, hk]⟩ h
          · rename_i hk; exact hrec (by simp [hr, hk]) h
        · rename_i hr
          split at h
          · rename_i hk; exact here ⟨hu, hl, by simp [hr, hk]⟩ h
          · rename_i hk; exact hrec (by simp [hr, hk]) h

theorem findKeyFrom_none (U : Unicode) (g : Nat) (r : List Runes) : ∀ (keys : List Key) (n : Nat),
    findKeyFrom U g r n keys = none → ∀ k ∈ keys, ¬ Eligible U g r k := by
  intro keys
  induction keys with
  | nil => intro n h k hk; cases hk
  | cons k ks ih =>
    intro n h
    have hrec : ¬ Eligible U g r k → findKeyFrom U g r (n + 1) ks = none →
        ∀ k' ∈ k :: ks, ¬ Eligible U g r k' := by
      intro hne h k' hk'
      rcases List.mem_cons.1 hk' with rfl | hk'
      · exact hne
      · exact ih _ h k' hk'
    simp only [findKeyFrom] at h
    unfold Eligible at hrec ⊢
    split at h
    · rename_i hu; exact hrec (by simp [hu]) h
    · split at h
      · rename_i hl; exact hrec (by simp [hl]) h
      · split at h
        · rename_i hr
          split at h
          · cases h
          · rename_i hk; exact hrec (by simp [hr, hk]) h
        · rename_i hr
          split at h
          · cases h
          · rename_i hk; exact hrec (by simp [hr, hk]) h

theorem findKey_some {U : Unicode} {g : Nat} {r : List Runes} {keys : List Key} {i : Nat}
    (h : findKey U g keys r = some i) :
    ∃ k, keys[i]? = some k ∧ Eligible U g r k ∧
        ∀ j k', j < i → keys[j]? = some k' → ¬ Eligible U g r k' := by
  simpa using findKeyFrom_some U g r keys 0 i h

theorem findKey_none {U : Unicode} {g : Nat} {r : List Runes} {keys : List Key}
    (h : findKey U g keys r = none) : ∀ k ∈ keys, ¬ Eligible U g r k :=
  findKeyFrom_none U g r keys 0 h

theorem getKeyFrom_spec (name : Runes) : ∀ (keys : List Key) (n : Nat),
    (∀ i, getKeyFrom name n keys = some i → n ≤ i ∧ ∃ k, keys[i - n]? = some k ∧ goStr k.id.val = name ∧
      ∀ j k', j < i - n → keys[j]? = some k' → goStr k'.id.val ≠ name) ∧
    (getKeyFrom name n keys = none → ∀ k ∈ keys, goStr k.id.val ≠ name) := by
  intro keys
  induction keys with
  | nil => intro n; exact ⟨by intro i h; simp [getKeyFrom] at h, by intro _ k hk; cases hk⟩
  | cons k ks ih =>
    intro n
    obtain ⟨ih1, ih2⟩ := ih (n + 1)
    by_cases he : name = goStr k.id.val
    · simp only [getKeyFrom, if_pos he]
      refine ⟨?_, by simp⟩
      intro i h; cases h
      exact ⟨Nat.le_refl _, k, by simp, he.symm, by intro j _ hj; omega⟩
    · simp only [getKeyFrom, if_neg he]
      refine ⟨?_, ?_⟩
      · intro i h
        obtain ⟨hn, k', h1, h2, h3⟩ := ih1 i h
        have e : i - n = (i - (n + 1)) + 1 := by omega
        refine ⟨by omega, k', by rw [e]; simpa using h1, h2, ?_⟩
        intro j k'' hj hk
        cases j with
        | zero => simp at hk; subst hk; exact fun h => he h.symm
        | succ j => exact h3 j k'' (by omega) (by simpa using hk)
      · intro h k' hk'
        rcases List.mem_cons.1 hk' with rfl | hk'
        · exact fun h => he h.symm
        · exact ih2 h k' hk'

theorem getKey_some {U : Unicode} {keys : List Key} {id : Runes} {i : Nat}
    (h : getKey U keys id = some i) :
    ∃ k, keys[i]? = some k ∧ goStr k.id.val = lookupName U id ∧
      ∀ j k', j < i → keys[j]? = some k' → goStr k'.id.val ≠ lookupName U id := by
  simpa using ((getKeyFrom_spec (lookupName U id) keys 0).1 i h).2

theorem getKey_none {U : Unicode} {keys : List Key} {id : Runes}
    (h : getKey U keys id = none) : ∀ k ∈ keys, goStr k.id.val ≠ lookupName U id :=
  (getKeyFrom_spec (lookupName U id) keys 0).2 h

/-- look-up depends on the ids only -/
theorem getKeyFrom_congr (name : Runes) : ∀ (ks ks' : List Key) (n : Nat),
    ks.map (fun k => k.id.val) = ks'.map (fun k => k.id.val) →
    getKeyFrom name n ks = getKeyFrom name n ks' := by
  intro ks
  induction ks with
  | nil => intro ks' n h; cases ks' with
    | nil => rfl
    | cons => simp at h
  | cons k ks ih =>
    intro ks' n h
    cases ks' with
    | nil => simp at h
    | cons k' ks' =>
      simp only [List.map_cons, List.cons.injEq] at h
      simp only [getKeyFrom, h.1]
      rw [ih ks' (n + 1) h.2]

theorem getKey_congr (U : Unicode) {ks ks' : List Key} (id : Runes)
    (h : ks.map (fun k => k.id.val) = ks'.map (fun k => k.id.val)) :
    getKey U ks id = getKey U ks' id := getKeyFrom_congr _ ks ks' 0 h

/-! ## Only flags change -/

/-- the key without its flag -/
def Key.mat (k : Key) : Key := { k with used := false }

/-- same keys up to `Used` flags -/
def SameMat (ks ks' : List Key) : Prop := ks.map Key.mat = ks'.map Key.mat

theorem SameMat.refl (ks : List Key) : SameMat ks ks := rfl
theorem SameMat.symm {a b : List Key} (h : SameMat a b) : SameMat b a := Eq.symm h
theorem SameMat.trans {a b c : List Key} (h : SameMat a b) (h' : SameMat b c) : SameMat a c :=
  Eq.trans h h'
theorem SameMat.length {a b : List Key} (h : SameMat a b) : a.length = b.length := by
  have := congrArg List.length h; simpa using this

theorem SameMat.get {a b : List Key} (h : SameMat a b) {i : Nat} {k : Key} (hk : a[i]? = some k) :
    ∃ k', b[i]? = some k' ∧ k'.mat = k.mat := by
  have h1 := congrArg (fun l => l[i]?) h
  simp only [List.getElem?_map, hk, Option.map_some] at h1
  rcases hb : b[i]? with _ | k'
  · rw [hb] at h1; cases h1
  · rw [hb] at h1; simp at h1; exact ⟨k', rfl, h1.symm⟩

theorem Key.mat_runes {k k' : Key} (h : k'.mat = k.mat) : k'.runes = k.runes := by
  have := congrArg Key.runes h; exact this
theorem Key.mat_id {k k' : Key} (h : k'.mat = k.mat) : k'.id = k.id := by
  have := congrArg Key.id h; exact this
theorem Key.mat_keepers {k k' : Key} (h : k'.mat = k.mat) : k'.keepers = k.keepers := by
  have := congrArg Key.keepers h; exact this
theorem Key.mat_compromised {k k' : Key} (h : k'.mat = k.mat) : k'.compromised = k.compromised := by
  have := congrArg Key.compromised h; exact this

theorem SameMat.ids {a b : List Key} (h : SameMat a b) :
    a.map (fun k => k.id.val) = b.map (fun k => k.id.val) := by
  have := congrArg (List.map (fun k : Key => k.id.val)) h
  simpa [List.map_map, Function.comp_def, Key.mat] using this

theorem setUsed_get (keys : List Key) (i j : Nat) (b : Bool) :
    (setUsed keys i b)[j]? = (keys[j]?).map (fun k => if i = j then { k with used := b } else k) := by
  unfold setUsed
  rw [List.getElem?_modify]
  rcases keys[j]? with _ | k
  · rfl
  · by_cases h : i = j <;> simp [h]

theorem setUsed_length (keys : List Key) (i : Nat) (b : Bool) :
    (setUsed keys i b).length = keys.length := by simp [setUsed]

theorem setUsed_sameMat (keys : List Key) (i : Nat) (b : Bool) : SameMat (setUsed keys i b) keys := by
  unfold SameMat
  apply List.ext_getElem?
  intro j
  simp only [List.getElem?_map, setUsed_get]
  rcases keys[j]? with _ | k
  · rfl
  · by_cases h : i = j <;> simp [h, Key.mat]

theorem keyLenAt_eq {keys : List Key} {i : Nat} {k : Key} (h : keys[i]? = some k) :
    keyLenAt keys i = k.runes.length := by simp [keyLenAt, h]

/-! ## The coding loop -/

/-- A state is well-formed between characters. -/
structure LoopOk (s : LoopState) : Prop where
  plain : Plain s.st
  count : s.st.charCounter = s.cur.enc.length

theorem nextChunk_ok {U : Unicode} {g : Nat} {r : List Runes} {s s' : LoopState} (hs : LoopOk s)
    (h : nextChunk U g r s = (.ok (), s')) :
    ∃ j k, findKey U g s.keys r = some j ∧ s.keys[j]? = some k ∧
      s' = { keys := setUsed s.keys j true, st := newState,
             chunks := s.chunks ++ [{ s.cur with enc := s.cur.enc ++ sw s.st.table 1 ++ [89] ++ k.id.val }],
             cur := ⟨[], j⟩ } := by
  unfold nextChunk at h
  rcases hf : findKey U g s.keys r with _ | j
  · rw [hf] at h; simp at h
  · rw [hf] at h
    simp only at h
    rcases hk : s.keys[j]? with _ | k
    · rw [hk] at h; simp at h
    · rw [hk] at h
      simp only at h
      unfold changeKey at h
      simp only [secondaryTable] at h
      rw [gotoTable_some 1 (by decide) s.st hs.plain.tab] at h
      refine ⟨j, k, rfl, hk, ?_⟩
      by_cases ht : s.st.table = 1
      · simp [ht, changeKeyChar] at h
        rw [← h]; simp [sw, ht]
      · simp [ht, changeKeyChar] at h
        rw [← h]; simp [sw, ht]

/-- failing `nextChunk` changes nothing -/
theorem nextChunk_fail {U : Unicode} {g : Nat} {r : List Runes} {s : LoopState}
    {o : Outcome Unit} {s' : LoopState}
    (h : nextChunk U g r s = (o, s')) (ho : o ≠ .ok ()) : s' = s := by
  unfold nextChunk at h
  rcases hf : findKey U g s.keys r with _ | j
  · rw [hf] at h; simp at h; exact h.2.symm
  · rw [hf] at h
    simp only at h
    rcases hk : s.keys[j]? with _ | k
    · rw [hk] at h; simp at h; exact h.2.symm
    · rw [hk] at h
      simp only at h
      rcases hc : changeKey s.st k.id.val s.cur.enc with ⟨st, e⟩ | e | _
      · rw [hc] at h; simp at h; exact absurd h.1.symm ho
      · rw [hc] at h; simp at h; exact h.2.symm
      · rw [hc] at h; simp at h; exact h.2.symm

theorem LoopOk.next {U : Unicode} {g : Nat} {r : List Runes} {s s' : LoopState} (hs : LoopOk s)
    (h : nextChunk U g r s = (.ok (), s')) : LoopOk s' := by
  obtain ⟨j, k, _, _, rfl⟩ := nextChunk_ok hs h
  exact ⟨plain_new, rfl⟩

/-- the state after coding one character -/
def afterChar (U : Unicode) (s : LoopState) (c : Rune) (t i : Nat) : LoopState :=
  { s with
    st := { s.st with
            table := t
            shift := if needsToggle U s.st.shift c then !s.st.shift else s.st.shift
            charCounter := s.st.charCounter + (word U s.st.table s.st.shift c t i).length }
    cur := { s.cur with enc := s.cur.enc ++ word U s.st.table s.st.shift c t i } }

theorem LoopOk.char {U : Unicode} {s : LoopState} (hs : LoopOk s) {c : Rune} {t i : Nat}
    (h : findInTables (U.toUpper c) 0 characterTables = some (t, i)) :
    LoopOk (afterChar U s c t i) := by
  have := (findInTables_spec _ _ _ h).1
  refine ⟨⟨by simp only [afterChar]; omega, hs.plain.g, hs.plain.k, hs.plain.b⟩, ?_⟩
  simp [afterChar, hs.count]

/-- Induction principle for the coding loop: an invariant kept by key changes and by coding a
character holds in the final state, and the final state of a successful run has consumed the
whole text. -/
theorem encLoop_inv {U : Unicode} {g : Nat} {r : List Runes} (P : Runes → LoopState → Prop)
    (hnext : ∀ d s s', P d s → LoopOk s → nextChunk U g r s = (.ok (), s') → P d s')
    (hchar : ∀ d s c t i, P d s → LoopOk s →
      findInTables (U.toUpper c) 0 characterTables = some (t, i) → P (d ++ [c]) (afterChar U s c t i)) :
    ∀ (text d : Runes) (s : LoopState) (o : Outcome Unit) (s' : LoopState),
      P d s → LoopOk s → encLoop U g r text s = (o, s') →
      LoopOk s' ∧ ∃ d1 d2, text = d1 ++ d2 ∧ P (d ++ d1) s' ∧ (o = .ok () → d2 = []) := by
  intro text
  induction text with
  | nil =>
    intro d s o s' hP hs h
    simp only [encLoop, Prod.mk.injEq] at h
    obtain ⟨rfl, rfl⟩ := h
    exact ⟨hs, [], [], rfl, by simpa using hP, fun _ => rfl⟩
  | cons c cs ih =>
    intro d s o s' hP hs h
    simp only [encLoop] at h
    -- after the optional key change
    have main : ∀ s1, P d s1 → LoopOk s1 →
        (match encodeCharacter U s1.st c s1.cur.enc with
          | .err e => ((.err e, s1) : Outcome Unit × LoopState)
          | .panic => (.panic, s1)
          | .ok (st, enc) => encLoop U g r cs { s1 with st := st, cur := { s1.cur with enc := enc } }) = (o, s') →
        LoopOk s' ∧ ∃ d1 d2, c :: cs = d1 ++ d2 ∧ P (d ++ d1) s' ∧ (o = .ok () → d2 = []) := by
      intro s1 hP1 hs1 h1
      rw [encodeCharacter_eq U s1.st hs1.plain.b hs1.plain.tab] at h1
      rcases hf : findInTables (U.toUpper c) 0 characterTables with _ | ⟨t, i⟩
      · rw [hf] at h1
        simp only [Prod.mk.injEq] at h1
        obtain ⟨rfl, rfl⟩ := h1
        exact ⟨hs1, [], c :: cs, rfl, by simpa using hP1, fun h => by cases h⟩
      · rw [hf] at h1
        simp only at h1
        obtain ⟨hl, d1, d2, e1, e2, e3⟩ := ih (d ++ [c]) (afterChar U s1 c t i) o s'
          (hchar d s1 c t i hP1 hs1 hf) (hs1.char hf) h1
        exact ⟨hl, c :: d1, d2, by rw [e1]; rfl, by simpa using e2, e3⟩
    by_cases hx : keyExhausted g s = true
    · rw [if_pos hx] at h
      rcases hn : nextChunk U g r s with ⟨o1, s1⟩
      rw [hn] at h
      rcases o1 with u | e | _
      · exact main s1 (hnext d s s1 hP hs hn) (hs.next hn) h
      · have := nextChunk_fail hn (by simp)
        subst this
        simp only [Prod.mk.injEq] at h
        obtain ⟨rfl, rfl⟩ := h
        exact ⟨hs, [], c :: cs, rfl, by simpa using hP, fun h => by cases h⟩
      · have := nextChunk_fail hn (by simp)
        subst this
        simp only [Prod.mk.injEq] at h
        obtain ⟨rfl, rfl⟩ := h
        exact ⟨hs, [], c :: cs, rfl, by simpa using hP, fun h => by cases h⟩
    · rw [if_neg hx] at h
      exact main s hP hs h

theorem encLoop_inv_ok {U : Unicode} {g : Nat} {r : List Runes} (P : Runes → LoopState → Prop)
    (hnext : ∀ d s s', P d s → LoopOk s → nextChunk U g r s = (.ok (), s') → P d s')
    (hchar : ∀ d s c t i, P d s → LoopOk s →
      findInTables (U.toUpper c) 0 characterTables = some (t, i) → P (d ++ [c]) (afterChar U s c t i))
    {text : Runes} {s s' : LoopState} (hP : P [] s) (hs : LoopOk s)
    (h : encLoop U g r text s = (.ok (), s')) : LoopOk s' ∧ P text s' := by
  obtain ⟨h1, d1, d2, e, hp, hd⟩ := encLoop_inv P hnext hchar text [] s _ s' hP hs h
  rw [hd rfl, List.append_nil] at e
  subst e
  exact ⟨h1, by simpa using hp⟩

/-! ## The ciphering loops -/

theorem cipherChunk_append : ∀ (ks a b out : Runes), cipherChunk ks (a ++ b) = (.ok (), out) →
    ∃ o1 o2, cipherChunk ks a = (.ok (), o1) ∧ cipherChunk (ks.drop a.length) b = (.ok (), o2) ∧
      out = o1 ++ o2 := by
  intro ks a
  induction a generalizing ks with
  | nil => intro b out h; exact ⟨[], out, by simp [cipherChunk], by simpa using h, by simp⟩
  | cons x xs ih =>
    intro b out h
    cases ks with
    | nil => simp [cipherChunk] at h
    | cons k ks =>
      simp only [List.cons_append, cipherChunk] at h ⊢
      rcases ht : trigraph k x with z | e | _
      · rw [ht] at h
        simp only [Prod.mk.injEq] at h
        obtain ⟨h1, h2⟩ := h
        obtain ⟨o1, o2, e1, e2, e3⟩ := ih ks b (cipherChunk ks (xs ++ b)).2 (by rw [← h1])
        refine ⟨z :: o1, o2, by simp [e1], by simpa using e2, ?_⟩
        rw [← h2, e3]; rfl
      · rw [ht] at h; simp at h
      · rw [ht] at h; simp at h

/-- a successful chunk: one trigraph per position -/
theorem cipherChunk_ok : ∀ (ks es out : Runes), cipherChunk ks es = (.ok (), out) ↔
    (es.length ≤ ks.length ∧ out.length = es.length ∧
      ∀ (i : Nat) (k e z : Rune), ks[i]? = some k → es[i]? = some e → out[i]? = some z → Trigraph k e z) := by
  intro ks es
  induction es generalizing ks with
  | nil =>
    intro out
    cases ks <;> simp [cipherChunk, eq_comm]
  | cons e es ih =>
    intro out
    cases ks with
    | nil => simp [cipherChunk]
    | cons k ks =>
      simp only [cipherChunk]
      rcases ht : trigraph k e with z | x | _
      · have hz := (trigraph_ok_iff _ _ _).1 ht
        constructor
        · intro h
          simp only [Prod.mk.injEq] at h
          obtain ⟨h1, h2⟩ := h
          obtain ⟨a, b, c⟩ := (ih ks (cipherChunk ks es).2).1 (by rw [← h1])
          subst h2
          refine ⟨by simpa using a, by simpa using b, ?_⟩
          intro i k' e' z' h1 h2 h3
          cases i with
          | zero => simp at h1 h2 h3; subst h1 h2 h3; exact hz
          | succ i => exact c i k' e' z' (by simpa using h1) (by simpa using h2) (by simpa using h3)
        · rintro ⟨a, b, c⟩
          cases out with
          | nil => simp at b
          | cons y ys =>
            have := c 0 k e y (by simp) (by simp) (by simp)
            have hy : z = y := hz.unique this
            have := (ih ks ys).2 ⟨by simpa using a, by simpa using b, by
              intro i k' e' z' h1 h2 h3
              exact c (i + 1) k' e' z' (by simpa using h1) (by simpa using h2) (by simpa using h3)⟩
            rw [this, hy]
      · simp only [Prod.mk.injEq, reduceCtorEq, false_and, false_iff, not_and]
        intro _ hb hc
        cases out with
        | nil => simp at hb
        | cons y ys =>
          have := (trigraph_ok_iff _ _ _).2 (hc 0 k e y (by simp) (by simp) (by simp))
          rw [ht] at this; cases this
      · exact absurd ht (trigraph_not_panic _ _)

theorem cipherChunks_append (keys : List Key) : ∀ (a b : List Chunk) (out : Runes),
    cipherChunks keys (a ++ b) = (.ok (), out) ↔
    ∃ o1 o2, cipherChunks keys a = (.ok (), o1) ∧ cipherChunks keys b = (.ok (), o2) ∧
      out = o1 ++ o2 := by
  intro a
  induction a with
  | nil =>
    intro b out
    constructor
    · intro h; exact ⟨[], out, by simp [cipherChunks], by simpa using h, by simp⟩
    · rintro ⟨o1, o2, h1, h2, rfl⟩
      simp [cipherChunks] at h1; subst h1; simpa using h2
  | cons ch chs ih =>
    intro b out
    simp only [List.cons_append, cipherChunks]
    rcases hk : keys[ch.key]? with _ | k
    · simp
    · simp only
      by_cases hl : ch.enc.length > k.runes.length
      · simp [hl]
      · rw [if_neg hl, if_neg hl]
        rcases hc : cipherChunk k.runes ch.enc with ⟨u | e | _, oc⟩
        · simp only [Prod.mk.injEq]
          constructor
          · rintro ⟨h1, h2⟩
            obtain ⟨o1, o2, e1, e2, e3⟩ := (ih b (cipherChunks keys (chs ++ b)).2).1 (by rw [← h1])
            exact ⟨oc ++ o1, o2, by simp [e1], e2, by rw [← h2, e3]; simp⟩
          · rintro ⟨o1, o2, ⟨h1, h2⟩, h3, rfl⟩
            have := (ih b ((cipherChunks keys chs).2 ++ o2)).2 ⟨_, _, by rw [← h1], h3, rfl⟩
            rw [this, ← h2]; simp
        · simp
        · simp

theorem cipherChunks_one (keys : List Key) (ch : Chunk) (out : Runes) :
    cipherChunks keys [ch] = (.ok (), out) ↔
      ∃ k, keys[ch.key]? = some k ∧ ch.enc.length ≤ k.runes.length ∧
        cipherChunk k.runes ch.enc = (.ok (), out) := by
  simp only [cipherChunks]
  rcases hk : keys[ch.key]? with _ | k
  · simp
  · simp only
    by_cases hl : ch.enc.length > k.runes.length
    · rw [if_pos hl]
      simp only [Prod.mk.injEq, reduceCtorEq, false_and, Option.some.injEq, false_iff, not_exists,
        not_and]
      rintro k' rfl h; omega
    · rw [if_neg hl]
      rcases hc : cipherChunk k.runes ch.enc with ⟨u | e | _, oc⟩
      · simp only [List.append_nil, Prod.mk.injEq, true_and, Option.some.injEq]
        constructor
        · rintro rfl; exact ⟨k, rfl, by omega, hc⟩
        · rintro ⟨k', rfl, _, h⟩; rw [hc] at h; simpa using h
      · simp only [Prod.mk.injEq, reduceCtorEq, false_and, Option.some.injEq, false_iff, not_exists,
          not_and]
        rintro k' rfl _ h; rw [hc] at h; simp at h
      · simp only [Prod.mk.injEq, reduceCtorEq, false_and, Option.some.injEq, false_iff, not_exists,
          not_and]
        rintro k' rfl _ h; rw [hc] at h; simp at h

theorem cipherChunks_sameMat {a b : List Key} (h : SameMat a b) : ∀ chs : List Chunk,
    cipherChunks a chs = cipherChunks b chs := by
  intro chs
  induction chs with
  | nil => rfl
  | cons ch chs ih =>
    simp only [cipherChunks]
    rcases hk : a[ch.key]? with _ | k
    · rcases hk' : b[ch.key]? with _ | k'
      · rfl
      · obtain ⟨_, h2, _⟩ := h.symm.get hk'
        rw [hk] at h2; cases h2
    · obtain ⟨k', hk', hm⟩ := h.get hk
      rw [hk']
      simp only [Key.mat_runes hm, ih]

/-! ## Padding -/

theorem pad_eq : ∀ (n : Nat) (st : CState) (out : Runes),
    pad st n out = ({ st with charCounter := st.charCounter + n }, out ++ List.replicate n 90) := by
  intro n
  induction n with
  | zero => intro st out; simp [pad]
  | succ n ih =>
    intro st out
    simp only [pad]
    rw [ih]
    simp only [nextTableChar, List.append_assoc, List.singleton_append, Prod.mk.injEq, ]
    refine ⟨by simp; omega, by rw [List.replicate_succ]⟩

end K431
