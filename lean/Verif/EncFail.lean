import Verif.EncFacts

/-! # Helper lemmas: what a failing Encipher leaves behind -/

namespace K431
open Spec

/-- the key after the release, `marked` being the keys whose flag is cleared -/
def releasedKey (addr : Nat) (noise : Nat → Rune) (cleared : Prop) [Decidable cleared] (k : Key) : Key :=
  { k with id := k.id.wiped addr noise, used := if cleared then false else k.used }

theorem foldl_clear_get (cs : List Chunk) : ∀ (keys : List Key) (j : Nat),
    (cs.foldl (fun ks c => setUsed ks c.key false) keys)[j]? =
      (keys[j]?).map (fun k => if j ∈ keysOf cs then { k with used := false } else k) := by
  induction cs with
  | nil => intro keys j; rw [List.foldl_nil]; generalize keys[j]? = o; cases o <;> simp [keysOf]
  | cons c cs ih =>
    intro keys j
    rw [List.foldl_cons, ih, setUsed_get]
    generalize keys[j]? = o
    cases o with
    | none => rfl
    | some k =>
      have hk : keysOf (c :: cs) = c.key :: keysOf cs := rfl
      rw [hk]
      by_cases h : c.key = j
      · subst h
        by_cases h2 : c.key ∈ keysOf cs <;> simp [h2]
      · have : ¬ j = c.key := fun e => h e.symm
        by_cases h2 : j ∈ keysOf cs <;> simp [h, h2, this]

theorem wipeKeys_get (a : Nat) (noise : Nat → Rune) (keys : List Key) (j : Nat) :
    (wipeKeys a noise keys)[j]? = (keys[j]?).map (fun k => { k with id := k.id.wiped a noise }) := by
  simp [wipeKeys]

/-- The release, key by key: flags of the message key (index `i`) and of all chunk keys are cleared, the
array of the message's key id is overwritten. -/
theorem release_get {U : Unicode} {noise : Nat → Rune} {inst : Inst} {m : Msg} {s : LoopState} {ct : Runes} {i : Nat}
    (hne : m.keyId.val ≠ []) (hi : getKey U s.keys m.keyId.val = some i) (j : Nat) :
    (release U noise inst m s ct).1.keys[j]? =
      (s.keys[j]?).map (releasedKey m.keyId.addr noise (j = i ∨ j ∈ keysOf (s.chunks ++ [s.cur]))) := by
  have hl : m.keyId.val.length ≠ 0 := by simpa using hne
  simp only [release, markKeyUsed, hi, if_neg hl]
  rw [foldl_clear_get, setUsed_get, wipeKeys_get, setUsed_get]
  generalize s.keys[j]? = o
  cases o with
  | none => rfl
  | some k =>
    simp only [Option.map_some, releasedKey]
    have hk : keysOf (s.chunks ++ [s.cur]) = keysOf s.chunks ++ [s.cur.key] := by simp [keysOf]
    rw [hk]
    by_cases h1 : i = j
    · subst h1
      by_cases h2 : s.cur.key = i <;> by_cases h3 : i ∈ keysOf s.chunks <;> simp [h2, h3]
    · have h1' : ¬ j = i := fun e => h1 e.symm
      by_cases h2 : s.cur.key = j
      · subst h2
        by_cases h3 : s.cur.key ∈ keysOf s.chunks <;> simp [h3, h1]
      · have h2' : ¬ j = s.cur.key := fun e => h2 e.symm
        by_cases h3 : j ∈ keysOf s.chunks <;> simp [h3, h2, h2', h1, h1']

/-- Flags in the coding loop, whatever the first key's flag and however the loop ends. -/
theorem encLoop_touched {U : Unicode} {g : Nat} {r : List Runes} {text : Runes} {s s' : LoopState}
    {o : Outcome Unit} (hs : LoopOk s) (hch : s.chunks = []) (h : encLoop U g r text s = (o, s')) :
    SameMat s'.keys s.keys ∧
    (∀ j, j ∉ keysOf (s'.chunks ++ [s'.cur]) → usedAt s'.keys j = usedAt s.keys j) ∧
    (∀ j ∈ keysOf (s'.chunks ++ [s'.cur]), j = s.cur.key ∨ usedAt s.keys j = false) ∧
    (∀ j ∈ keysOf (s'.chunks ++ [s'.cur]), j = s.cur.key ∨ j < s'.keys.length) := by
  obtain ⟨_, d1, d2, _, hP, _⟩ := encLoop_inv (U := U) (g := g) (r := r)
    (fun _ a => SameMat a.keys s.keys ∧
      (∀ j, usedAt s.keys j = true → usedAt a.keys j = true) ∧
      (∀ j, j ∉ keysOf (a.chunks ++ [a.cur]) → usedAt a.keys j = usedAt s.keys j) ∧
      (∀ j ∈ keysOf (a.chunks ++ [a.cur]), j = s.cur.key ∨ usedAt s.keys j = false) ∧
      (∀ j ∈ keysOf (a.chunks ++ [a.cur]), j = s.cur.key ∨ j < a.keys.length))
    (by
      rintro d a b ⟨p0, p1, p2, p3, p4⟩ hok hn
      obtain ⟨j, k, hf, hk, rfl⟩ := nextChunk_ok hok hn
      obtain ⟨k', e1, e2, _⟩ := findKey_some hf
      rw [hk] at e1; cases e1
      have hj : j < a.keys.length := (List.getElem?_eq_some_iff.1 hk).1
      have hju : usedAt a.keys j = false := by simp [usedAt, hk, e2.1]
      have hkeys : ∀ enc, keysOf (a.chunks ++ [{ a.cur with enc := enc }] ++ [⟨[], j⟩]) =
          keysOf (a.chunks ++ [a.cur]) ++ [j] := by intro enc; simp [keysOf]
      simp only [hkeys]
      refine ⟨(setUsed_sameMat _ _ _).trans p0, ?_, ?_, ?_, ?_⟩
      · intro i hi
        rw [usedAt_setUsed hj]
        split
        · rfl
        · exact p1 i hi
      · intro i hi
        rw [List.mem_append, List.mem_singleton, not_or] at hi
        rw [usedAt_setUsed hj, if_neg (fun e => hi.2 e.symm)]
        exact p2 i hi.1
      · intro i hi
        rcases List.mem_append.1 hi with hi | hi
        · exact p3 i hi
        · rw [List.mem_singleton] at hi
          subst hi
          right
          rcases hu : usedAt s.keys i with _ | _
          · rfl
          · rw [p1 i hu] at hju; cases hju
      · intro i hi
        rw [setUsed_length]
        rcases List.mem_append.1 hi with hi | hi
        · exact p4 i hi
        · rw [List.mem_singleton] at hi
          subst hi
          exact .inr hj)
    (by
      rintro d a c t i ⟨p0, p1, p2, p3, p4⟩ _ _
      have hkeys : keysOf ((afterChar U a c t i).chunks ++ [(afterChar U a c t i).cur]) =
        keysOf (a.chunks ++ [a.cur]) := by simp [keysOf, afterChar]
      rw [hkeys]
      exact ⟨p0, p1, p2, p3, p4⟩)
    text [] s o s'
    ⟨SameMat.refl _, fun j h => h, fun j _ => rfl, by
      intro j hj; simp [keysOf, hch] at hj; exact .inl hj, by
      intro j hj; simp [keysOf, hch] at hj; exact .inl hj⟩ hs h
  exact ⟨hP.1, hP.2.2.1, hP.2.2.2⟩

/-- How `Encipher` can end without success: in `EnrichWithKey`; or later, by way of the release. -/
inductive EncFail (U : Unicode) (noise : Nat → Rune) (f : Runes) (inst : Inst) (m : Msg) (o : Outcome Unit) :
    Inst → Msg → Prop
  /-- no key, nothing changed but the message id -/
  | enrich : o ≠ .panic → (enrichWithKey U f inst m).1 = o → EncFail U noise f inst m o inst (withId f m)
  /-- the message key is not found again by its id -/
  | lost (inst1 : Inst) (m1 : Msg) : Enriched U inst (withId f m) inst1 m1 → getKey U inst1.keys m1.keyId.val = none →
      o = .err .keyNotFound → EncFail U noise f inst m o inst1 { m1 with cipherText := [] }
  /-- the coding loop fails -/
  | loop (inst1 : Inst) (m1 : Msg) (i : Nat) (s : LoopState) : Enriched U inst (withId f m) inst1 m1 →
      getKey U inst1.keys m1.keyId.val = some i →
      encLoop U inst.groupSize m1.recipients m1.plainText ⟨inst1.keys, newState, [], ⟨[], i⟩⟩ = (o, s) → o ≠ .ok () →
      EncFail U noise f inst m o (release U noise inst1 { m1 with cipherText := [] } s []).1
        (release U noise inst1 { m1 with cipherText := [] } s []).2
  /-- ciphering fails -/
  | cipher (inst1 : Inst) (m1 : Msg) (i : Nat) (s : LoopState) (cur : Chunk) (out : Runes) :
      Enriched U inst (withId f m) inst1 m1 →
      getKey U inst1.keys m1.keyId.val = some i →
      encLoop U inst.groupSize m1.recipients m1.plainText ⟨inst1.keys, newState, [], ⟨[], i⟩⟩ = (.ok (), s) →
      cur.key = s.cur.key → cur.enc = s.cur.enc ++
        List.replicate (padCount inst.groupSize (s.cur.enc.length + totalLength s.chunks)) 90 →
      cipherChunks s.keys (s.chunks ++ [cur]) = (o, out) → o ≠ .ok () →
      EncFail U noise f inst m o (release U noise inst1 { m1 with cipherText := [] }
          { s with chunks := s.chunks ++ [cur], cur := cur } out).1
        (release U noise inst1 { m1 with cipherText := [] } { s with chunks := s.chunks ++ [cur], cur := cur } out).2

theorem enrich_err {U : Unicode} {f : Runes} {inst inst1 : Inst} {m m1 : Msg} {o : Outcome Unit}
    (h : enrichWithKey U f inst m = (o, inst1, m1)) (ho : o ≠ .ok ()) : inst1 = inst ∧ m1 = withId f m := by
  unfold enrichWithKey at h
  simp only at h
  repeat' split at h
  all_goals
    simp only [Prod.mk.injEq] at h
    obtain ⟨h1, h2, h3⟩ := h
    first
    | exact ⟨h2.symm, h3.symm⟩
    | exact absurd h1.symm ho

theorem encipher_fail {U : Unicode} {noise : Nat → Rune} {f : Runes} {inst inst' : Inst} {m m' : Msg}
    {o : Outcome Unit} (hg : inst.groupSize ≠ 0) (h : encipher U noise f inst m = (o, inst', m')) (ho : o ≠ .ok ()) :
    EncFail U noise f inst m o inst' m' := by
  unfold encipher encipherT at h
  simp only [enrich_withId] at h
  rcases he : enrichWithKey U f inst m with ⟨u | e | _, inst1, m1⟩
  · rw [he] at h
    simp only at h
    have hgs := enrich_groupSize he
    obtain ⟨_, hen⟩ := enrich_ok hg he
    rcases hk : getKey U inst1.keys m1.keyId.val with _ | i
    · rw [hk] at h
      simp only [Prod.mk.injEq] at h
      obtain ⟨rfl, rfl, rfl⟩ := h
      exact .lost _ m1 hen hk rfl
    · rw [hk] at h
      simp only at h
      rw [hgs] at h
      rcases hel : encLoop U inst.groupSize m1.recipients m1.plainText ⟨inst1.keys, newState, [], ⟨[], i⟩⟩
        with ⟨u' | e' | _, s⟩
      · rw [hel] at h
        simp only at h
        rw [if_neg hg] at h
        rcases hcc : cipherChunks s.keys (s.chunks ++ [⟨
          (pad s.st (padCount inst.groupSize (s.cur.enc.length + totalLength s.chunks)) s.cur.enc).2, s.cur.key⟩])
          with ⟨u2 | e2 | _, out⟩
        · rw [hcc] at h
          simp only [Prod.mk.injEq] at h
          exact absurd h.1.symm ho
        · rw [hcc] at h
          simp only [Prod.mk.injEq] at h
          obtain ⟨rfl, rfl, rfl⟩ := h
          exact .cipher inst1 m1 i s _ out hen hk hel rfl (by rw [pad_eq]) hcc ho
        · rw [hcc] at h
          simp only [Prod.mk.injEq] at h
          obtain ⟨rfl, rfl, rfl⟩ := h
          exact .cipher inst1 m1 i s _ out hen hk hel rfl (by rw [pad_eq]) hcc ho
      · rw [hel] at h
        simp only [Prod.mk.injEq] at h
        obtain ⟨rfl, rfl, rfl⟩ := h
        exact .loop inst1 m1 i s hen hk hel ho
      · rw [hel] at h
        simp only [Prod.mk.injEq] at h
        obtain ⟨rfl, rfl, rfl⟩ := h
        exact .loop inst1 m1 i s hen hk hel ho
  · rw [he] at h
    simp only [Prod.mk.injEq] at h
    obtain ⟨rfl, rfl, rfl⟩ := h
    obtain ⟨rfl, rfl⟩ := enrich_err he (by simp)
    exact .enrich (by simp) (by rw [he])
  · exact absurd (by rw [he]) (enrich_not_panic U f inst m)

theorem cipherChunks_err (keys : List Key) : ∀ (chs : List Chunk) (o : Outcome Unit) (out : Runes),
    cipherChunks keys chs = (o, out) → (∀ ch ∈ chs, ∃ k, keys[ch.key]? = some k) →
    o = .ok () ∨ o = .err .keyTooShort ∨ o = .err .outOfRange := by
  have one : ∀ es ks o out, cipherChunk ks es = (o, out) → es.length ≤ ks.length → o = .ok () ∨ o = .err .outOfRange := by
    intro es
    induction es with
    | nil => intro ks o out h _; simp [cipherChunk] at h; exact .inl h.1.symm
    | cons e es ih =>
      intro ks o out h hl
      cases ks with
      | nil => simp at hl
      | cons k ks =>
        simp only [cipherChunk] at h
        rcases ht : trigraph k e with z | x | _
        · rw [ht] at h
          simp only [Prod.mk.injEq] at h
          rcases hc : cipherChunk ks es with ⟨o1, out1⟩
          rw [hc] at h
          rw [← h.1]
          exact ih ks _ _ hc (by simpa using hl)
        · rw [ht] at h
          simp only [Prod.mk.injEq] at h
          right
          rw [← h.1]
          unfold trigraph at ht
          split at ht
          · cases ht; rfl
          · cases ht
        · exact absurd ht (trigraph_not_panic _ _)
  intro chs
  induction chs with
  | nil => intro o out h _; simp [cipherChunks] at h; exact .inl h.1.symm
  | cons ch chs ih =>
    intro o out h hex
    obtain ⟨k, hk⟩ := hex ch (by simp)
    simp only [cipherChunks, hk] at h
    by_cases hl : ch.enc.length > k.runes.length
    · rw [if_pos hl] at h; simp at h; exact .inr (.inl h.1.symm)
    · rw [if_neg hl] at h
      rcases hc : cipherChunk k.runes ch.enc with ⟨o1, out1⟩
      rcases one _ _ _ _ hc (by omega) with rfl | rfl
      · rw [hc] at h
        simp only [Prod.mk.injEq] at h
        rcases hr : cipherChunks keys chs with ⟨o2, out2⟩
        rw [hr] at h
        rw [← h.1]
        exact ih _ _ hr (fun c hcm => hex c (by simp [hcm]))
      · rw [hc] at h
        simp only [Prod.mk.injEq] at h
        exact .inr (.inr h.1.symm)

end K431
