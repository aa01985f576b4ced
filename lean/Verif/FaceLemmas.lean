import Verif.SpecSecrecy
import Verif.EncEnough

/-! # Helper lemmas: the letters of the keys do not influence what Encipher does -/

namespace K431
open Spec

/-- the same keys, with other letters -/
def SameFace : List Key → List Key → Prop := List.Forall₂ (fun k l => l = { k with runes := l.runes } ∧ l.runes.length = k.runes.length)

theorem SameFace.length {a b : List Key} (h : SameFace a b) : b.length = a.length := (List.Forall₂.length_eq h).symm

theorem SameFace.get {a b : List Key} (h : SameFace a b) {i : Nat} {k : Key} (hk : a[i]? = some k) :
    ∃ l, b[i]? = some l ∧ l = { k with runes := l.runes } ∧ l.runes.length = k.runes.length := by
  induction h generalizing i with
  | nil => simp at hk
  | cons hx _ ih =>
    cases i with
    | zero => simp at hk; subst hk; exact ⟨_, rfl, hx⟩
    | succ i => simpa using ih (by simpa using hk)

theorem SameFace.get_none {a b : List Key} (h : SameFace a b) {i : Nat} (hk : a[i]? = none) : b[i]? = none := by
  rw [List.getElem?_eq_none_iff] at hk ⊢
  rw [h.length]; exact hk

theorem SameFace.setUsed {a b : List Key} (h : SameFace a b) (i : Nat) (u : Bool) : SameFace (setUsed a i u) (setUsed b i u) := by
  unfold K431.setUsed
  induction h generalizing i with
  | nil => rw [List.modify_nil]; exact .nil
  | cons hx hs ih =>
    cases i with
    | zero =>
      simp only [List.modify_zero_cons]
      refine .cons ⟨?_, hx.2⟩ hs
      rw [hx.1]
    | succ i =>
      simp only [List.modify_succ_cons]
      exact .cons hx (ih i)

theorem findKeyFrom_face {U : Unicode} {g : Nat} {r : List Runes} {a b : List Key} (h : SameFace a b) :
    ∀ i, findKeyFrom U g r i a = findKeyFrom U g r i b := by
  induction h with
  | nil => intro i; rfl
  | @cons x y _ _ hx _ ih =>
    intro i
    have e1 : y.used = x.used := by rw [hx.1]
    have e2 : y.id = x.id := by rw [hx.1]
    have e3 : y.keepers = x.keepers := by rw [hx.1]
    simp only [findKeyFrom, Key.names, e1, e2, e3, ih]

theorem findKey_face {U : Unicode} {g : Nat} {r : List Runes} {a b : List Key} (h : SameFace a b) : findKey U g b r = findKey U g a r :=
  (findKeyFrom_face h 0).symm

theorem getKeyFrom_face {n : Runes} {a b : List Key} (h : SameFace a b) : ∀ i, getKeyFrom n i a = getKeyFrom n i b := by
  induction h with
  | nil => intro i; rfl
  | cons hx _ ih =>
    intro i
    simp only [getKeyFrom]
    rw [hx.1]
    simp only [ih]

theorem getKey_face {U : Unicode} {id : Runes} {a b : List Key} (h : SameFace a b) : getKey U b id = getKey U a id :=
  (getKeyFrom_face h 0).symm

theorem presetCheck_face {id : Runes} {a b : List Key} (h : SameFace a b) : presetCheck id b = presetCheck id a := by
  induction h with
  | nil => rfl
  | cons hx _ ih =>
    simp only [presetCheck]
    rw [hx.1]
    simp only [ih]

theorem keyLenAt_face {a b : List Key} (h : SameFace a b) (i : Nat) : keyLenAt b i = keyLenAt a i := by
  unfold keyLenAt
  rcases ha : a[i]? with _ | k
  · rw [h.get_none ha]
  · obtain ⟨l, hl, _, h2⟩ := h.get ha
    rw [hl]; exact h2

/-- a change of key -/
theorem nextChunk_face {U : Unicode} {g : Nat} {r : List Runes} {s s' : LoopState} {keys : List Key} {o : Outcome Unit} (hf : SameFace s.keys keys)
    (h : nextChunk U g r s = (o, s')) : ∃ keys', nextChunk U g r { s with keys := keys } = (o, { s' with keys := keys' }) ∧ SameFace s'.keys keys' := by
  unfold nextChunk at h ⊢
  simp only [findKey_face hf]
  rcases hk : findKey U g s.keys r with _ | j
  · rw [hk] at h
    simp only [Prod.mk.injEq] at h ⊢
    obtain ⟨rfl, rfl⟩ := h
    exact ⟨keys, ⟨rfl, rfl⟩, hf⟩
  · rw [hk] at h
    simp only at h ⊢
    rcases hj : s.keys[j]? with _ | k
    · rw [hj] at h
      rw [hf.get_none hj]
      simp only [Prod.mk.injEq] at h ⊢
      obtain ⟨rfl, rfl⟩ := h
      exact ⟨keys, ⟨rfl, rfl⟩, hf⟩
    · obtain ⟨l, hl, e1, _⟩ := hf.get hj
      rw [hj] at h
      rw [hl]
      simp only at h ⊢
      have hid : l.id = k.id := by rw [e1]
      rw [hid]
      rcases hc : changeKey s.st k.id.val s.cur.enc with ⟨st, enc⟩ | e | _
      · rw [hc] at h
        simp only [Prod.mk.injEq] at h ⊢
        obtain ⟨rfl, rfl⟩ := h
        exact ⟨_, ⟨rfl, rfl⟩, hf.setUsed j true⟩
      · rw [hc] at h
        simp only [Prod.mk.injEq] at h ⊢
        obtain ⟨rfl, rfl⟩ := h
        exact ⟨keys, ⟨rfl, rfl⟩, hf⟩
      · rw [hc] at h
        simp only [Prod.mk.injEq] at h ⊢
        obtain ⟨rfl, rfl⟩ := h
        exact ⟨keys, ⟨rfl, rfl⟩, hf⟩

theorem keyExhausted_face {g : Nat} {s : LoopState} {keys : List Key} (hf : SameFace s.keys keys) :
    keyExhausted g { s with keys := keys } = keyExhausted g s := by
  unfold keyExhausted
  simp only [keyLenAt_face hf]

theorem encLoop_face {U : Unicode} {g : Nat} {r : List Runes} : ∀ {text : Runes} {s s' : LoopState} {keys : List Key} {o : Outcome Unit},
    SameFace s.keys keys → encLoop U g r text s = (o, s') →
    ∃ keys', encLoop U g r text { s with keys := keys } = (o, { s' with keys := keys' }) ∧ SameFace s'.keys keys' := by
  intro text
  induction text with
  | nil =>
    intro s s' keys o hf h
    simp only [encLoop, Prod.mk.injEq] at h ⊢
    obtain ⟨rfl, rfl⟩ := h
    exact ⟨keys, ⟨rfl, rfl⟩, hf⟩
  | cons c cs ih =>
    intro s s' keys o hf h
    unfold encLoop at h ⊢
    simp only [keyExhausted_face hf]
    obtain ⟨o1, s1, h1⟩ : ∃ o1 s1, (if keyExhausted g s then nextChunk U g r s else (.ok (), s)) = (o1, s1) := ⟨_, _, rfl⟩
    obtain ⟨keys1, h2, hf1⟩ : ∃ keys1, (if keyExhausted g s then nextChunk U g r { s with keys := keys } else (.ok (), { s with keys := keys })) =
        (o1, { s1 with keys := keys1 }) ∧ SameFace s1.keys keys1 := by
      by_cases hx : keyExhausted g s = true
      · rw [if_pos hx] at h1 ⊢
        exact nextChunk_face hf h1
      · rw [if_neg hx] at h1 ⊢
        simp only [Prod.mk.injEq] at h1 ⊢
        obtain ⟨rfl, rfl⟩ := h1
        exact ⟨keys, ⟨rfl, rfl⟩, hf⟩
    rw [h1] at h
    rw [h2]
    rcases o1 with _ | e | _
    · simp only at h ⊢
      rcases he : encodeCharacter U s1.st c s1.cur.enc with ⟨st, enc⟩ | e | _
      · rw [he] at h
        simp only at h ⊢
        exact ih (s := { s1 with st := st, cur := { s1.cur with enc := enc } }) hf1 h
      · rw [he] at h
        simp only [Prod.mk.injEq] at h ⊢
        obtain ⟨rfl, rfl⟩ := h
        exact ⟨keys1, ⟨rfl, rfl⟩, hf1⟩
      · rw [he] at h
        simp only [Prod.mk.injEq] at h ⊢
        obtain ⟨rfl, rfl⟩ := h
        exact ⟨keys1, ⟨rfl, rfl⟩, hf1⟩
    · simp only [Prod.mk.injEq] at h ⊢
      obtain ⟨rfl, rfl⟩ := h
      exact ⟨keys1, ⟨rfl, rfl⟩, hf1⟩
    · simp only [Prod.mk.injEq] at h ⊢
      obtain ⟨rfl, rfl⟩ := h
      exact ⟨keys1, ⟨rfl, rfl⟩, hf1⟩

theorem enrichWithKey_face {U : Unicode} {f : Runes} {inst inst1 : Inst} {m m1 : Msg} {keys : List Key} {o : Outcome Unit} (hf : SameFace inst.keys keys)
    (h : enrichWithKey U f inst m = (o, inst1, m1)) :
    ∃ keys1, enrichWithKey U f { inst with keys := keys } m = (o, { inst1 with keys := keys1 }, m1) ∧ SameFace inst1.keys keys1 := by
  unfold enrichWithKey at h ⊢
  simp only [presetCheck_face hf, findKey_face hf] at h ⊢
  by_cases h1 : (withId f m).plainText.length = 0
  · rw [if_pos h1] at h ⊢
    simp only [Prod.mk.injEq] at h ⊢
    obtain ⟨rfl, rfl, rfl⟩ := h
    exact ⟨keys, ⟨rfl, rfl, rfl⟩, hf⟩
  rw [if_neg h1] at h ⊢
  by_cases h2 : (withId f m).keyId.val.length > 0
  · rw [if_pos h2] at h ⊢
    by_cases h3 : (withId f m).keyId.val.length ≠ inst.groupSize
    · rw [if_pos h3] at h ⊢
      simp only [Prod.mk.injEq] at h ⊢
      obtain ⟨rfl, rfl, rfl⟩ := h
      exact ⟨keys, ⟨rfl, rfl, rfl⟩, hf⟩
    · rw [if_neg h3] at h ⊢
      simp only [Prod.mk.injEq] at h ⊢
      obtain ⟨rfl, rfl, rfl⟩ := h
      exact ⟨keys, ⟨rfl, rfl, rfl⟩, hf⟩
  rw [if_neg h2] at h ⊢
  by_cases h4 : (withId f m).cipherText.length > 0
  · rw [if_pos h4] at h ⊢
    by_cases h3 : (withId f m).keyId.val.length ≠ inst.groupSize
    · rw [if_pos h3] at h ⊢
      simp only [Prod.mk.injEq] at h ⊢
      obtain ⟨rfl, rfl, rfl⟩ := h
      exact ⟨keys, ⟨rfl, rfl, rfl⟩, hf⟩
    · rw [if_neg h3] at h ⊢
      simp only [Prod.mk.injEq] at h ⊢
      obtain ⟨rfl, rfl, rfl⟩ := h
      exact ⟨keys, ⟨rfl, rfl, rfl⟩, hf⟩
  rw [if_neg h4] at h ⊢
  rcases hk : findKey U inst.groupSize inst.keys (withId f m).recipients with _ | j
  · rw [hk] at h
    simp only [Prod.mk.injEq] at h ⊢
    obtain ⟨rfl, rfl, rfl⟩ := h
    exact ⟨keys, ⟨rfl, rfl, rfl⟩, hf⟩
  · rw [hk] at h
    simp only at h ⊢
    rcases hj : inst.keys[j]? with _ | k
    · rw [hj] at h
      rw [hf.get_none hj]
      simp only [Prod.mk.injEq] at h ⊢
      obtain ⟨rfl, rfl, rfl⟩ := h
      exact ⟨keys, ⟨rfl, rfl, rfl⟩, hf⟩
    · obtain ⟨l, hl, e1, _⟩ := hf.get hj
      rw [hj] at h
      rw [hl]
      simp only [Prod.mk.injEq] at h ⊢
      obtain ⟨rfl, rfl, rfl⟩ := h
      exact ⟨_, ⟨rfl, rfl, by rw [e1]⟩, hf.setUsed j true⟩

theorem cipherChunk_enc {ks es out : Runes} (h : cipherChunk ks es = (.ok (), out)) : ∀ e ∈ es, IsLetter e := by
  obtain ⟨h1, h2, h3⟩ := (cipherChunk_ok _ _ _).1 h
  intro e he
  obtain ⟨i, hi, rfl⟩ := List.mem_iff_getElem.1 he
  exact (h3 i ks[i] es[i] out[i] (List.getElem?_eq_getElem _) (List.getElem?_eq_getElem _) (List.getElem?_eq_getElem _)).2.1

theorem cipherChunks_enc {keys : List Key} : ∀ {chs : List Chunk} {out : Runes}, cipherChunks keys chs = (.ok (), out) →
    ∀ ch ∈ chs, ∀ c ∈ ch.enc, IsLetter c := by
  intro chs
  induction chs with
  | nil => intro out _ ch hch; simp at hch
  | cons x xs ih =>
    intro out h ch hch
    have h' := h
    rw [← List.singleton_append, cipherChunks_append] at h'
    obtain ⟨o1, o2, h1, h2, _⟩ := h'
    rcases List.mem_cons.1 hch with rfl | hch
    · obtain ⟨k, _, _, h3⟩ := (cipherChunks_one _ _ _).1 h1
      exact cipherChunk_enc h3
    · exact ih h2 ch hch

/-- with keys that are as long and consist of letters, enciphering works as well -/
theorem cipherChunks_face {a b : List Key} (hf : SameFace a b) (hl : ∀ k ∈ b, ∀ c ∈ k.runes, IsLetter c) {chs : List Chunk} {out : Runes}
    (h : cipherChunks a chs = (.ok (), out)) : ∃ c, cipherChunks b chs = (.ok (), c) := by
  have hs := (cipherChunks_spec _ _ _ h).2.2
  have := (cipherChunks_total b hl chs (fun ch hch => by
    obtain ⟨k, hk, _⟩ := hs ch hch
    obtain ⟨l, hl, _⟩ := hf.get hk
    exact ⟨⟨l, hl⟩, cipherChunks_enc h ch hch⟩)).2 (fun ch hch => by
    obtain ⟨k, hk, hle⟩ := hs ch hch
    rw [keyLenAt_face hf]
    unfold keyLenAt
    rw [hk]; exact hle)
  exact ⟨_, Prod.ext this rfl⟩

/-- A successful Encipher with other letters: the same coded parts with the same keys. -/
theorem encipherT_face {U : Unicode} {noise : Nat → Rune} {f : Runes} {inst inst' : Inst} {m m' : Msg} {chunks : List Chunk} {keys : List Key}
    (hf : SameFace inst.keys keys) (hl : ∀ k ∈ keys, ∀ c ∈ k.runes, IsLetter c) (h : encipherT U noise f inst m = (.ok chunks, inst', m')) :
    ∃ keys' c, encipherT U noise f { inst with keys := keys } m = (.ok chunks, { inst' with keys := keys' }, { m' with cipherText := c }) ∧
      SameFace inst'.keys keys' ∧ cipherChunks keys chunks = (.ok (), c) := by
  unfold encipherT at h ⊢
  simp only [enrich_withId] at h ⊢
  rcases he : enrichWithKey U f inst m with ⟨u | e | _, inst1, m1⟩
  · obtain ⟨keys1, he2, hf1⟩ := enrichWithKey_face hf he
    rw [he] at h
    rw [he2]
    simp only [getKey_face hf1] at h ⊢
    rcases hk : getKey U inst1.keys m1.keyId.val with _ | i
    · rw [hk] at h; simp at h
    · rw [hk] at h
      simp only at h ⊢
      rcases hl2 : encLoop U inst1.groupSize m1.recipients m1.plainText ⟨inst1.keys, newState, [], ⟨[], i⟩⟩
        with ⟨u' | e' | _, s⟩
      · obtain ⟨keys2, hl3, hf2⟩ := encLoop_face hf1 hl2
        simp only at hl3
        rw [hl2] at h
        rw [hl3]
        simp only at h ⊢
        by_cases hg : inst1.groupSize = 0
        · rw [if_pos hg] at h; simp at h
        · rw [if_neg hg] at h ⊢
          generalize s.chunks ++ [{ s.cur with enc := (pad s.st (padCount inst1.groupSize (s.cur.enc.length + totalLength s.chunks)) s.cur.enc).2 }] = chs at h ⊢
          have hg' : inst.groupSize ≠ 0 := by rw [← enrich_groupSize he]; exact hg
          have hsm : SameMat keys2 keys := (encLoop_sameMat (loopOk_start _ _) hl3).trans (enrich_ok (inst := { inst with keys := keys }) hg' he2).2.sameMat
          rcases hc : cipherChunks s.keys chs with ⟨u2 | e2 | _, out⟩
          · obtain ⟨c, hc2⟩ := cipherChunks_face hf2 (by
              intro k hk c hc
              obtain ⟨j, hj⟩ := List.mem_iff_getElem?.1 hk
              obtain ⟨l, h1, h2⟩ := hsm.get hj
              exact hl l (List.mem_of_getElem? h1) c (by rw [Key.mat_runes h2]; exact hc)) hc
            rw [hc] at h
            rw [hc2]
            simp only [Prod.mk.injEq, Outcome.ok.injEq] at h ⊢
            obtain ⟨rfl, rfl, rfl⟩ := h
            exact ⟨keys2, c, ⟨rfl, rfl, rfl⟩, hf2, by rw [← cipherChunks_sameMat hsm]; exact hc2⟩
          · rw [hc] at h; simp at h
          · rw [hc] at h; simp at h
      · rw [hl2] at h; simp at h
      · rw [hl2] at h; simp at h
  · rw [he] at h; simp at h
  · rw [he] at h; simp at h

end K431
