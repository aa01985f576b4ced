import Verif.EncFail

/-! # Helper lemmas: Encipher succeeds if there is enough key material -/

namespace K431
open Spec

/-- capacity of key number `j` -/
def capAt (g : Nat) (keys : List Key) (j : Nat) : Nat := keyLenAt keys j - g - 2

/-- capacity left: of the keys that can still be selected, and of the current one -/
def capLeft (g : Nat) (r : List Runes) (s : LoopState) : Nat :=
  available g r s.keys + (capAt g s.keys s.cur.key - s.cur.enc.length)

theorem available_setUsed (g : Nat) (r : List Runes) : ∀ (keys : List Key) (j : Nat) (k : Key), keys[j]? = some k →
    Selectable g r k → available g r (setUsed keys j true) + capacity g k = available g r keys := by
  intro keys
  induction keys with
  | nil => intro j k h; simp at h
  | cons x xs ih =>
    intro j k h hs
    cases j with
    | zero =>
      simp at h; subst h
      have h2 : ¬ Selectable g r { x with used := true } := by
        intro h; have := h.1; simp at this
      simp only [setUsed, List.modify_zero_cons, available, List.map_cons, List.sum_cons, if_pos hs, if_neg h2]
      omega
    | succ n =>
      simp at h
      have := ih n k h hs
      simp only [setUsed, List.modify_succ_cons, available, List.map_cons, List.sum_cons] at this ⊢
      omega

theorem available_pos (g : Nat) (r : List Runes) (keys : List Key) (h : 0 < available g r keys) :
    ∃ k ∈ keys, Selectable g r k := by
  induction keys with
  | nil => simp [available] at h
  | cons x xs ih =>
    by_cases hx : Selectable g r x
    · exact ⟨x, by simp, hx⟩
    · simp only [available, List.map_cons, List.sum_cons, if_neg hx, Nat.zero_add] at h
      obtain ⟨k, h1, h2⟩ := ih h
      exact ⟨k, by simp [h1], h2⟩

theorem findKey_of_selectable (U : Unicode) {g : Nat} {r : List Runes} {keys : List Key} (h : ∃ k ∈ keys, Selectable g r k) :
    ∃ i k, findKey U g keys r = some i ∧ keys[i]? = some k ∧ Selectable g r k := by
  rcases hf : findKey U g keys r with _ | i
  · obtain ⟨k, h1, h2⟩ := h
    exact absurd ((eligible_iff U g r k).2 h2) (findKey_none hf k h1)
  · obtain ⟨k, h1, h2, _⟩ := findKey_some hf
    exact ⟨i, k, rfl, h1, (eligible_iff U g r k).1 h2⟩

theorem keyExhausted_iff {g : Nat} {s : LoopState} (hs : LoopOk s) :
    keyExhausted g s = true ↔ capAt g s.keys s.cur.key ≤ s.cur.enc.length := by
  unfold keyExhausted capAt controlCharactersNeededToChangeKey
  rw [decide_eq_true_eq, hs.count]
  omega

theorem keyLenAt_setUsed (keys : List Key) (i j : Nat) (b : Bool) : keyLenAt (setUsed keys i b) j = keyLenAt keys j := by
  unfold keyLenAt
  rw [setUsed_get]
  rcases keys[j]? with _ | k
  · rfl
  · by_cases h : i = j <;> simp [h]

/-- A key change succeeds if there is capacity left, and keeps it. -/
theorem nextChunk_enough (U : Unicode) {g : Nat} {r : List Runes} {s : LoopState} (hs : LoopOk s)
    (hx : keyExhausted g s = true) (hc : 0 < capLeft g r s) :
    ∃ s' j k, nextChunk U g r s = (.ok (), s') ∧ capLeft g r s' = capLeft g r s ∧
      findKey U g s.keys r = some j ∧ s.keys[j]? = some k ∧ Selectable g r k ∧
      s' = { keys := setUsed s.keys j true, st := newState,
             chunks := s.chunks ++ [{ s.cur with enc := s.cur.enc ++ sw s.st.table 1 ++ [89] ++ k.id.val }],
             cur := ⟨[], j⟩ } := by
  have hle := (keyExhausted_iff hs).1 hx
  have hav : 0 < available g r s.keys := by unfold capLeft at hc; omega
  obtain ⟨j, k, hf, hk, hsel⟩ := findKey_of_selectable U (available_pos g r _ hav)
  rcases hn : nextChunk U g r s with ⟨o, s'⟩
  have ho : o = .ok () := by
    unfold nextChunk at hn
    rw [hf] at hn
    simp only at hn
    rw [hk] at hn
    simp only [changeKey, secondaryTable] at hn
    rw [gotoTable_some 1 (by decide) s.st hs.plain.tab] at hn
    by_cases ht : s.st.table = 1 <;> simp [ht] at hn <;> exact hn.1.symm
  subst ho
  obtain ⟨j', k', hf', hk', rfl⟩ := nextChunk_ok hs hn
  rw [hf] at hf'; cases hf'
  rw [hk] at hk'; cases hk'
  refine ⟨_, j, k, rfl, ?_, hf, hk, hsel, rfl⟩
  have h1 := available_setUsed g r s.keys j k hk hsel
  simp only [capLeft, capAt, keyLenAt_setUsed, List.length_nil]
  rw [keyLenAt_eq hk]
  unfold capacity at h1
  unfold capAt at hle
  omega

/-- What the loop does with one character. -/
theorem encLoop_cons (U : Unicode) {g : Nat} {r : List Runes} {s s1 : LoopState} {c : Rune} {cs : Runes} {t i : Nat}
    (hf : findInTables (U.toUpper c) 0 characterTables = some (t, i)) (hs1 : LoopOk s1)
    (h : (if keyExhausted g s then nextChunk U g r s else (.ok (), s)) = (.ok (), s1)) :
    encLoop U g r (c :: cs) s = encLoop U g r cs (afterChar U s1 c t i) := by
  simp only [encLoop]
  rw [h]
  simp only
  rw [encodeCharacter_eq U s1.st hs1.plain.b hs1.plain.tab, hf]
  rfl

/-- The loop succeeds on text over the legend if there are four letters of capacity per character. -/
theorem encLoop_enough {U : Unicode} (hU : U.Lawful) {g : Nat} {r : List Runes} : ∀ (text : Runes) (s : LoopState),
    LoopOk s → (∀ c ∈ text, c ∈ alphabet) → 4 * text.length ≤ capLeft g r s → (encLoop U g r text s).1 = .ok () := by
  intro text
  induction text with
  | nil => intro s _ _ _; rfl
  | cons c cs ih =>
    intro s hs hc hm
    obtain ⟨t, i, hf⟩ := findInTables_of_alphabet U hU c (hc c (by simp))
    have hcs : ∀ c ∈ cs, c ∈ alphabet := fun x hx => hc x (by simp [hx])
    rw [List.length_cons] at hm
    have hafter : ∀ a : LoopState, capLeft g r a ≤ capLeft g r (afterChar U a c t i) + 4 := by
      intro a
      have := (word_length U a.st.table a.st.shift c t i).2
      simp only [capLeft, afterChar, List.length_append]
      omega
    by_cases hx : keyExhausted g s = true
    · obtain ⟨s1, _, _, h1, h2, _⟩ := nextChunk_enough U hs hx (by omega : 0 < capLeft g r s)
      rw [encLoop_cons U hf (hs.next h1) (by rw [if_pos hx]; exact h1)]
      exact ih _ ((hs.next h1).char hf) hcs (by have := hafter s1; omega)
    · rw [encLoop_cons U hf hs (by rw [if_neg hx])]
      exact ih _ (hs.char hf) hcs (by have := hafter s; omega)

/-- coding a character of the first table -/
theorem word_first {U : Unicode} (hU : U.Lawful) {c : Rune} (hc : c ∈ firstTable) :
    ∃ i, findInTables (U.toUpper c) 0 characterTables = some (0, i) ∧ needsToggle U false c = false := by
  have h1 : ∀ x ∈ firstTable, (x ∈ capitals ∨ x ∈ neutrals) ∧
      ((findInTables x 0 characterTables).map Prod.fst = some 0) := by decide
  obtain ⟨h2, h3⟩ := h1 c hc
  have h4 : U.toUpper c = c ∧ U.isLower c = false := by
    rcases h2 with h | h
    · exact ⟨(hU.capital c h).2.2.1, (hU.capital c h).2.1⟩
    · exact ⟨(hU.neutral c h).2.2.1, (hU.neutral c h).2.1⟩
  rw [h4.1]
  rcases hf : findInTables c 0 characterTables with _ | ⟨t, i⟩
  · rw [hf] at h3; cases h3
  · rw [hf] at h3
    simp at h3; subst h3
    exact ⟨i, rfl, by simp [needsToggle, h4.2]⟩

/-- State of the loop on text of the first table. -/
structure FirstInv (g : Nat) (r : List Runes) (s : LoopState) : Prop where
  ok : LoopOk s
  table : s.st.table = 0
  shift : s.st.shift = false
  long : ∀ k ∈ s.keys, Selectable g r k → g + 3 ≤ k.runes.length
  curLong : g + 3 ≤ keyLenAt s.keys s.cur.key
  cur : s.cur.enc.length ≤ capAt g s.keys s.cur.key
  fits : ∀ ch ∈ s.chunks, ch.enc.length ≤ keyLenAt s.keys ch.key

theorem FirstInv.char {U : Unicode} {g : Nat} {r : List Runes} {s : LoopState} {c : Rune} {i : Nat}
    (h : FirstInv g r s) (hlt : s.cur.enc.length < capAt g s.keys s.cur.key)
    (hf : findInTables (U.toUpper c) 0 characterTables = some (0, i)) (hn : needsToggle U false c = false) :
    FirstInv g r (afterChar U s c 0 i) ∧ capLeft g r (afterChar U s c 0 i) + 1 = capLeft g r s := by
  have hw : (word U s.st.table s.st.shift c 0 i).length = 1 := by
    rw [h.table, h.shift]; simp [word, hn, sw]
  refine ⟨⟨h.ok.char hf, rfl, by simp [afterChar, h.shift, hn], h.long, h.curLong, ?_, h.fits⟩, ?_⟩
  · simp only [afterChar, List.length_append, hw]; omega
  · simp only [capLeft, afterChar, List.length_append, hw]; omega

theorem encLoop_first {U : Unicode} (hU : U.Lawful) {g : Nat} {r : List Runes} : ∀ (text : Runes) (s : LoopState),
    FirstInv g r s → (∀ c ∈ text, c ∈ firstTable) → text.length ≤ capLeft g r s →
    ∃ s', encLoop U g r text s = (.ok (), s') ∧ FirstInv g r s' := by
  intro text
  induction text with
  | nil => intro s h _ _; exact ⟨s, rfl, h⟩
  | cons c cs ih =>
    intro s hs hc hm
    obtain ⟨i, hf, hn⟩ := word_first hU (hc c (by simp))
    have hcs : ∀ c ∈ cs, c ∈ firstTable := fun x hx => hc x (by simp [hx])
    rw [List.length_cons] at hm
    by_cases hx : keyExhausted g s = true
    · obtain ⟨s1, j, k, h1, h2, _, hk, hsel, h3⟩ := nextChunk_enough U hs.ok hx (by omega : 0 < capLeft g r s)
      rw [encLoop_cons U hf (hs.ok.next h1) (by rw [if_pos hx]; exact h1)]
      have hlong := hs.long k (List.mem_of_getElem? hk) hsel
      have hcap : capAt g s1.keys s1.cur.key = k.runes.length - g - 2 := by
        rw [h3]; simp only [capAt, keyLenAt_setUsed, keyLenAt_eq hk]
      have hs1 : FirstInv g r s1 := by
        refine ⟨hs.ok.next h1, by rw [h3]; rfl, by rw [h3]; rfl, ?_, ?_, ?_, ?_⟩
        · intro k' hk' hs'
          rw [h3] at hk'
          obtain ⟨p, hp⟩ := List.mem_iff_getElem?.1 hk'
          simp only [setUsed_get] at hp
          rcases hq : s.keys[p]? with _ | k0
          · rw [hq] at hp; cases hp
          · rw [hq] at hp
            simp only [Option.map_some, Option.some.injEq] at hp
            by_cases hjp : j = p
            · rw [if_pos hjp] at hp
              subst hp
              exact absurd hs'.1 (by simp)
            · rw [if_neg hjp] at hp
              subst hp
              exact hs.long k0 (List.mem_of_getElem? hq) hs'
        · rw [h3]; simp only [keyLenAt_setUsed, keyLenAt_eq hk]; exact hlong
        · rw [h3]; simp
        · intro ch hch
          rw [h3] at hch ⊢
          simp only [keyLenAt_setUsed]
          rcases List.mem_append.1 hch with hch | hch
          · exact hs.fits ch hch
          · rw [List.mem_singleton] at hch
            subst hch
            have := hs.cur
            have := hs.curLong
            have := hsel.2.1
            simp only [List.length_append, List.length_singleton, hs.table, sw, capAt] at *
            simp
            omega
      obtain ⟨h4, h5⟩ := hs1.char (U := U) (by rw [hcap, h3]; simp; omega) hf hn
      exact ih _ h4 hcs (by omega)
    · rw [encLoop_cons U hf hs.ok (by rw [if_neg hx])]
      rw [keyExhausted_iff hs.ok] at hx
      obtain ⟨h4, h5⟩ := hs.char (U := U) (by omega) hf hn
      exact ih _ h4 hcs (by omega)

/-- All coded text is letters. -/
theorem encLoop_letters {U : Unicode} {g : Nat} {r : List Runes} {text : Runes} {s s' : LoopState} {o : Outcome Unit}
    (hs : LoopOk s) (hids : ∀ k ∈ s.keys, ∀ c ∈ k.id.val, IsLetter c)
    (h0 : s.chunks = [] ∧ s.cur.enc = []) (h : encLoop U g r text s = (o, s')) :
    ∀ ch ∈ s'.chunks ++ [s'.cur], ∀ c ∈ ch.enc, IsLetter c := by
  obtain ⟨_, d1, d2, _, hP, _⟩ := encLoop_inv (U := U) (g := g) (r := r)
    (fun _ a => SameMat a.keys s.keys ∧ ∀ ch ∈ a.chunks ++ [a.cur], ∀ c ∈ ch.enc, IsLetter c)
    (by
      rintro d a b ⟨p0, p1⟩ hok hn
      obtain ⟨j, k, hf, hk, rfl⟩ := nextChunk_ok hok hn
      refine ⟨(setUsed_sameMat _ _ _).trans p0, ?_⟩
      intro ch hch c hc
      simp only [List.append_assoc, List.mem_append, List.mem_singleton] at hch
      rcases hch with hch | rfl | rfl
      · exact p1 ch (by simp [hch]) c hc
      · simp only [List.mem_append, List.mem_singleton] at hc
        rcases hc with hc | hc | rfl | hc
        · exact p1 a.cur (by simp) c hc
        · exact sw_letters _ _ c hc
        · decide
        · obtain ⟨k', hk', hm⟩ := p0.get hk
          rw [← Key.mat_id hm] at hc
          exact hids k' (List.mem_of_getElem? hk') c hc
      · cases hc)
    (by
      rintro d a c t i ⟨p0, p1⟩ _ hf
      refine ⟨p0, ?_⟩
      intro ch hch x hx
      simp only [afterChar, List.mem_append, List.mem_singleton] at hch
      rcases hch with hch | rfl
      · exact p1 ch (by simp [hch]) x hx
      · simp only [List.mem_append] at hx
        rcases hx with hx | hx
        · exact p1 a.cur (by simp) x hx
        · have hi : i < 26 := by
            obtain ⟨h1, _⟩ := findInTables_spec _ _ _ hf
            rcases h1 with ⟨_, h⟩ | ⟨_, h⟩ <;> exact (List.getElem?_eq_some_iff.1 h).1
          exact word_letters _ _ _ _ _ _ hi x hx)
    text [] s o s' ⟨SameMat.refl _, by rw [h0.1]; simp [h0.2]⟩ hs h
  exact hP.2

/-- Ciphering letters with keys of letters fails only for lack of key letters. -/
theorem cipherChunks_total (keys : List Key) (hkeys : ∀ k ∈ keys, ∀ c ∈ k.runes, IsLetter c) :
    ∀ (chs : List Chunk), (∀ ch ∈ chs, (∃ k, keys[ch.key]? = some k) ∧ ∀ c ∈ ch.enc, IsLetter c) →
    ((cipherChunks keys chs).1 = .ok () ∨ (cipherChunks keys chs).1 = .err .keyTooShort) ∧
    ((∀ ch ∈ chs, ch.enc.length ≤ keyLenAt keys ch.key) → (cipherChunks keys chs).1 = .ok ()) := by
  have one : ∀ es ks : Runes, (∀ c ∈ es, IsLetter c) → (∀ c ∈ ks, IsLetter c) → es.length ≤ ks.length →
      (cipherChunk ks es).1 = .ok () := by
    intro es
    induction es with
    | nil => intro ks _ _ _; simp [cipherChunk]
    | cons e es ih =>
      intro ks he hk hl
      cases ks with
      | nil => simp at hl
      | cons k ks =>
        have : ∃ z, trigraph k e = .ok z := by
          unfold trigraph
          have h1 := hk k (by simp)
          have h2 := he e (by simp)
          have h3 : trigraphOutOfRange k e = false := by
            unfold IsLetter at h1 h2
            simp [trigraphOutOfRange]; omega
          rw [h3]; exact ⟨_, rfl⟩
        obtain ⟨z, hz⟩ := this
        simp only [cipherChunk, hz]
        exact ih ks (fun c h => he c (by simp [h])) (fun c h => hk c (by simp [h])) (by simpa using hl)
  intro chs
  induction chs with
  | nil => intro _; exact ⟨.inl rfl, fun _ => rfl⟩
  | cons ch chs ih =>
    intro h
    obtain ⟨⟨k, hk⟩, hl⟩ := h ch (by simp)
    obtain ⟨i1, i2⟩ := ih (fun c hc => h c (by simp [hc]))
    simp only [cipherChunks, hk]
    by_cases hlen : ch.enc.length > k.runes.length
    · rw [if_pos hlen]
      refine ⟨.inr rfl, fun hf => ?_⟩
      have := hf ch (by simp)
      rw [keyLenAt_eq hk] at this; omega
    · rw [if_neg hlen]
      have h1 := one ch.enc k.runes hl (hkeys k (List.mem_of_getElem? hk)) (by omega)
      rcases hc : cipherChunk k.runes ch.enc with ⟨o, out⟩
      rw [hc] at h1
      subst h1
      exact ⟨i1, fun hf => i2 (fun c hcm => hf c (by simp [hcm]))⟩

/-- A single key with room for four letters per character is enough. -/
theorem encLoop_single {U : Unicode} (hU : U.Lawful) {g : Nat} {r : List Runes} : ∀ (text : Runes) (s : LoopState),
    LoopOk s → (∀ c ∈ text, c ∈ alphabet) → s.cur.enc.length + 4 * text.length ≤ capAt g s.keys s.cur.key →
    ∃ s', encLoop U g r text s = (.ok (), s') ∧ s'.chunks = s.chunks ∧ s'.keys = s.keys ∧ s'.cur.key = s.cur.key ∧
      s'.cur.enc.length ≤ capAt g s.keys s.cur.key := by
  intro text
  induction text with
  | nil => intro s _ _ hm; exact ⟨s, rfl, rfl, rfl, rfl, by simpa using hm⟩
  | cons c cs ih =>
    intro s hs hc hm
    obtain ⟨t, i, hf⟩ := findInTables_of_alphabet U hU c (hc c (by simp))
    have hcs : ∀ c ∈ cs, c ∈ alphabet := fun x hx => hc x (by simp [hx])
    rw [List.length_cons] at hm
    have hx : ¬ keyExhausted g s = true := by rw [keyExhausted_iff hs]; omega
    rw [encLoop_cons U hf hs (by rw [if_neg hx])]
    have := (word_length U s.st.table s.st.shift c t i).2
    exact ih _ (hs.char hf) hcs (by simp only [afterChar, List.length_append]; omega)

/-- The ways to fail on a message without key id and ciphertext while a key is available. -/
theorem encipher_fail_auto {U : Unicode} (hU : U.Lawful) {noise : Nat → Rune} {f : Runes} {inst inst' : Inst} {m m' : Msg}
    {o : Outcome Unit} (hg : inst.groupSize ≠ 0) (hwf : WellFormed inst.keys)
    (hp : m.plainText ≠ []) (hid : m.keyId.val = []) (hct : m.cipherText = [])
    (hav : ∃ k ∈ inst.keys, Selectable inst.groupSize m.recipients k)
    (h : encipher U noise f inst m = (o, inst', m')) (ho : o ≠ .ok ()) :
    ∃ i k s0, s0 = (⟨setUsed inst.keys i true, newState, [], ⟨[], i⟩⟩ : LoopState) ∧ inst.keys[i]? = some k ∧
      Selectable inst.groupSize m.recipients k ∧
      ∃ s, encLoop U inst.groupSize m.recipients m.plainText s0 = (o, s) ∨
        (encLoop U inst.groupSize m.recipients m.plainText s0 = (.ok (), s) ∧ ∃ cur out, cur.key = s.cur.key ∧
          cur.enc = s.cur.enc ++ List.replicate (padCount inst.groupSize (s.cur.enc.length + totalLength s.chunks)) 90 ∧
          cipherChunks s.keys (s.chunks ++ [cur]) = (o, out)) := by
  obtain ⟨w1, w2, w3, w4⟩ := withId_fields f m
  obtain ⟨i, k, hf, hk, hsel⟩ := findKey_of_selectable U hav
  have hf' : findKey U inst.groupSize inst.keys (withId f m).recipients = some i := by rw [w2]; exact hf
  have hgk : getKey U (setUsed inst.keys i true) k.id.val = some i := by
    rw [getKey_congr U _ (setUsed_sameMat _ _ _).ids]; exact hwf.getKey hU hk
  have hen : ∀ inst1 m1, Enriched U inst (withId f m) inst1 m1 →
      inst1 = { inst with keys := setUsed inst.keys i true } ∧ m1 = { withId f m with keyId := k.id } := by
    intro inst1 m1 hen
    cases hen with
    | preset _ _ h1 => exact absurd (by rw [w3]; exact hid) h1
    | auto i' k' _ _ h3 h4 =>
      rw [hf'] at h3; cases h3
      rw [hk] at h4; cases h4
      exact ⟨rfl, rfl⟩
  refine ⟨i, k, _, rfl, hk, hsel, ?_⟩
  have hfail := encipher_fail hg h ho
  cases hfail with
  | enrich _ he =>
    exfalso
    apply ho
    rw [← he]
    unfold enrichWithKey
    simp only
    rw [if_neg (by rw [w1]; simpa using hp), if_neg (by rw [w3, hid]; simp), if_neg (by rw [w4, hct]; simp), hf']
    simp only [hk]
  | lost inst1 m1 he hnone _ =>
    obtain ⟨rfl, rfl⟩ := hen _ _ he
    simp only [hgk] at hnone
    cases hnone
  | loop inst1 m1 i1 s he hgk1 hel _ =>
    obtain ⟨rfl, rfl⟩ := hen _ _ he
    simp only [hgk, Option.some.injEq] at hgk1
    subst hgk1
    simp only [w1, w2] at hel
    exact ⟨s, .inl hel⟩
  | cipher inst1 m1 i1 s cur out he hgk1 hel hck hce hcc _ =>
    obtain ⟨rfl, rfl⟩ := hen _ _ he
    simp only [hgk, Option.some.injEq] at hgk1
    subst hgk1
    simp only [w1, w2] at hel
    exact ⟨s, .inr ⟨hel, cur, out, hck, hce, hcc⟩⟩

/-- What is needed of the chunks to apply `cipherChunks_total`. -/
theorem chunks_ready {U : Unicode} {g : Nat} {r : List Runes} {text : Runes} {keys : List Key} {i : Nat} {b : Bool}
    {s : LoopState} {cur : Chunk} {n : Nat} (hids : ∀ k ∈ keys, ∀ c ∈ k.id.val, IsLetter c)
    (hkeys : ∀ k ∈ keys, ∀ c ∈ k.runes, IsLetter c) (hi : i < keys.length)
    (h : encLoop U g r text ⟨setUsed keys i b, newState, [], ⟨[], i⟩⟩ = (.ok (), s))
    (hck : cur.key = s.cur.key) (hce : cur.enc = s.cur.enc ++ List.replicate n 90) :
    SameMat s.keys keys ∧ (∀ k ∈ s.keys, ∀ c ∈ k.runes, IsLetter c) ∧
    ∀ ch ∈ s.chunks ++ [cur], (∃ k, s.keys[ch.key]? = some k) ∧ ∀ c ∈ ch.enc, IsLetter c := by
  have hsm0 := setUsed_sameMat keys i b
  obtain ⟨t1, _, _, t4⟩ := encLoop_touched (loopOk_start _ _) rfl h
  have hsm : SameMat s.keys keys := t1.trans hsm0
  have hlet := encLoop_letters (loopOk_start _ _) (by
    intro k hk c hc
    obtain ⟨p, hp⟩ := List.mem_iff_getElem?.1 hk
    obtain ⟨k', hk', hm⟩ := hsm0.get hp
    rw [← Key.mat_id hm] at hc
    exact hids k' (List.mem_of_getElem? hk') c hc) ⟨rfl, rfl⟩ h
  refine ⟨hsm, ?_, ?_⟩
  · intro k hk c hc
    obtain ⟨p, hp⟩ := List.mem_iff_getElem?.1 hk
    obtain ⟨k', hk', hm⟩ := hsm.get hp
    rw [← Key.mat_runes hm] at hc
    exact hkeys k' (List.mem_of_getElem? hk') c hc
  · intro ch hch
    constructor
    · have hj : ch.key ∈ keysOf (s.chunks ++ [s.cur]) := by
        have : ch.key ∈ keysOf (s.chunks ++ [cur]) := List.mem_map_of_mem hch
        simpa [keysOf, hck] using this
      have hlt : ch.key < s.keys.length := by
        rcases t4 ch.key hj with h | h
        · rw [h, hsm.length]; exact hi
        · exact h
      exact ⟨_, List.getElem?_eq_getElem hlt⟩
    · rcases List.mem_append.1 hch with hch | hch
      · exact hlet ch (by simp [hch])
      · rw [List.mem_singleton] at hch; subst hch
        intro c hc
        rw [hce] at hc
        rcases List.mem_append.1 hc with hc | hc
        · exact hlet s.cur (by simp) c hc
        · rw [List.eq_of_mem_replicate hc]; decide

theorem capLeft_start {g : Nat} {r : List Runes} {keys : List Key} {i : Nat} {k : Key} (hk : keys[i]? = some k)
    (hs : Selectable g r k) : capLeft g r ⟨setUsed keys i true, newState, [], ⟨[], i⟩⟩ = available g r keys := by
  have := available_setUsed g r keys i k hk hs
  simp only [capLeft, capAt, keyLenAt_setUsed, List.length_nil]
  rw [keyLenAt_eq hk]
  unfold capacity at this
  omega

end K431
