import Verif.EncEnough

/-!
# Helper lemmas: how many letters and keys the coding loop takes
-/

namespace K431
open Spec

theorem sw_le (a b : Nat) : (sw a b).length ≤ 1 := by
  have := sw_length a b
  omega

theorem nextChunk_adds {U : Unicode} {g : Nat} {r : List Runes} {s s' : LoopState} (hs : LoopOk s) (h : nextChunk U g r s = (.ok (), s')) :
    totalLength s'.chunks + s'.cur.enc.length ≤ totalLength s.chunks + s.cur.enc.length + (g + 2) ∧ s'.chunks.length = s.chunks.length + 1 ∧ s'.cur.enc = [] := by
  obtain ⟨j, k, hf, hk, rfl⟩ := nextChunk_ok hs h
  obtain ⟨k', a, b, -⟩ := findKey_some hf
  rw [hk] at a; cases a
  have h1 := b.2.1
  have h2 := sw_le s.st.table 1
  simp only [totalLength_append, List.length_append, List.length_singleton]
  simp only [totalLength, List.map_cons, List.map_nil, List.foldr_cons, List.foldr_nil, List.length_append, List.length_singleton, List.length_nil]
  refine ⟨?_, ?_, trivial⟩
  · omega
  · trivial

/-- what the loop adds, if a character takes at most `n` letters and the keys have at least `len` letters -/
theorem encLoop_adds {U : Unicode} {g : Nat} {r : List Runes} (n len : Nat) (P : LoopState → Prop) (hnext : ∀ s s', P s → LoopOk s → nextChunk U g r s = (.ok (), s') → P s')
    (hlen : ∀ s, P s → len ≤ keyLenAt s.keys s.cur.key) (Q : Rune → Prop)
    (hchar : ∀ s c t i, P s → LoopOk s → Q c → findInTables (U.toUpper c) 0 characterTables = some (t, i) →
      P (afterChar U s c t i) ∧ (word U s.st.table s.st.shift c t i).length ≤ n) :
    ∀ (text : Runes) (s s' : LoopState), LoopOk s → P s → (∀ c ∈ text, Q c) → encLoop U g r text s = (.ok (), s') →
      ∃ d, s'.chunks.length = s.chunks.length + d ∧ d ≤ text.length ∧
        totalLength s'.chunks + s'.cur.enc.length ≤ totalLength s.chunks + s.cur.enc.length + n * text.length + d * (g + 2) ∧
        d * (len - g - 2) + s'.cur.enc.length ≤ s.cur.enc.length + n * text.length ∧ (text ≠ [] → s'.cur.enc ≠ []) := by
  intro text
  induction text with
  | nil =>
    intro s s' _ _ _ h
    simp only [encLoop, Prod.mk.injEq, true_and] at h
    subst h
    exact ⟨0, by simp, by simp, by simp, by simp, fun h => absurd rfl h⟩
  | cons c cs ih =>
    intro s s' hs hP hQ h
    simp only [encLoop] at h
    have main : ∀ s1, LoopOk s1 → P s1 →
        (match encodeCharacter U s1.st c s1.cur.enc with
          | .err e => ((.err e, s1) : Outcome Unit × LoopState)
          | .panic => (.panic, s1)
          | .ok (st, enc) => encLoop U g r cs { s1 with st := st, cur := { s1.cur with enc := enc } }) = (.ok (), s') →
        ∃ d, s'.chunks.length = s1.chunks.length + d ∧ d ≤ cs.length ∧
          totalLength s'.chunks + s'.cur.enc.length ≤ totalLength s1.chunks + s1.cur.enc.length + n * cs.length + n + d * (g + 2) ∧
          d * (len - g - 2) + s'.cur.enc.length ≤ s1.cur.enc.length + n * cs.length + n ∧ s'.cur.enc ≠ [] := by
      intro s1 hs1 hP1 h1
      rw [encodeCharacter_eq U s1.st hs1.plain.b hs1.plain.tab] at h1
      rcases hf : findInTables (U.toUpper c) 0 characterTables with _ | ⟨t, i⟩
      · rw [hf] at h1; simp at h1
      · rw [hf] at h1
        simp only at h1
        obtain ⟨p1, p2⟩ := hchar s1 c t i hP1 hs1 (hQ c (by simp)) hf
        obtain ⟨d, e1, e2, e3, e4, e5⟩ := ih (afterChar U s1 c t i) s' (hs1.char hf) p1 (fun x hx => hQ x (by simp [hx])) h1
        refine ⟨d, e1, e2, ?_, ?_, ?_⟩
        · simp only [afterChar, List.length_append] at e3
          omega
        · simp only [afterChar, List.length_append] at e4
          omega
        · by_cases hcs : cs = []
          · subst hcs
            have h1 : encLoop U g r [] (afterChar U s1 c t i) = (.ok (), s') := h1
            simp only [encLoop, Prod.mk.injEq, true_and] at h1
            subst h1
            have := (word_length U s1.st.table s1.st.shift c t i).1
            intro h0
            have h0 := congrArg List.length h0
            simp only [afterChar, List.length_append, List.length_nil] at h0
            omega
          · exact e5 hcs
    by_cases hx : keyExhausted g s = true
    · have hex := (keyExhausted_iff hs).1 hx
      have hl := hlen s hP
      unfold capAt at hex
      rw [if_pos hx] at h
      rcases hn : nextChunk U g r s with ⟨o1, s1⟩
      rw [hn] at h
      rcases o1 with u | e | _
      · obtain ⟨a1, a2, a3⟩ := nextChunk_adds hs hn
        obtain ⟨d, e1, e2, e3, e4, e5⟩ := main s1 (hs.next hn) (hnext s s1 hP hs hn) h
        refine ⟨d + 1, by omega, by simp; omega, ?_, ?_, fun _ => e5⟩
        · rw [List.length_cons, Nat.mul_add, Nat.add_mul]
          omega
        · rw [a3, List.length_nil] at e4
          rw [List.length_cons, Nat.mul_add, Nat.add_mul]
          omega
      · simp at h
      · simp at h
    · rw [if_neg hx] at h
      obtain ⟨d, e1, e2, e3, e4, e5⟩ := main s hs hP h
      refine ⟨d, e1, by simp; omega, ?_, ?_, fun _ => e5⟩
      · rw [List.length_cons, Nat.mul_add]
        omega
      · rw [List.length_cons, Nat.mul_add]
        omega

/-- the keys that can be selected, and the current one, have at least `len` letters -/
structure LongKeys (g : Nat) (r : List Runes) (len : Nat) (s : LoopState) : Prop where
  keys : ∀ k ∈ s.keys, Selectable g r k → len ≤ k.runes.length
  cur : len ≤ keyLenAt s.keys s.cur.key

theorem longKeys_setUsed {g : Nat} {r : List Runes} {len : Nat} {keys : List Key} (j : Nat) (h : ∀ k ∈ keys, Selectable g r k → len ≤ k.runes.length) :
    ∀ k ∈ setUsed keys j true, Selectable g r k → len ≤ k.runes.length := by
  intro k' hk' hs'
  obtain ⟨p, hp⟩ := List.mem_iff_getElem?.1 hk'
  simp only [setUsed_get] at hp
  rcases hq : keys[p]? with _ | k0
  · rw [hq] at hp; cases hp
  · rw [hq] at hp
    simp only [Option.map_some, Option.some.injEq] at hp
    by_cases hjp : j = p
    · rw [if_pos hjp] at hp
      subst hp
      exact absurd hs'.1 (by simp)
    · rw [if_neg hjp] at hp
      subst hp
      exact h k0 (List.mem_of_getElem? hq) hs'

theorem LongKeys.next {U : Unicode} {g : Nat} {r : List Runes} {len : Nat} {s s' : LoopState} (h : LongKeys g r len s) (hs : LoopOk s) (hn : nextChunk U g r s = (.ok (), s')) :
    LongKeys g r len s' := by
  obtain ⟨j, k, hf, hk, rfl⟩ := nextChunk_ok hs hn
  obtain ⟨k', a, b, -⟩ := findKey_some hf
  rw [hk] at a; cases a
  refine ⟨longKeys_setUsed j h.keys, ?_⟩
  simp only [keyLenAt_setUsed, keyLenAt_eq hk]
  exact h.keys k (List.mem_of_getElem? hk) ((eligible_iff U g r k).1 b)

theorem encLoop_bounds {U : Unicode} (hU : U.Lawful) {g : Nat} {r : List Runes} {len n : Nat} {text : Runes} {s s' : LoopState} (hs : LoopOk s) (hlong : LongKeys g r len s)
    (hstart : s.st = newState ∧ s.chunks = [] ∧ s.cur.enc = []) (hn : n = 4 ∨ n = 1 ∧ ∀ c ∈ text, c ∈ firstTable) (htext : text ≠ []) (h : encLoop U g r text s = (.ok (), s')) :
    s'.chunks.length ≤ text.length ∧ totalLength s'.chunks + s'.cur.enc.length ≤ n * text.length + s'.chunks.length * (g + 2) ∧
      s'.chunks.length * (len - g - 2) < n * text.length := by
  have fin : ∀ d, s'.chunks.length = s.chunks.length + d → d ≤ text.length →
        totalLength s'.chunks + s'.cur.enc.length ≤ totalLength s.chunks + s.cur.enc.length + n * text.length + d * (g + 2) →
        d * (len - g - 2) + s'.cur.enc.length ≤ s.cur.enc.length + n * text.length → (text ≠ [] → s'.cur.enc ≠ []) →
        s'.chunks.length ≤ text.length ∧ totalLength s'.chunks + s'.cur.enc.length ≤ n * text.length + s'.chunks.length * (g + 2) ∧
        s'.chunks.length * (len - g - 2) < n * text.length := by
    intro d a1 a2 a3 a4 a5
    rw [hstart.2.1, List.length_nil, Nat.zero_add] at a1
    subst a1
    have := List.length_pos_iff.2 (a5 htext)
    rw [hstart.2.1, hstart.2.2] at a3
    rw [hstart.2.2] at a4
    simp only [totalLength, List.map_nil, List.foldr_nil, List.length_nil] at a3 a4 ⊢
    refine ⟨a2, ?_, ?_⟩ <;> omega
  rcases hn with rfl | ⟨rfl, hfirst⟩
  · obtain ⟨d, a1, a2, a3, a4, a5⟩ := encLoop_adds 4 len (LongKeys g r len) (fun _ _ h hs hn => h.next hs hn) (fun _ h => h.cur) (fun _ => True)
      (fun a c t i h _ _ _ => ⟨⟨h.keys, h.cur⟩, (word_length U a.st.table a.st.shift c t i).2⟩) _ _ _ hs hlong (fun _ _ => trivial) h
    exact fin d a1 a2 a3 a4 a5
  · obtain ⟨d, a1, a2, a3, a4, a5⟩ := encLoop_adds 1 len (fun a => LongKeys g r len a ∧ a.st.table = 0 ∧ a.st.shift = false)
      (by
        rintro a b ⟨h, -⟩ hok hn
        refine ⟨h.next hok hn, ?_⟩
        obtain ⟨j, k, -, -, rfl⟩ := nextChunk_ok hok hn
        exact ⟨rfl, rfl⟩) (fun _ h => h.1.cur) (· ∈ firstTable)
      (by
        rintro a c t i ⟨p0, p1, p2⟩ _ hc hf
        obtain ⟨i', q1, q2⟩ := word_first hU hc
        rw [hf] at q1; cases q1
        refine ⟨⟨⟨p0.keys, p0.cur⟩, rfl, by simp [afterChar, p2, q2]⟩, ?_⟩
        rw [p1, p2]; simp [word, q2, sw]) _ _ _ hs ⟨hlong, by rw [hstart.1]; rfl, by rw [hstart.1]; rfl⟩ hfirst h
    exact fin d a1 a2 a3 a4 a5

theorem EncOk.bounds {U : Unicode} {f : Runes} {inst inst' inst1 : Inst} {m m' m1 : Msg} {chunks : List Chunk} {i : Nat} {s : LoopState} {out : Runes}
    (hU : U.Lawful) (e : EncOk U f inst m chunks inst' m' inst1 m1 i s out) {len n : Nat} (hlong : LongKeys inst.groupSize m.recipients len ⟨inst1.keys, newState, [], ⟨[], i⟩⟩)
    (hn : n = 4 ∨ n = 1 ∧ ∀ c ∈ m.plainText, c ∈ firstTable) :
    chunks.length - 1 ≤ m.plainText.length ∧ m'.cipherText.length < n * m.plainText.length + (chunks.length - 1) * (inst.groupSize + 2) + inst.groupSize ∧
      (chunks.length - 1) * (len - inst.groupSize - 2) < n * m.plainText.length := by
  have hp : m1.plainText = m.plainText := by rw [e.enriched.plainText.1, (withId_fields f m).1]
  have hr : m1.recipients = m.recipients := by rw [e.enriched.plainText.2.1, (withId_fields f m).2.1]
  have hl := e.loop
  rw [hp, hr] at hl
  have htot : totalLength chunks = s.cur.enc.length + totalLength s.chunks + padCount inst.groupSize (s.cur.enc.length + totalLength s.chunks) := by
    rw [e.hchunks, totalLength_append]; simp [totalLength]; omega
  have hlen := e.cipher_length.2.2.2
  have hpad := padCount_lt inst.groupSize (s.cur.enc.length + totalLength s.chunks) e.hg
  obtain ⟨a1, a2, a3⟩ := encLoop_bounds hU (loopOk_start _ _) hlong ⟨rfl, rfl, rfl⟩ hn e.plain hl
  have hc : chunks.length - 1 = s.chunks.length := by rw [e.hchunks]; simp
  rw [hc]
  refine ⟨a1, ?_, a3⟩
  simp only [totalLength] at hlen htot hpad a2
  omega

theorem EncOk.spent_length {U : Unicode} {f : Runes} {inst inst' inst1 : Inst} {m m' m1 : Msg} {chunks : List Chunk} {i : Nat} {s : LoopState} {out : Runes}
    (hU : U.Lawful) (e : EncOk U f inst m chunks inst' m' inst1 m1 i s out) (hids : Distinguishable U inst.keys) (hauto : m.keyId.val = []) {spent : List Nat}
    (hspent : SpentKeys inst.keys inst'.keys spent) : spent.length = chunks.length := by
  obtain ⟨f1, f2, f3⟩ := e.auto_flags hU hauto hids
  rw [show chunks.length = (keysOf chunks).length from (List.length_map ..).symm]
  apply List.Perm.length_eq
  rw [List.perm_ext_iff_of_nodup hspent.1 f2]
  intro j
  rw [hspent.2 j]
  constructor
  · rintro ⟨a, b, ha, hb, ua, ub⟩
    have := f1 j
    simp only [usedAt, ha, hb, ua, ub, Bool.false_or] at this
    exact of_decide_eq_true this.symm
  · intro hj
    obtain ⟨a, ha, hae⟩ := f3 j hj
    have := f1 j
    have hlen' : inst'.keys.length = inst.keys.length := by rw [e.keyId_eq.2.2]; exact e.sameMat.length
    have hlt : j < inst'.keys.length := by rw [hlen']; exact (List.getElem?_eq_some_iff.1 ha).1
    refine ⟨a, inst'.keys[j], ha, List.getElem?_eq_getElem hlt, hae.1, ?_⟩
    simp only [usedAt, ha, List.getElem?_eq_getElem hlt, hae.1, Bool.false_or] at this
    rw [this]
    exact decide_eq_true hj

end K431
