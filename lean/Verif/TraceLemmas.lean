import Verif.SpecTraces
import Verif.EncFacts
import Verif.LegendLemmas
import Mathlib.Data.List.Forall2
import Mathlib.Data.List.Induction

/-!
# Helper lemmas: arrays behind growing slices
-/

namespace K431
open Spec

/-- the slice holds the text -/
structure Work.Holds (w : Work) (text : Runes) : Prop where
  len : w.len = text.length
  room : text.length ≤ w.cells.length
  read : w.cells.take w.len = text

theorem Work.make_holds (n : Nat) : (Work.make n).Holds [] := ⟨rfl, by simp, rfl⟩

theorem Work.append_holds {grow : Nat → Nat → Nat} {w : Work} {t : Runes} (xs : Runes) (h : w.Holds t) : (w.append grow xs).Holds (t ++ xs) := by
  have h1 := h.len
  have h2 := h.room
  have h3 := h.read
  have hl : (w.cells.take w.len).length = w.len := by rw [h3, h1]
  unfold Work.append
  split
  · refine ⟨by simp [h1], ?_, ?_⟩
    · simp only [List.length_append, List.length_drop, hl]; omega
    · dsimp only
      rw [List.append_assoc, List.take_append, hl, h3]
      rw [List.take_of_length_le (by omega), List.take_append]
      have : w.len + xs.length - w.len = xs.length := by omega
      rw [this]; simp
  · refine ⟨by simp [h1], ?_, ?_⟩
    · simp only [List.length_append, hl, List.length_replicate]; omega
    · dsimp only
      rw [List.append_assoc, List.take_append, hl, h3]
      rw [List.take_of_length_le (by omega), List.take_append]
      have : w.len + xs.length - w.len = xs.length := by omega
      rw [this]; simp

theorem Work.appends_holds {grow : Nat → Nat → Nat} (xs : Runes) : ∀ {w : Work} {t : Runes}, w.Holds t → (w.appends grow xs).Holds (t ++ xs) := by
  induction xs with
  | nil => intro w t h; simpa [Work.appends] using h
  | cons x xs ih =>
    intro w t h
    have := ih (Work.append_holds (grow := grow) [x] h)
    simpa [Work.appends] using this

/-- the slice holds the text in its first array, of this capacity, and the rest of the array is untouched -/
structure Work.Roomy (cap : Nat) (w : Work) (text : Runes) : Prop where
  fits : text.length ≤ cap
  eq : w = ⟨text ++ List.replicate (cap - text.length) 0, text.length, []⟩

theorem Work.make_roomy (n : Nat) : (Work.make n).Roomy n [] := ⟨by simp, by simp [Work.make]⟩

theorem Work.append_roomy {grow : Nat → Nat → Nat} {cap : Nat} {w : Work} {t : Runes} (xs : Runes) (h : w.Roomy cap t) (hf : t.length + xs.length ≤ cap) :
    (w.append grow xs).Roomy cap (t ++ xs) := by
  obtain ⟨h1, rfl⟩ := h
  refine ⟨by simpa using hf, ?_⟩
  unfold Work.append
  rw [if_pos (by simp; omega)]
  simp only [List.take_left', List.length_append, List.append_assoc, Work.mk.injEq, and_true, List.append_cancel_left_eq]
  rw [List.drop_append, List.drop_of_length_le (by omega), List.nil_append, List.drop_replicate]
  congr 1; omega

theorem Work.appends_roomy {grow : Nat → Nat → Nat} {cap : Nat} (xs : Runes) : ∀ {w : Work} {t : Runes}, w.Roomy cap t → t.length + xs.length ≤ cap →
    (w.appends grow xs).Roomy cap (t ++ xs) := by
  induction xs with
  | nil => intro w t h _; simpa [Work.appends] using h
  | cons x xs ih =>
    intro w t h hf
    simp only [List.length_cons] at hf
    have := ih (Work.append_roomy (grow := grow) [x] h (by simp; omega)) (by simp; omega)
    simpa [Work.appends] using this

theorem Work.Roomy.wipe {cap : Nat} {w : Work} {t : Runes} (h : w.Roomy cap t) (noise : Nat → Rune) :
    (w.wipe noise).arrays = [(List.range t.length).map noise ++ List.replicate (cap - t.length) 0] := by
  obtain ⟨h1, rfl⟩ := h
  simp [Work.wipe, Work.arrays]

/-! ## The coding loop -/

theorem changeKeyWork_eq (grow : Nat → Nat → Nat) (id enc d : Runes) (w : Work) :
    changeKeyWork grow id enc (enc ++ d ++ id) w = (w.appends grow d).append grow id := by
  unfold changeKeyWork
  simp [List.append_assoc]

theorem encodeAppends_ok {U : Unicode} {s : LoopState} (hs : LoopOk s) {c : Rune} {t i : Nat} (h : findInTables (U.toUpper c) 0 characterTables = some (t, i)) :
    encodeAppends U s.st c s.cur.enc = word U s.st.table s.st.shift c t i := by
  unfold encodeAppends
  rw [encodeCharacter_eq U s.st hs.plain.b hs.plain.tab, h]
  simp

theorem encodeAppends_panic {U : Unicode} {s : LoopState} (hs : LoopOk s) {c : Rune} (h : findInTables (U.toUpper c) 0 characterTables = none) :
    (encodeAppends U s.st c s.cur.enc).length ≤ 2 := by
  unfold encodeAppends
  rw [encodeCharacter_eq U s.st hs.plain.b hs.plain.tab, h]
  dsimp only
  split
  · unfold toggleCase
    dsimp only [secondaryTable]
    rw [gotoTable_some 1 (by decide) s.st hs.plain.tab]
    by_cases ht : s.st.table = 1 <;> simp [ht]
  · simp

/-- Induction principle for the coding loop with its memory. -/
theorem encLoopWork_inv {grow : Nat → Nat → Nat} {U : Unicode} {g : Nat} {r : List Runes} (P : LoopState → List Work → Work → Prop) (D : List Work → Work → Prop)
    (hend : ∀ s ws w, P s ws w → LoopOk s → D ws w)
    (hnext : ∀ s ws w j k, P s ws w → LoopOk s → findKey U g s.keys r = some j → s.keys[j]? = some k →
      P { keys := setUsed s.keys j true, st := newState, chunks := s.chunks ++ [{ s.cur with enc := s.cur.enc ++ sw s.st.table 1 ++ [89] ++ k.id.val }], cur := ⟨[], j⟩ }
        (ws ++ [(w.appends grow (sw s.st.table 1 ++ [89])).append grow k.id.val]) newChunkWork)
    (hpanic : ∀ s ws w d, P s ws w → LoopOk s → (keyExhausted g s = false ∨ s.cur.enc = []) → d.length ≤ 2 → D ws (w.appends grow d))
    (hchar : ∀ s ws w c t i, P s ws w → LoopOk s → (keyExhausted g s = false ∨ s.cur.enc = []) →
      findInTables (U.toUpper c) 0 characterTables = some (t, i) → P (afterChar U s c t i) ws (w.appends grow (word U s.st.table s.st.shift c t i))) :
    ∀ (text : Runes) (s : LoopState) (ws : List Work) (w : Work), P s ws w → LoopOk s →
      (encLoopWork grow U g r text s ws w).1 = encLoop U g r text s ∧
      D (encLoopWork grow U g r text s ws w).2.1 (encLoopWork grow U g r text s ws w).2.2 ∧
      ((encLoop U g r text s).1 = .ok () → LoopOk (encLoop U g r text s).2 ∧
        P (encLoop U g r text s).2 (encLoopWork grow U g r text s ws w).2.1 (encLoopWork grow U g r text s ws w).2.2) := by
  intro text
  induction text with
  | nil => intro s ws w hP hs; exact ⟨rfl, hend s ws w hP hs, fun _ => ⟨hs, hP⟩⟩
  | cons c cs ih =>
    intro s ws w hP hs
    -- coding the character
    have main : ∀ s1 ws1 w1, P s1 ws1 w1 → LoopOk s1 → (keyExhausted g s1 = false ∨ s1.cur.enc = []) →
        ∀ (A : (Outcome Unit × LoopState) × List Work × Work) (B : Outcome Unit × LoopState),
        A = (match encodeCharacter U s1.st c s1.cur.enc with
          | .err e => ((.err e, s1), ws1, w1.appends grow (encodeAppends U s1.st c s1.cur.enc))
          | .panic => ((.panic, s1), ws1, w1.appends grow (encodeAppends U s1.st c s1.cur.enc))
          | .ok (st, enc) => encLoopWork grow U g r cs { s1 with st := st, cur := { s1.cur with enc := enc } } ws1 (w1.appends grow (encodeAppends U s1.st c s1.cur.enc))) →
        B = (match encodeCharacter U s1.st c s1.cur.enc with
          | .err e => ((.err e, s1) : Outcome Unit × LoopState)
          | .panic => (.panic, s1)
          | .ok (st, enc) => encLoop U g r cs { s1 with st := st, cur := { s1.cur with enc := enc } }) →
        A.1 = B ∧ D A.2.1 A.2.2 ∧ (B.1 = .ok () → LoopOk B.2 ∧ P B.2 A.2.1 A.2.2) := by
      intro s1 ws1 w1 hP1 hs1 hx A B hA hB
      rw [encodeCharacter_eq U s1.st hs1.plain.b hs1.plain.tab] at hA hB
      rcases hf : findInTables (U.toUpper c) 0 characterTables with _ | ⟨t, i⟩
      · rw [hf] at hA hB
        dsimp only at hA hB
        subst hA hB
        exact ⟨rfl, hpanic s1 ws1 w1 _ hP1 hs1 hx (encodeAppends_panic hs1 hf), fun h => by cases h⟩
      · rw [hf] at hA hB
        dsimp only at hA hB
        rw [encodeAppends_ok hs1 hf] at hA
        subst hA hB
        exact ih (afterChar U s1 c t i) ws1 _ (hchar s1 ws1 w1 c t i hP1 hs1 hx hf) (hs1.char hf)
    simp only [encLoopWork, encLoop]
    by_cases hx : keyExhausted g s = true
    · simp only [hx, if_true]
      rcases hn : nextChunk U g r s with ⟨o1, s1⟩
      rcases o1 with u | e | _
      · obtain ⟨j, k, hf, hk, rfl⟩ := nextChunk_ok hs hn
        dsimp only
        have hk' : (setUsed s.keys j true)[j]? = some { k with used := true } := by rw [setUsed_get, hk]; simp
        rw [hk']
        simp only [List.getLast?_append, List.getLast?_singleton, Option.some_or]
        refine main _ _ _ ?_ (hs.next hn) (Or.inr rfl) _ _ rfl rfl
        rw [show s.cur.enc ++ sw s.st.table 1 ++ [89] ++ k.id.val = s.cur.enc ++ (sw s.st.table 1 ++ [89]) ++ k.id.val by simp [List.append_assoc], changeKeyWork_eq]
        simpa [List.append_assoc] using hnext s ws w j k hP hs hf hk
      · have := nextChunk_fail hn (by simp)
        subst this
        exact ⟨rfl, hend _ ws w hP hs, fun h => by cases h⟩
      · have := nextChunk_fail hn (by simp)
        subst this
        exact ⟨rfl, hend _ ws w hP hs, fun h => by cases h⟩
    · have hx : keyExhausted g s = false := by simpa using hx
      simp only [hx, Bool.false_eq_true, if_false]
      exact main s ws w hP hs (Or.inl hx) _ _ rfl rfl

/-- the arrays make no difference to the result -/
theorem encLoopWork_fst (grow : Nat → Nat → Nat) (U : Unicode) (g : Nat) (r : List Runes) (text : Runes) (s : LoopState) (ws : List Work) (w : Work) (hs : LoopOk s) :
    (encLoopWork grow U g r text s ws w).1 = encLoop U g r text s :=
  (encLoopWork_inv (fun _ _ _ => True) (fun _ _ => True) (fun _ _ _ _ _ => trivial) (fun _ _ _ _ _ _ _ _ _ => trivial) (fun _ _ _ _ _ _ _ _ => trivial)
    (fun _ _ _ _ _ _ _ _ _ _ => trivial) text s ws w trivial hs).1

theorem encipherWork_fst (grow : Nat → Nat → Nat) (U : Unicode) (noise : Nat → Rune) (noises : Nat → Nat → Rune) (f : Runes) (inst : Inst) (m : Msg) :
    (encipherWork grow U noise noises f inst m).1 = encipherT U noise f inst m := by
  unfold encipherWork encipherT
  dsimp only
  rcases enrichWithKey U f inst (withId f m) with ⟨u | e | _, i1, m1⟩
  · dsimp only
    rcases getKey U i1.keys m1.keyId.val with _ | i
    · rfl
    · dsimp only
      have h := encLoopWork_fst grow U i1.groupSize m1.recipients m1.plainText ⟨i1.keys, newState, [], ⟨[], i⟩⟩ [] newChunkWork (loopOk_start _ _)
      rcases hw : encLoopWork grow U i1.groupSize m1.recipients m1.plainText ⟨i1.keys, newState, [], ⟨[], i⟩⟩ [] newChunkWork with ⟨⟨o, s⟩, ws, w⟩
      rw [hw] at h
      dsimp only at h
      rw [← h]
      rcases o with u | e | _
      · dsimp only
        split
        · rfl
        · generalize cipherChunks s.keys (s.chunks ++ [⟨(pad s.st (padCount i1.groupSize (s.cur.enc.length + totalLength s.chunks)) s.cur.enc).2, s.cur.key⟩]) = R
          rcases R with ⟨o2 | e2 | _, out⟩ <;> rfl
      · rfl
      · rfl
  · rfl
  · rfl

/-- the arrays hold the coded texts -/
def ChunksHeld (ws : List Work) (cs : List Chunk) : Prop := List.Forall₂ (fun w (c : Chunk) => w.Holds c.enc) ws cs

/-- after a successful run the arrays hold the coded texts -/
theorem encLoopWork_holds {grow : Nat → Nat → Nat} {U : Unicode} {g : Nat} {r : List Runes} {text : Runes} {s : LoopState} {i : Nat} {keys : List Key} {o : Outcome Unit} {ws : List Work} {w : Work}
    (h : encLoopWork grow U g r text ⟨keys, newState, [], ⟨[], i⟩⟩ [] newChunkWork = ((o, s), ws, w)) (ho : o = .ok ()) :
    ChunksHeld ws s.chunks ∧ w.Holds s.cur.enc := by
  have := encLoopWork_inv (grow := grow) (U := U) (g := g) (r := r) (fun s ws w => ChunksHeld ws s.chunks ∧ w.Holds s.cur.enc) (fun _ _ => True)
    (fun _ _ _ _ _ => trivial)
    (fun s ws w j k hP _ _ _ => by
      refine ⟨List.rel_append hP.1 (List.Forall₂.cons ?_ List.Forall₂.nil), Work.make_holds 700⟩
      have := Work.append_holds (grow := grow) k.id.val (Work.appends_holds (grow := grow) (sw s.st.table 1 ++ [89]) hP.2)
      simpa [List.append_assoc] using this)
    (fun _ _ _ _ _ _ _ _ => trivial)
    (fun s ws w c t i hP _ _ _ => ⟨hP.1, Work.appends_holds _ hP.2⟩)
    text ⟨keys, newState, [], ⟨[], i⟩⟩ [] newChunkWork ⟨List.Forall₂.nil, Work.make_holds 700⟩ (loopOk_start _ _)
  rw [h] at this
  dsimp only at this
  obtain ⟨h1, -, h3⟩ := this
  rw [← h1] at h3
  exact (h3 ho).2

theorem keyLenAt_le {keys : List Key} {n : Nat} (h : ∀ k ∈ keys, k.runes.length ≤ n) (i : Nat) : keyLenAt keys i ≤ n := by
  unfold keyLenAt
  split
  · exact h _ (List.mem_of_getElem? (by assumption))
  · omega

theorem setUsed_lengths {keys : List Key} {n : Nat} (h : ∀ k ∈ keys, k.runes.length ≤ n) (j : Nat) (b : Bool) : ∀ k ∈ setUsed keys j b, k.runes.length ≤ n := by
  intro k hk
  obtain ⟨i, hi⟩ := List.mem_iff_getElem?.1 hk
  rw [setUsed_get] at hi
  rcases hq : keys[i]? with _ | q
  · rw [hq] at hi; simp at hi
  · rw [hq] at hi
    have := h q (List.mem_of_getElem? hq)
    by_cases hx : j = i
    · simp [hx] at hi; rw [← hi]; exact this
    · simp [hx] at hi; rw [← hi]; exact this

/-- with keys of ordinary length no array is outgrown, however the loop ends -/
theorem encLoopWork_roomy {grow : Nat → Nat → Nat} {U : Unicode} {g : Nat} {r : List Runes} {text : Runes} {i : Nat} {keys : List Key} (hk : ∀ k ∈ keys, k.runes.length ≤ 697) (hg : g ≤ 694) :
    let R := encLoopWork grow U g r text ⟨keys, newState, [], ⟨[], i⟩⟩ [] newChunkWork
    (∀ x ∈ R.2.1 ++ [R.2.2], ∃ t, x.Roomy 700 t) ∧
    (R.1.1 = .ok () → (∀ x ∈ R.2.1, ∃ t, x.Roomy 700 t) ∧ R.2.2.Roomy 700 R.1.2.cur.enc ∧ R.1.2.cur.enc.length + g ≤ 698) := by
  intro R
  have := encLoopWork_inv (grow := grow) (U := U) (g := g) (r := r)
    (fun s ws w => (∀ x ∈ ws, ∃ t, x.Roomy 700 t) ∧ w.Roomy 700 s.cur.enc ∧ s.cur.enc.length + g ≤ 698 ∧ ∀ k ∈ s.keys, k.runes.length ≤ 697)
    (fun ws w => ∀ x ∈ ws ++ [w], ∃ t, x.Roomy 700 t)
    (fun s ws w hP _ x hx => by
      rcases List.mem_append.1 hx with hx | hx
      · exact hP.1 x hx
      · rw [List.mem_singleton.1 hx]; exact ⟨_, hP.2.1⟩)
    (fun s ws w j k hP _ hf hk => by
      obtain ⟨k', e1, e2, -⟩ := findKey_some hf
      rw [hk] at e1; cases e1
      have hl := e2.2.1
      have hsw := sw_length s.st.table 1
      have h3 := hP.2.2.1
      refine ⟨?_, Work.make_roomy 700, by simp; omega, setUsed_lengths hP.2.2.2 _ _⟩
      intro x hx
      rcases List.mem_append.1 hx with hx | hx
      · exact hP.1 x hx
      · rw [List.mem_singleton.1 hx]
        exact ⟨_, Work.append_roomy _ (Work.appends_roomy _ hP.2.1 (by simp only [List.length_append, List.length_singleton]; omega))
          (by simp only [List.length_append, List.length_singleton]; omega)⟩)
    (fun s ws w d hP hs hx hd x hx' => by
      rcases List.mem_append.1 hx' with hx' | hx'
      · exact hP.1 x hx'
      · rw [List.mem_singleton.1 hx']
        have h3 := hP.2.2.1
        exact ⟨_, Work.appends_roomy _ hP.2.1 (by omega)⟩)
    (fun s ws w c t i hP hs hx _ => by
      have hw := (word_length U s.st.table s.st.shift c t i).2
      have h3 := hP.2.2.1
      have hb : s.cur.enc.length + 4 + g ≤ 698 := by
        rcases hx with hx | hx
        · have hl := keyLenAt_le hP.2.2.2 s.cur.key
          unfold keyExhausted controlCharactersNeededToChangeKey at hx
          rw [hs.count] at hx
          simp only [decide_eq_false_iff_not, ge_iff_le] at hx
          omega
        · rw [hx]; simp; omega
      refine ⟨hP.1, Work.appends_roomy _ hP.2.1 (by omega), ?_, hP.2.2.2⟩
      simp only [afterChar, List.length_append]
      omega)
    text ⟨keys, newState, [], ⟨[], i⟩⟩ [] newChunkWork ⟨by simp, Work.make_roomy 700, by simp; omega, hk⟩ (loopOk_start _ _)
  obtain ⟨h1, h2, h3⟩ := this
  refine ⟨h2, fun ho => ?_⟩
  have h4 := h3 (by rw [← h1]; exact ho)
  have e : R.1 = encLoop U g r text ⟨keys, newState, [], ⟨[], i⟩⟩ := h1
  rw [e]
  exact ⟨h4.2.1, h4.2.2.1, h4.2.2.2.1⟩

theorem wipeWorks_erased {noises : Nat → Nat → Rune} {ws : List Work} (h : ∀ x ∈ ws, ∃ t, x.Roomy 700 t) :
    ∀ w ∈ wipeWorks noises ws, ∀ a ∈ w.arrays, Erased noises a := by
  intro w hw a ha
  unfold wipeWorks at hw
  obtain ⟨⟨x, j⟩, hx, rfl⟩ := List.mem_map.1 hw
  obtain ⟨t, ht⟩ := h x (List.fst_mem_of_mem_zipIdx hx)
  rw [ht.wipe, List.mem_singleton] at ha
  exact ⟨j, t.length, 700 - t.length, ha⟩

/-! ## Deciphering -/

theorem Work.appends_append (grow : Nat → Nat → Nat) (a b : Runes) (w : Work) : w.appends grow (a ++ b) = (w.appends grow a).appends grow b := by
  simp [Work.appends]

theorem decodeCharacter_prefix {U : Unicode} {st st' : CState} {c : Rune} {out out' : Runes} (h : decodeCharacter U st c out = .ok (st', out')) : out <+: out' := by
  rw [decodeCharacter_frame] at h
  split at h
  · cases h; exact List.prefix_append _ _
  · cases h
  · cases h

theorem decStep_prefix {U : Unicode} {g : Nat} {keys : List Key} {d d' : DState} {c : Rune} (h : decStep U g keys d c = .ok d') : d.plain <+: d'.plain := by
  unfold decStep at h
  split at h
  · cases h
  split at h
  · cases h
  split at h
  · cases h
  split at h
  · cases h
  · cases h
  split at h
  · cases h
  · cases h
  rename_i hd
  have hp := decodeCharacter_prefix hd
  dsimp only at h
  split at h
  · split at h
    · split at h
      · cases h
      · cases h; exact hp
    · cases h; exact hp
  · cases h; exact hp

theorem decLoopWork_spec (grow : Nat → Nat → Nat) (U : Unicode) (g : Nat) (keys : List Key) : ∀ (text : Runes) (d : DState) (w : Work), w = (Work.make 0).appends grow d.plain →
    (decLoopWork grow U g keys text d w).1 = decLoop U g keys text d ∧
    (decLoopWork grow U g keys text d w).2 = (Work.make 0).appends grow (decLoop U g keys text d).2 := by
  intro text
  induction text with
  | nil => intro d w h; exact ⟨rfl, h⟩
  | cons c cs ih =>
    intro d w h
    simp only [decLoopWork, decLoop]
    rcases hd : decStep U g keys d c with d' | e | _
    · dsimp only
      refine ih d' _ ?_
      obtain ⟨x, hx⟩ := decStep_prefix hd
      rw [h, ← hx, List.drop_left, Work.appends_append]
    · exact ⟨rfl, h⟩
    · exact ⟨rfl, h⟩

theorem decipherWork_fst (grow : Nat → Nat → Nat) (U : Unicode) (f : Runes) (inst : Inst) (m : Msg) : (decipherWork grow U f inst m).1 = decipher U f inst m := by
  unfold decipherWork decipher
  dsimp only
  by_cases h1 : (withId f m).keyId.val.length ≠ inst.groupSize
  · rw [if_pos h1, if_pos h1]
  rw [if_neg h1, if_neg h1]
  by_cases h2 : (withId f m).cipherText.length < inst.groupSize
  · rw [if_pos h2, if_pos h2]
  rw [if_neg h2, if_neg h2]
  rcases getKey U inst.keys (withId f m).keyId.val with _ | i
  · rfl
  dsimp only
  obtain ⟨h, -⟩ := decLoopWork_spec grow U inst.groupSize inst.keys (withId f m).cipherText ⟨i, 0, [], newState, [i], []⟩ (Work.make 0) rfl
  rw [← h]
  rcases decLoopWork grow U inst.groupSize inst.keys (withId f m).cipherText ⟨i, 0, [], newState, [i], []⟩ (Work.make 0) with ⟨⟨o | e | _, p⟩, w⟩ <;> rfl

/-- the arrays of the plaintext are those of a slice that has grown from nothing -/
theorem decipherWork_snd {grow : Nat → Nat → Nat} {U : Unicode} {f : Runes} {inst : Inst} {m : Msg} {w : Work} (h : (decipherWork grow U f inst m).2 = some w) :
    w = (Work.make 0).appends grow (decipher U f inst m).2.2.plainText := by
  rw [← decipherWork_fst grow]
  unfold decipherWork at h ⊢
  dsimp only at h ⊢
  split at h
  · cases h
  rename_i h1
  rw [if_neg h1]
  split at h
  · cases h
  rename_i h2
  rw [if_neg h2]
  split at h
  · cases h
  rename_i i h3
  obtain ⟨e1, e2⟩ := decLoopWork_spec grow U inst.groupSize inst.keys (withId f m).cipherText ⟨i, 0, [], newState, [i], []⟩ (Work.make 0) rfl
  rcases hw : decLoopWork grow U inst.groupSize inst.keys (withId f m).cipherText ⟨i, 0, [], newState, [i], []⟩ (Work.make 0) with ⟨⟨o | e | _, p⟩, w'⟩
  all_goals
    rw [hw] at h e1 e2
    dsimp only at h e1 e2 ⊢
    rw [← e1] at e2
    simp only [Option.some.injEq] at h
    rw [← h]
    exact e2

/-- growing from nothing, a rune at a time -/
theorem Work.grown {grow : Nat → Nat → Nat} (text : Runes) :
    let w := (Work.make 0).appends grow text
    w.Holds text ∧ (∀ a ∈ w.old, a <+: text) ∧ (text = [] → w.cells = []) ∧ ((∀ c, grow c (c + 1) ≤ 2 * c + 2) → text ≠ [] → ∃ a ∈ w.old, w.cells.length ≤ 2 * a.length + 2) := by
  induction text using List.reverseRecOn with
  | nil => exact ⟨Work.make_holds 0, by simp [Work.make, Work.appends], by simp [Work.make, Work.appends], fun _ h => absurd rfl h⟩
  | append_singleton t x ih =>
    intro w
    obtain ⟨h1, h2, h0, h3⟩ := ih
    have hw : w = ((Work.make 0).appends grow t).append grow [x] := by
      show (Work.make 0).appends grow (t ++ [x]) = _
      rw [Work.appends_append]; rfl
    generalize (Work.make 0).appends grow t = v at h1 h2 h0 h3 hw
    have hh : w.Holds (t ++ [x]) := by rw [hw]; exact Work.append_holds [x] h1
    refine ⟨hh, ?_⟩
    rw [hw]
    unfold Work.append
    split
    · rename_i hf
      refine ⟨fun a ha => (h2 a ha).trans (List.prefix_append _ _), by simp, fun hg _ => ?_⟩
      have hl : (v.cells.take v.len ++ [x] ++ v.cells.drop (v.len + [x].length)).length = v.cells.length := by
        simp only [List.length_append, List.length_take, List.length_drop, List.length_singleton] at hf ⊢
        omega
      dsimp only
      rw [hl]
      by_cases ht : t = []
      · rw [h0 ht] at hf; simp at hf
      · exact h3 hg ht
    · rename_i hf
      have hc : v.cells = t := by
        have := h1.read
        have hl := h1.len
        have hr := h1.room
        simp only [List.length_singleton, Nat.not_le] at hf
        rw [List.take_of_length_le (by omega)] at this
        exact this
      refine ⟨fun a ha => ?_, by simp, fun hg _ => ⟨v.cells, by simp, ?_⟩⟩
      · simp only [List.mem_append, List.mem_singleton] at ha
        rcases ha with ha | ha
        · exact (h2 a ha).trans (List.prefix_append _ _)
        · rw [ha, hc]; exact List.prefix_append _ _
      · have hl := h1.len
        have := hg v.cells.length
        simp only [List.length_append, List.length_take, List.length_singleton, List.length_replicate, hl, hc] at this ⊢
        omega

theorem enrich_lengths {U : Unicode} {f : Runes} {inst inst1 : Inst} {m m1 : Msg} {o : Outcome Unit} {n : Nat} (h : enrichWithKey U f inst m = (o, inst1, m1))
    (hk : ∀ k ∈ inst.keys, k.runes.length ≤ n) : ∀ k ∈ inst1.keys, k.runes.length ≤ n := by
  unfold enrichWithKey at h
  dsimp only at h
  repeat' split at h
  all_goals cases h
  all_goals first | exact hk | exact setUsed_lengths hk _ _

/-- what the arrays hold when `Encipher` has succeeded -/
theorem encipherWork_held {grow : Nat → Nat → Nat} {U : Unicode} {noise : Nat → Rune} {noises : Nat → Nat → Rune} {f : Runes} {inst inst' : Inst} {m m' : Msg} {chunks : List Chunk} {works : List Work}
    (h : encipherWork grow U noise noises f inst m = ((.ok chunks, inst', m'), works)) : ChunksHeld works chunks := by
  unfold encipherWork at h
  dsimp only at h
  generalize enrichWithKey U f inst (withId f m) = R0 at h
  rcases R0 with ⟨u | e | _, i1, m1⟩
  · dsimp only at h
    generalize getKey U i1.keys m1.keyId.val = R1 at h
    rcases R1 with _ | i
    · cases h
    · dsimp only at h
      rcases hw : encLoopWork grow U i1.groupSize m1.recipients m1.plainText ⟨i1.keys, newState, [], ⟨[], i⟩⟩ [] newChunkWork with ⟨⟨o, s⟩, ws, w⟩
      rw [hw] at h
      rcases o with u | e | _
      · obtain ⟨h1, h2⟩ := encLoopWork_holds hw rfl
        dsimp only at h
        split at h
        · cases h
        · have hd : ∀ n, (w.appends grow ((pad s.st n s.cur.enc).2.drop s.cur.enc.length)).Holds (pad s.st n s.cur.enc).2 := by
            intro n
            rw [pad_eq]
            simp only [List.drop_left]
            exact Work.appends_holds _ h2
          specialize hd (padCount i1.groupSize (s.cur.enc.length + totalLength s.chunks))
          generalize (pad s.st (padCount i1.groupSize (s.cur.enc.length + totalLength s.chunks)) s.cur.enc).2 = P at h hd
          generalize cipherChunks s.keys (s.chunks ++ [⟨P, s.cur.key⟩]) = R at h
          rcases R with ⟨o2 | e2 | _, out⟩
          · cases h
            exact List.rel_append h1 (List.Forall₂.cons hd List.Forall₂.nil)
          · cases h
          · cases h
      · cases h
      · cases h
  · cases h
  · cases h

/-- what the arrays hold when `Encipher` has failed -/
theorem encipherWork_erased {grow : Nat → Nat → Nat} {U : Unicode} {noise : Nat → Rune} {noises : Nat → Nat → Rune} {f : Runes} {inst : Inst} {m : Msg}
    (hk : ∀ k ∈ inst.keys, k.runes.length ≤ 697) (hg : inst.groupSize ≤ 694) (hf : ∀ chunks, (encipherWork grow U noise noises f inst m).1.1 ≠ .ok chunks) :
    ∀ w ∈ (encipherWork grow U noise noises f inst m).2, ∀ a ∈ w.arrays, Erased noises a := by
  unfold encipherWork at hf ⊢
  dsimp only at hf ⊢
  rcases he : enrichWithKey U f inst (withId f m) with ⟨u | e | _, i1, m1⟩
  · have hk1 := enrich_lengths he hk
    have hg1 := enrich_groupSize he
    rw [he] at hf
    dsimp only at hf ⊢
    rcases hq : getKey U i1.keys m1.keyId.val with _ | i
    · intro w hw a ha
      rw [List.mem_singleton] at hw
      subst hw
      simp only [newChunkWork, Work.make, Work.arrays, List.nil_append, List.mem_singleton] at ha
      exact ⟨0, 0, 700, ha.trans (by rw [List.range_zero, List.map_nil, List.nil_append])⟩
    · rw [hq] at hf
      dsimp only at hf ⊢
      have hr := encLoopWork_roomy (grow := grow) (U := U) (g := i1.groupSize) (r := m1.recipients) (text := m1.plainText) (i := i) hk1 (by omega)
      dsimp only at hr
      rcases hw : encLoopWork grow U i1.groupSize m1.recipients m1.plainText ⟨i1.keys, newState, [], ⟨[], i⟩⟩ [] newChunkWork with ⟨⟨o, s⟩, ws, w⟩
      rw [hw] at hf hr
      dsimp only at hr
      rcases o with u | e | _
      · dsimp only at hf ⊢
        split
        · exact wipeWorks_erased hr.1
        · rename_i hg0
          rw [if_neg hg0] at hf
          obtain ⟨h1, h2, h3⟩ := hr.2 rfl
          have hpc := padCount_lt i1.groupSize (s.cur.enc.length + totalLength s.chunks) (by omega)
          have hd : (w.appends grow ((pad s.st (padCount i1.groupSize (s.cur.enc.length + totalLength s.chunks)) s.cur.enc).2.drop s.cur.enc.length)).Roomy 700 (pad s.st (padCount i1.groupSize (s.cur.enc.length + totalLength s.chunks)) s.cur.enc).2 := by
            rw [pad_eq]
            simp only [List.drop_left]
            exact Work.appends_roomy _ h2 (by simp; omega)
          generalize (pad s.st (padCount i1.groupSize (s.cur.enc.length + totalLength s.chunks)) s.cur.enc).2 = P at hd hf ⊢
          have hx : ∀ x ∈ ws ++ [w.appends grow (P.drop s.cur.enc.length)], ∃ t, x.Roomy 700 t := by
            intro x hx
            rcases List.mem_append.1 hx with hx | hx
            · exact h1 x hx
            · rw [List.mem_singleton.1 hx]; exact ⟨_, hd⟩
          generalize cipherChunks s.keys (s.chunks ++ [⟨P, s.cur.key⟩]) = R at hf ⊢
          rcases R with ⟨o2 | e2 | _, out⟩
          · exact absurd rfl (hf _)
          · exact wipeWorks_erased hx
          · exact wipeWorks_erased hx
      · exact wipeWorks_erased hr.1
      · exact wipeWorks_erased hr.1
  · dsimp only; simp
  · dsimp only; simp

/-- the pad letters that the chunks are enciphered with -/
theorem cipherChunks_pads {keys : List Key} : ∀ {cs : List Chunk} {out : Runes}, cipherChunks keys cs = (.ok (), out) →
    ∃ pads : List Runes, List.Forall₂ (fun (c : Chunk) p => c.enc.length = p.length ∧ ∃ k ∈ keys, p <+: k.runes) cs pads ∧
      out.length = (cs.map Chunk.enc).flatten.length ∧
      ∀ (n : Nat) (p e z : Rune), pads.flatten[n]? = some p → (cs.map Chunk.enc).flatten[n]? = some e → out[n]? = some z → Trigraph p e z := by
  intro cs
  induction cs with
  | nil => intro out h; simp [cipherChunks] at h; subst h; exact ⟨[], List.Forall₂.nil, rfl, by simp⟩
  | cons c cs ih =>
    intro out h
    obtain ⟨o1, o2, h1, h2, rfl⟩ := (cipherChunks_append keys [c] cs out).1 h
    obtain ⟨pads, a1, a2, a3⟩ := ih h2
    obtain ⟨k, hk, hl, hc⟩ := (cipherChunks_one _ _ _).1 h1
    obtain ⟨-, b2, b3⟩ := (cipherChunk_ok _ _ _).1 hc
    have hlen : (k.runes.take c.enc.length).length = c.enc.length := by simp; omega
    refine ⟨k.runes.take c.enc.length :: pads, List.Forall₂.cons ⟨hlen.symm, k, List.mem_of_getElem? hk, List.take_prefix _ _⟩ a1, by simp [b2, a2], ?_⟩
    intro n p e z hp he hz
    simp only [List.flatten_cons, List.map_cons] at hp he
    by_cases hn : n < c.enc.length
    · rw [List.getElem?_append_left (by omega)] at hp he hz
      rw [List.getElem?_take_of_lt hn] at hp
      exact b3 n p e z hp he hz
    · rw [List.getElem?_append_right (by omega)] at hp he hz
      rw [hlen] at hp
      rw [b2] at hz
      exact a3 _ p e z hp he hz

/-- the slice holds the text, and the rest of its array is untouched -/
structure Work.Clean (w : Work) (text : Runes) : Prop where
  len : w.len = text.length
  cells : ∃ z, w.cells = text ++ List.replicate z 0

theorem Work.append_clean {grow : Nat → Nat → Nat} {w : Work} {t : Runes} (xs : Runes) (h : w.Clean t) : (w.append grow xs).Clean (t ++ xs) := by
  obtain ⟨c, l, o⟩ := w
  obtain ⟨h1, z, h2⟩ := h
  dsimp only at h1 h2
  subst h1 h2
  unfold Work.append
  split
  · refine ⟨by simp, z - xs.length, ?_⟩
    simp only [List.take_left', List.append_assoc, List.append_cancel_left_eq]
    rw [List.drop_append, List.drop_of_length_le (by omega), List.nil_append, List.drop_replicate]
    congr 1; omega
  · exact ⟨by simp, _, by simp only [List.take_left']; rfl⟩

theorem Work.appends_clean {grow : Nat → Nat → Nat} (xs : Runes) : ∀ {w : Work} {t : Runes}, w.Clean t → (w.appends grow xs).Clean (t ++ xs) := by
  induction xs with
  | nil => intro w t h; simpa [Work.appends] using h
  | cons x xs ih =>
    intro w t h
    have := ih (Work.append_clean (grow := grow) [x] h)
    simpa [Work.appends] using this

/-- wiping erases the array that the slice has now -/
theorem Work.Clean.wipe {w : Work} {t : Runes} (h : w.Clean t) (noise : Nat → Rune) : Erased (fun _ => noise) (w.wipe noise).cells := by
  obtain ⟨h1, z, h2⟩ := h
  refine ⟨0, t.length, z, ?_⟩
  simp only [Work.wipe, h1, h2, List.drop_left]

/-- while there is room, no array is left behind -/
theorem Work.appends_old {grow : Nat → Nat → Nat} (xs : Runes) : ∀ {w : Work}, w.len + xs.length ≤ w.cells.length → w.len ≤ w.cells.length → (w.appends grow xs).old = w.old := by
  induction xs with
  | nil => intro w _ _; rfl
  | cons x xs ih =>
    intro w h hl
    simp only [List.length_cons] at h
    show ((w.append grow [x]).appends grow xs).old = w.old
    have e : w.append grow [x] = { w with cells := w.cells.take w.len ++ [x] ++ w.cells.drop (w.len + [x].length), len := w.len + [x].length } := by
      unfold Work.append
      rw [if_pos (by simp; omega)]
    rw [ih, e]
    · rw [e]; simp only [List.length_append, List.length_take, List.length_drop, List.length_singleton]; omega
    · rw [e]; simp only [List.length_append, List.length_take, List.length_drop, List.length_singleton]; omega

theorem Work.short_old {grow : Nat → Nat → Nat} {text : Runes} (h : text.length ≤ max 1 (grow 0 1)) : ∀ a ∈ ((Work.make 0).appends grow text).old, a = [] := by
  cases text with
  | nil => simp [Work.make, Work.appends]
  | cons x xs =>
    have e : (Work.make 0).append grow [x] = ⟨[x] ++ List.replicate (grow 0 1 - 1) 0, 1, [[]]⟩ := rfl
    show ∀ a ∈ (((Work.make 0).append grow [x]).appends grow xs).old, a = []
    rw [e, Work.appends_old]
    · simp
    · simp only [List.length_cons, List.length_append, List.length_replicate, List.length_nil] at h ⊢; omega
    · simp

end K431
