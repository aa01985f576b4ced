import Verif.ForgeLemmas

/-!
# Lemmas: messages that name their key
-/

namespace K431
open Spec

/-- Flag bookkeeping of the loop, whatever the mark of the first key: those selected by key changes are marked. -/
theorem encLoop_marks {U : Unicode} {g : Nat} {r : List Runes} {text : Runes} {s s' : LoopState} {o : Outcome Unit} (hs : LoopOk s) (hch : s.chunks = [])
    (h : encLoop U g r text s = (o, s')) :
    ∃ t, keysOf (s'.chunks ++ [s'.cur]) = s.cur.key :: t ∧ (∀ j, usedAt s'.keys j = (usedAt s.keys j || decide (j ∈ t))) ∧ t.Nodup ∧
      (∀ j ∈ t, ∃ k, s.keys[j]? = some k ∧ Eligible U g r k) ∧ ∀ ch ∈ s'.chunks, ch.enc ≠ [] := by
  obtain ⟨_, d1, d2, _, hP, _⟩ := encLoop_inv (U := U) (g := g) (r := r)
    (fun _ a => SameMat a.keys s.keys ∧ ∃ t, keysOf (a.chunks ++ [a.cur]) = s.cur.key :: t ∧ (∀ j, usedAt a.keys j = (usedAt s.keys j || decide (j ∈ t))) ∧ t.Nodup ∧
      (∀ j ∈ t, ∃ k, s.keys[j]? = some k ∧ Eligible U g r k) ∧ ∀ ch ∈ a.chunks, ch.enc ≠ [])
    (by
      rintro d a b ⟨p5, t, p1, p2, p3, p4, p6⟩ hok hn
      obtain ⟨j, k, hf, hk, rfl⟩ := nextChunk_ok hok hn
      obtain ⟨k', e1, e2, _⟩ := findKey_some hf
      rw [hk] at e1; cases e1
      have hj : j < a.keys.length := (List.getElem?_eq_some_iff.1 hk).1
      have hju : usedAt a.keys j = false := by simp [usedAt, hk, e2.1]
      have h2 := p2 j
      rw [hju] at h2
      have hu0 : usedAt s.keys j = false := by cases h : usedAt s.keys j <;> simp [h] at h2 ⊢
      have hnot : j ∉ t := by
        intro hm
        simp [hm] at h2
      refine ⟨(setUsed_sameMat _ _ _).trans p5, t ++ [j], ?_, ?_, ?_, ?_, ?_⟩
      · have : keysOf (a.chunks ++ [a.cur]) ++ [j] = s.cur.key :: (t ++ [j]) := by rw [p1]; rfl
        rw [← this]
        simp [keysOf]
      · intro i
        rw [usedAt_setUsed hj, p2 i]
        by_cases hji : j = i
        · subst hji; simp
        · have : ¬ i = j := fun h => hji h.symm
          simp [hji, this]
      · rw [List.nodup_append]
        refine ⟨p3, by simp, ?_⟩
        intro x hx y hy
        rw [List.mem_singleton] at hy
        subst hy
        intro he; subst he; exact hnot hx
      · intro i hi
        rcases List.mem_append.1 hi with hi | hi
        · exact p4 i hi
        · rw [List.mem_singleton] at hi
          subst hi
          obtain ⟨k2, m1, m2⟩ := p5.get hk
          refine ⟨k2, m1, ?_, by rw [Key.mat_id m2]; exact e2.2.1, by rw [Key.names, Key.mat_keepers m2]; exact e2.2.2⟩
          simpa [usedAt, m1] using hu0
      · intro ch hc
        rcases List.mem_append.1 hc with hc | hc
        · exact p6 ch hc
        · rw [List.mem_singleton] at hc
          subst hc
          simp)
    (by
      rintro d a c t i ⟨p5, t', p1, p2, p3, p4, p6⟩ _ _
      have hkeys : keysOf ((afterChar U a c t i).chunks ++ [(afterChar U a c t i).cur]) = keysOf (a.chunks ++ [a.cur]) := by simp [keysOf, afterChar]
      exact ⟨p5, t', by rw [hkeys]; exact p1, p2, p3, p4, p6⟩)
    text [] s o s'
    ⟨SameMat.refl _, [], by simp [keysOf, hch], by simp, by simp, by simp, by simp [hch]⟩ hs h
  exact hP.2

theorem word_ne (U : Unicode) (tb : Nat) (sh : Bool) (c : Rune) (t i : Nat) : word U tb sh c t i ≠ [] := by
  unfold word
  split <;> simp

/-- the last chunk is not empty -/
theorem encLoop_cur_ne {U : Unicode} {g : Nat} {r : List Runes} {text : Runes} {s s' : LoopState} (hs : LoopOk s) (hne : text ≠ []) (h : encLoop U g r text s = (.ok (), s')) :
    s'.cur.enc ≠ [] := by
  obtain ⟨a, c, rfl⟩ : ∃ a c, text = a ++ [c] := by
    rcases List.eq_nil_or_concat text with h | ⟨a, c, h⟩
    · exact absurd h hne
    · exact ⟨a, c, by rw [h, List.concat_eq_append]⟩
  rw [encLoop_append] at h
  rcases h1 : encLoop U g r a s with ⟨_ | _ | _, s1⟩ <;> rw [h1] at h <;> try (simp at h; done)
  dsimp only at h
  have hs1 : LoopOk s1 := (encLoop_inv_ok (U := U) (g := g) (r := r) (fun _ _ => True) (fun _ _ _ _ _ _ => trivial) (fun _ _ _ _ _ _ _ _ => trivial) trivial hs h1).1
  have : ∀ x s2, LoopOk s2 → (match encodeCharacter U s2.st x s2.cur.enc with
          | .err e => ((.err e, s2) : Outcome Unit × LoopState)
          | .panic => (.panic, s2)
          | .ok (st, enc) => encLoop U g r [] { s2 with st := st, cur := { s2.cur with enc := enc } }) = (.ok (), s') → s'.cur.enc ≠ [] := by
    intro x s2 hs2 he
    rw [encodeCharacter_eq U s2.st hs2.plain.b hs2.plain.tab] at he
    rcases hf : findInTables (U.toUpper x) 0 characterTables with _ | ⟨t, i⟩
    · rw [hf] at he; simp at he
    · rw [hf] at he
      simp only [encLoop, Prod.mk.injEq, true_and] at he
      subst he
      simp [word_ne]
  simp only [encLoop] at h
  by_cases hx : keyExhausted g s1 = true
  · rw [if_pos hx] at h
    rcases hn : nextChunk U g r s1 with ⟨_ | _ | _, s2⟩ <;> rw [hn] at h <;> try (simp at h; done)
    exact this c s2 (hs1.next hn) h
  · rw [if_neg hx] at h
    exact this c s1 hs1 h

theorem lettersUsed_twice {a b : List Chunk} {x y : Chunk} (hx : x.enc ≠ []) (hy : y.enc ≠ []) (hk : x.key = y.key) (hm : y ∈ b) : ¬ (lettersUsed (a ++ x :: b)).Nodup := by
  intro h
  have e : lettersUsed (a ++ x :: b) = lettersUsed a ++ ((List.range x.enc.length).map (fun p => (x.key, p)) ++ lettersUsed b) := by simp [lettersUsed]
  rw [e, List.nodup_append] at h
  have h2 := h.2.1
  rw [List.nodup_append] at h2
  have l1 : 0 < x.enc.length := List.length_pos_of_ne_nil hx
  have l2 : 0 < y.enc.length := List.length_pos_of_ne_nil hy
  refine h2.2.2 (x.key, 0) (by simp [l1]) (x.key, 0) ?_ rfl
  simp only [lettersUsed, List.mem_flatMap, List.mem_map, List.mem_range, Prod.mk.injEq]
  exact ⟨y, hm, 0, l2, hk.symm, rfl⟩

end K431
