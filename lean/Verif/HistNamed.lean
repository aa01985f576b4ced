import Verif.HistLemmas
import Verif.NamedLemmas

/-!
# Lemmas: histories in which messages name their keys
-/

namespace K431
open Spec

/-- both ways of getting the first key have in common: the key was not marked, and the message has its id -/
theorem Enriched.key {U : Unicode} (hU : U.Lawful) {inst inst1 : Inst} {m m1 : Msg} {i : Nat} (hg : inst.groupSize ≠ 0) (hd : Distinguishable U inst.keys)
    (h : Enriched U inst m inst1 m1) (hi : getKey U inst1.keys m1.keyId.val = some i) :
    ∃ k : Key, inst.keys[i]? = some k ∧ k.used = false ∧ k.id.val = m1.keyId.val ∧ m1.keyId.val ≠ [] ∧ inst1.nextAddr = inst.nextAddr ∧
      inst1.groupSize = inst.groupSize ∧ SameMat inst1.keys inst.keys ∧ ∀ j, j ≠ i → usedAt inst1.keys j = usedAt inst.keys j := by
  cases h with
  | preset j k h1 h2 h3 h4 h5 h6 =>
    rw [← h4] at hi
    have := hd.getKey hU h3 hi
    subst this
    exact ⟨k, h3, h5, h4, h1, rfl, rfl, SameMat.refl _, fun _ _ => rfl⟩
  | auto j k h1 h2 h3 h4 =>
    simp only at hi
    rw [getKey_congr U _ (setUsed_sameMat inst.keys j true).ids] at hi
    have := hd.getKey hU h4 hi
    subst this
    obtain ⟨k', e1, e2, _⟩ := findKey_some h3
    rw [h4] at e1; cases e1
    have hil := (List.getElem?_eq_some_iff.1 h4).1
    refine ⟨k, h4, e2.1, rfl, ?_, rfl, rfl, setUsed_sameMat _ _ _, ?_⟩
    · intro e
      simp only at e
      have := e2.2.1
      rw [e] at this
      exact hg (by simpa using this.symm)
    · intro n hn
      simp only
      rw [usedAt_setUsed hil, if_neg (fun e => hn e.symm)]

/-- a failing Encipher keeps all marks, whoever has chosen the key -/
theorem Keeps.encipher_fails {U : Unicode} (hU : U.Lawful) {noise : Nat → Rune} {f : Runes} {inst inst' : Inst} {m m' : Msg}
    {o : Outcome Unit} (hg : inst.groupSize ≠ 0) (h : encipher U noise f inst m = (o, inst', m')) (ho : o ≠ .ok ())
    (hd : Distinguishable U inst.keys) : Keeps inst inst' := by
  have key : ∀ (inst1 : Inst) (m1 : Msg) (i : Nat) (s s2 : LoopState) (ol : Outcome Unit) (ct : Runes),
      Enriched U inst (withId f m) inst1 m1 → getKey U inst1.keys m1.keyId.val = some i →
      encLoop U inst.groupSize m1.recipients m1.plainText ⟨inst1.keys, newState, [], ⟨[], i⟩⟩ = (ol, s) →
      s2.keys = s.keys → (∀ j, j ∈ keysOf (s2.chunks ++ [s2.cur]) ↔ j ∈ keysOf (s.chunks ++ [s.cur])) →
      Keeps inst (release U noise inst1 { m1 with cipherText := [] } s2 ct).1 := by
    intro inst1 m1 i s s2 ol ct hen hgk hel hs2 hs2c
    obtain ⟨t1, t2, t3, t4⟩ := encLoop_touched (loopOk_start _ _) rfl hel
    simp only at t1 t2 t3 t4
    obtain ⟨k, h4, hku, hid, hne, hn, hgr, hsm1, hother⟩ := hen.key hU hg hd hgk
    have hgk2 : getKey U s2.keys m1.keyId.val = some i := by
      rw [hs2, getKey_congr U _ t1.ids]; exact hgk
    have hget := release_get (noise := noise) (inst := inst1) (m := { m1 with cipherText := [] }) (ct := ct) hne hgk2
    have hsm : SameMat s2.keys inst.keys := by rw [hs2]; exact t1.trans hsm1
    refine ⟨Nat.le_of_eq hn.symm, hgr, ?_, ?_⟩
    · have hln : ∀ n, (release U noise inst1 { m1 with cipherText := [] } s2 ct).1.keys.length ≤ n ↔ inst.keys.length ≤ n := by
        intro n
        rw [← List.getElem?_eq_none_iff, hget n, Option.map_eq_none_iff, List.getElem?_eq_none_iff, hsm.length]
      exact Nat.le_antisymm ((hln _).2 (Nat.le_refl _)) ((hln _).1 (Nat.le_refl _))
    · intro n x hx
      obtain ⟨x', a, b⟩ := hsm.symm.get hx
      have hgn := hget n
      rw [a, Option.map_some] at hgn
      refine ⟨_, hgn, ?_, ?_⟩
      · simp only [releasedKey, Sl.wiped]
        have : x'.mat.id = x.mat.id := by rw [b]
        replace this : x'.id = x.id := this
        split <;> simp [this]
      · intro hu
        have hni : n ≠ i := by
          intro e; subst e
          rw [h4] at hx; cases hx
          rw [hku] at hu; cases hu
        have hnu : usedAt inst1.keys n = true := by
          rw [hother n hni]; simp [usedAt, hx, hu]
        have hnot : n ∉ keysOf (s2.chunks ++ [s2.cur]) := by
          rw [hs2c]
          intro hm
          rcases t3 n hm with e | e
          · exact hni e
          · rw [hnu] at e; cases e
        have hcl : ¬ (n = i ∨ n ∈ keysOf (s2.chunks ++ [s2.cur])) := fun e => e.elim hni hnot
        have hux : usedAt s2.keys n = true := by
          rw [hs2, t2 n (by rw [← hs2c]; exact hnot)]; exact hnu
        simp only [releasedKey, if_neg hcl]
        simp only [usedAt, a] at hux
        exact hux
  cases K431.encipher_fail hg h ho with
  | enrich => exact Keeps.refl _
  | lost inst1 m1 hen _ _ =>
    cases hen with
    | preset j k h1 => exact Keeps.refl _
    | auto j k h1 h2 h3 h4 => exact Keeps.setUsed inst j
  | loop inst1 m1 i s hen hgk hel => exact key _ _ _ _ _ _ _ hen hgk hel rfl (fun _ => Iff.rfl)
  | cipher inst1 m1 i s cur out hen hgk hel hck _ _ =>
    refine key _ _ _ _ _ _ _ hen hgk hel rfl ?_
    intro j
    simp [keysOf, hck]

/-- what a successful Encipher does to the marks, whoever has chosen the first key -/
theorem encipher_marks {U : Unicode} (hU : U.Lawful) {noise : Nat → Rune} {f : Runes} {inst inst' : Inst} {m m' : Msg}
    {chunks : List Chunk} (hd : Distinguishable U inst.keys) (h : encipherT U noise f inst m = (.ok chunks, inst', m')) :
    ∃ (i : Nat) (k : Key) (rest : List Nat), inst.keys[i]? = some k ∧ k.used = false ∧ keysOf chunks = i :: rest ∧ rest.Nodup ∧
      (∀ j ∈ rest, ∃ k' : Key, inst.keys[j]? = some k' ∧ k'.used = false) ∧ SameMat inst'.keys inst.keys ∧
      inst'.nextAddr = inst.nextAddr ∧ inst'.groupSize = inst.groupSize ∧
      (∀ j, usedAt inst.keys j = true → usedAt inst'.keys j = true) ∧ (∀ j ∈ rest, usedAt inst'.keys j = true) ∧
      (m.keyId.val ≠ [] → k.id.val = m.keyId.val) ∧ (m.keyId.val = [] → i ∉ rest ∧ usedAt inst'.keys i = true) := by
  obtain ⟨inst1, m1, i, s, out, e⟩ := encipherT_ok h
  obtain ⟨k, h4, hku, hid, hne, hn, hgr, hsm1, hother⟩ := e.enriched.key hU e.hg hd e.first
  obtain ⟨t, t1, t2, t3, t4, t5⟩ := encLoop_marks (loopOk_start _ _) rfl e.loop
  simp only at t1 t2 t4
  have hk : inst'.keys = s.keys := by rw [e.hinst]
  have hused : ∀ j, usedAt inst.keys j = true → usedAt inst1.keys j = true := by
    intro j hj
    by_cases hji : j = i
    · subst hji; simp [usedAt, h4, hku] at hj
    · rw [hother j hji]; exact hj
  refine ⟨i, k, t, h4, hku, by rw [e.keysOf_eq]; exact t1, t3, ?_, by rw [hk]; exact e.sameMat, by rw [e.hinst]; exact hn, by rw [e.hinst]; exact hgr, ?_, ?_, ?_, ?_⟩
  · intro j hj
    obtain ⟨k', a1, a2⟩ := t4 j hj
    obtain ⟨k'', b1, b2⟩ := hsm1.get a1
    refine ⟨k'', b1, ?_⟩
    by_cases hji : j = i
    · subst hji; rw [h4] at b1; cases b1; exact hku
    · have := hother j hji
      simp only [usedAt, a1, b1] at this
      rw [← this]; exact a2.1
  · intro j hj
    rw [hk, t2 j, hused j hj]; rfl
  · intro j hj
    rw [hk, t2 j]; simp [hj]
  · intro hnamed
    have hen := e.enriched
    cases hen with
    | preset j k' h1 h2 h3 h4 h5 h6 => rw [hid, (withId_fields f m).2.2.1]
    | auto j k' h1 => rw [(withId_fields f m).2.2.1] at h1; exact absurd h1 hnamed
  · intro hauto
    obtain ⟨u1, u2, -⟩ := e.auto_flags hU hauto hd
    rw [e.keysOf_eq, t1] at u1 u2
    refine ⟨(List.nodup_cons.1 u2).1, ?_⟩
    rw [u1 i]; simp

end K431
