import Verif.HistNamed
import Verif.PropsHistory

/-!
# C14: only keys named by the operator are ever used twice
-/

namespace K431
open Spec

/-- The message names the key whose id lies in the array `a`. -/
def Names (inst : Inst) (m : Msg) (a : Nat) : Prop := m.keyId.val ≠ [] ∧ ∃ k ∈ inst.keys, k.id.addr = a ∧ k.id.val = m.keyId.val

/-- The invariant for one key. -/
structure OneUse (a : Nat) (h : Hist) : Prop where
  group : h.inst.groupSize ≠ 0
  addrs : Addrs h.inst
  once : h.spent.count a ≤ 1
  old : a ∈ h.spent → a < h.inst.nextAddr
  marked : ∀ k ∈ h.inst.keys, k.id.addr = a → a ∈ h.spent → k.used = true

theorem OneUse.flow {a : Nat} {inst inst' : Inst} {sp : List Nat} (h : OneUse a ⟨inst, sp⟩) (hf : Flow inst inst') : OneUse a ⟨inst', sp⟩ := by
  have f := hf h.addrs
  refine ⟨by rw [f.group]; exact h.group, f.addrs, h.once, fun ha => Nat.lt_of_lt_of_le (h.old ha) f.next, ?_⟩
  intro k hk hka hm
  rcases f.origin k hk with hn | ⟨k0, hk0, h0, hu⟩
  · have := h.old hm; simp only at this; omega
  · exact hu (h.marked k0 hk0 (h0.trans hka) hm)

theorem OneUse.encipher {U : Unicode} (hU : U.Lawful) {noise : Nat → Rune} {f : Runes} {inst inst' : Inst} {m m' : Msg}
    {o : Outcome (List Chunk)} {sp : List Nat} {a : Nat} (h : OneUse a ⟨inst, sp⟩) (he : encipherT U noise f inst m = (o, inst', m'))
    (hno : ¬ Names inst m a) (hd : Distinguishable U inst.keys) : OneUse a ⟨inst', sp ++ consumed inst.keys o⟩ := by
  by_cases hok : ∀ c, o ≠ .ok c
  · obtain ⟨o', h1, h2⟩ := encipherT_encipher he hok
    have hc : consumed inst.keys o = [] := by
      rcases o with c | e | _
      · exact absurd rfl (hok c)
      · rfl
      · rfl
    rw [hc, List.append_nil]
    exact h.flow (Keeps.encipher_fails hU h.group h2 h1 hd).flow
  · simp only [not_forall, not_not] at hok
    obtain ⟨chunks, rfl⟩ := hok
    obtain ⟨i, k, rest, q1, q2, q3, q4, q5, q6, q7, q8, q9, q10, q11, q12⟩ := encipher_marks hU hd he
    have hkeeps : Keeps inst inst' := by
      refine ⟨Nat.le_of_eq q7.symm, q8, q6.length, ?_⟩
      intro j x hx
      obtain ⟨x', a1, b1⟩ := q6.symm.get hx
      refine ⟨x', a1, congrArg (fun k => k.id.addr) b1, ?_⟩
      intro hu
      have := q9 j (by simp [usedAt, hx, hu])
      simpa [usedAt, a1] using this
    have hinj : ∀ (i j : Nat) (k k' : Key), inst.keys[i]? = some k → inst.keys[j]? = some k' → k.id.addr = k'.id.addr → i = j := by
      intro i j k k' hi hj hkk
      apply nodup_getElem? h.addrs.nodup (a := k.id.addr)
      · rw [List.getElem?_map, hi]; rfl
      · rw [List.getElem?_map, hj, hkk]; rfl
    have hcons : consumed inst.keys (.ok chunks) = k.id.addr :: rest.filterMap (fun j => (inst.keys[j]?).map (fun k => k.id.addr)) := by
      have : consumed inst.keys (.ok chunks) = (keysOf chunks).filterMap (fun j => (inst.keys[j]?).map (fun k => k.id.addr)) := by
        simp only [consumed, keysOf, List.filterMap_map]; rfl
      rw [this, q3]
      simp [q1]
    have hrest : (rest.filterMap (fun j => (inst.keys[j]?).map (fun k => k.id.addr))).Nodup := by
      apply List.Nodup.filterMap _ q4
      intro i j b hi hj
      simp only [Option.mem_def, Option.map_eq_some_iff] at hi hj
      obtain ⟨k, hk, hka⟩ := hi
      obtain ⟨k', hk', hka'⟩ := hj
      exact hinj _ _ _ _ hk hk' (hka.trans hka'.symm)
    have hmemr : ∀ b, b ∈ rest.filterMap (fun j => (inst.keys[j]?).map (fun k => k.id.addr)) ↔ ∃ j ∈ rest, ∃ k, inst.keys[j]? = some k ∧ k.id.addr = b := by
      intro b
      simp only [List.mem_filterMap, Option.map_eq_some_iff]
    have hcount : (consumed inst.keys (.ok chunks)).count a ≤ 1 := by
      rw [hcons]
      by_cases hauto : m.keyId.val = []
      · refine List.nodup_iff_count_le_one.1 (List.nodup_cons.2 ⟨?_, hrest⟩) a
        intro hm
        obtain ⟨j, hj, k', hk', hka⟩ := (hmemr _).1 hm
        have := hinj _ _ _ _ hk' q1 hka
        subst this
        exact (q12 hauto).1 hj
      · have hka : k.id.addr ≠ a := fun e => hno ⟨hauto, k, List.mem_of_getElem? q1, e, q11 hauto⟩
        rw [List.count_cons_of_ne hka]
        exact List.nodup_iff_count_le_one.1 hrest a
    have hnew : a ∈ consumed inst.keys (.ok chunks) → ∃ (j : Nat) (k' : Key), inst.keys[j]? = some k' ∧ k'.id.addr = a ∧ k'.used = false ∧ usedAt inst'.keys j = true := by
      rw [hcons]
      intro hm
      rcases List.mem_cons.1 hm with e | e
      · by_cases hauto : m.keyId.val = []
        · exact ⟨i, k, q1, e.symm, q2, (q12 hauto).2⟩
        · exact absurd ⟨hauto, k, List.mem_of_getElem? q1, e.symm, q11 hauto⟩ hno
      · obtain ⟨j, hj, k', hk', hka⟩ := (hmemr _).1 e
        obtain ⟨k2, hk2, hu⟩ := q5 j hj
        rw [hk'] at hk2; cases hk2
        exact ⟨j, k', hk', hka, hu, q10 j hj⟩
    have hi := h.flow hkeeps.flow
    refine ⟨hi.group, hi.addrs, ?_, ?_, ?_⟩
    · simp only [List.count_append]
      by_cases hm : a ∈ consumed inst.keys (.ok chunks)
      · obtain ⟨j, k', hk', hka, hu, _⟩ := hnew hm
        have hns : a ∉ sp := by
          intro hs
          rw [h.marked k' (List.mem_of_getElem? hk') hka hs] at hu; cases hu
        rw [List.count_eq_zero.2 hns]; omega
      · rw [List.count_eq_zero.2 hm]
        exact h.once
    · intro ha
      rcases List.mem_append.1 ha with ha | ha
      · exact hi.old ha
      · obtain ⟨j, k', hk', hka, _, _⟩ := hnew ha
        have := h.addrs.fresh k' (List.mem_of_getElem? hk')
        simp only at this ⊢
        omega
    · intro x hx hxa ha
      rcases List.mem_append.1 ha with ha | ha
      · exact hi.marked x hx hxa ha
      · obtain ⟨j, k', hk', hka, _, hu⟩ := hnew ha
        obtain ⟨n, hn⟩ := List.mem_iff_getElem?.1 hx
        obtain ⟨y, hy, hym⟩ := q6.get hn
        have hya : y.id.addr = x.id.addr := by
          have : y.mat.id.addr = x.mat.id.addr := by rw [hym]
          exact this
        have := hinj _ _ _ _ hy hk' (hya.trans (hxa.trans hka.symm))
        subst this
        simpa [usedAt, hn] using hu

/-- **C14** for every single key: a key that no message names is used at most once and is marked when it has been used, whatever other keys are named, as long as the ids are pairwise different strings whenever `Encipher` is called.
So the only keys that can be used twice are those that the operator names.  (`C14_partial` is the case that no message names a key.) -/
theorem C14_unnamed (U : Unicode) (hU : U.Lawful) (inst : Inst) (h : Hist) (a : Nat) (hg : inst.groupSize ≠ 0)
    (ha : (inst.keys.map (fun k => k.id.addr)).Nodup) (hn : ∀ k ∈ inst.keys, k.id.addr < inst.nextAddr)
    (hr : Relation.ReflTransGen (HStep U (fun i m => ¬ Names i m a ∧ Distinguishable U i.keys)) ⟨inst, []⟩ h) :
    h.spent.count a ≤ 1 ∧ ∀ k ∈ h.inst.keys, k.id.addr = a → a ∈ h.spent → k.used = true := by
  suffices OneUse a h from ⟨this.once, this.marked⟩
  induction hr with
  | refl => exact ⟨hg, ⟨ha, hn⟩, by simp, by simp, by simp⟩
  | tail _ hstep ih =>
    cases hstep with
    | newKey hk => exact ih.flow (Flow.newKey hk)
    | generate hk => exact ih.flow (Flow.generateKeys hk)
    | deleteKey noise ids => exact ih.flow (Flow.deleteKey U _ _ _)
    | deleteKeyByString noise args => exact ih.flow (Flow.deleteKey U _ _ _)
    | deleteKeysBySummary noise lines => exact ih.flow (Flow.deleteBySummary U _ _ _)
    | importKeys noise o filter loaded => exact ih.flow (Flow.importKeys U _ _ _ _ _)
    | mark id => exact ih.flow (Flow.mark U _ _)
    | deleteMessage noise ids => exact ih.flow (Flow.deleteMessage _ _ _)
    | deleteMessageByString noise args => exact ih.flow (Flow.deleteMessage _ _ _)
    | decipher _ hd => exact ih.flow ((Flow.decipher hd).trans (Flow.messages _ _))
    | tryDecipher _ hd => exact ih.flow ((Flow.tryDecipher hd).trans (Flow.messages _ _))
    | encipher _ he hP => exact (ih.encipher hU he hP.1 hP.2).flow (Flow.messages _ _)
    | encipherOther he hP => exact ih.encipher hU he hP.1 hP.2
    | @create noise E f inst inst' r rest t t' p o sp hp hm hP =>
      rcases newTextMessage_flow hm with ⟨h1, h2⟩ | ⟨i, m, n, h1, h2, i2, h3, _, h5⟩
      · rw [h1]
        simp only [List.append_nil]
        exact ih.flow h2
      · rw [h1]
        simp only
        obtain ⟨q1, q2⟩ := hP i m h1
        have hi : OneUse a ⟨i, sp⟩ := by rw [h2]; exact ih.flow (Flow.alloc _ n)
        rw [h3] at h5
        exact (hi.encipher hU (m' := (encipherT U noise f i m).2.2) (inst' := (encipherT U noise f i m).2.1) rfl q1 q2).flow h5

/-- the history: a message names key A, then a long message comes without a name -/
def exNamedFirst : Hist := exSend (exSend ⟨exStation, []⟩ ["OP DE SM = HEJ", "", "A"]) ["OP DE SM = HEJ DU DIN"]

/-- it is a history as in the theorem for key B, which lies in array 2 … -/
theorem exNamedFirst_steps : Relation.ReflTransGen (HStep unicode15 (fun i m => ¬ Names i m 2 ∧ Distinguishable unicode15 i.keys)) ⟨exStation, []⟩ exNamedFirst := by
  have hN : ∀ (h : Hist) (s : String), Distinguishable unicode15 h.inst.keys → (∀ k ∈ h.inst.keys, k.id.addr = 2 → k.id.val ≠ [65]) →
      Relation.ReflTransGen (HStep unicode15 (fun i m => ¬ Names i m 2 ∧ Distinguishable unicode15 i.keys)) h (exSend h [s, "", "A"]) := by
    intro h s hd hk
    apply exSend_step
    intro r rest p t' i m e hp hh
    simp only [List.map_cons, List.map_nil, List.cons.injEq] at e
    obtain ⟨rfl, rfl⟩ := e
    rcases p with p | e | _
    · simp only [handed] at hh
      split at hh
      · split at hh
        · cases hh
        · simp only [Option.some.injEq, Prod.mk.injEq] at hh
          rw [← hh.1, ← hh.2]
          refine ⟨?_, hd⟩
          rintro ⟨-, k, k1, k2, k3⟩
          exact hk k k1 k2 (k3.trans (by decide +kernel : toUpperStr unicode15 (trimSpace unicode15 (lit "A")) = [65]))
      · cases hh
    · cases hh
    · cases hh
  have hA : ∀ (h : Hist) (s : String), Distinguishable unicode15 h.inst.keys →
      Relation.ReflTransGen (HStep unicode15 (fun i m => ¬ Names i m 2 ∧ Distinguishable unicode15 i.keys)) h (exSend h [s]) := by
    intro h s hd
    apply exSend_step
    intro r rest p t' i m e hp hh
    simp only [List.map_cons, List.map_nil, List.cons.injEq] at e
    obtain ⟨rfl, rfl⟩ := e
    refine ⟨fun hn => hn.1 (handed_auto hp hh), ?_⟩
    rcases p with p | e | _
    · simp only [handed] at hh
      split at hh
      · simp only [Option.some.injEq, Prod.mk.injEq] at hh; rw [← hh.1]; exact hd
      · cases hh
    · cases hh
    · cases hh
  exact (hN ⟨exStation, []⟩ "OP DE SM = HEJ" (by decide) (by decide)).trans (hA _ "OP DE SM = HEJ DU DIN" (by decide +kernel))

/-- … and key A is used twice, key B once. -/
example : exNamedFirst.spent = [1, 1, 2] ∧ exNamedFirst.spent.count 2 = 1 := by decide +kernel

end K431
