import Verif.HistNamed
import Verif.PropsHistory

/-!
# C113: a key that has been marked as used stays marked
-/

namespace K431
open Spec

/-- **C113**, full statement: start with a store whose key ids are pairwise different strings of letters, each in its own array.  Take any two moments of a history, the later one after any operations, whether they
succeed or fail.  A key that is marked as used at the earlier moment and still in the store at the later one is marked then too. -/
def C113_Statement (P : Inst → Msg → Prop) : Prop :=
  ∀ (U : Unicode), U.Lawful → ∀ (inst : Inst) (h h' : Hist), inst.groupSize ≠ 0 → WellFormed inst.keys → StoreOk U inst →
    Relation.ReflTransGen (HStep U P) ⟨inst, []⟩ h → Relation.ReflTransGen (HStep U P) h h' →
    ∀ k ∈ h.inst.keys, k.used = true → ∀ k' ∈ h'.inst.keys, k'.id.addr = k.id.addr → k'.used = true

/-- the third moment: three radiograms have been entered, a long one that fails, a short one, a long one that fails -/
def exMarked : Hist :=
  exSend (exSend (exSend ⟨exStation, []⟩ ["OP DE SM = EEEEEEEEEEEEEEEEEE"]) ["OP DE SM = HEJ"]) ["OP DE SM = EEEEEEEEEEEEEEEEEE"]

/-- the fourth: a long one that fails -/
def exUnmarked : Hist := exSend exMarked ["OP DE SM = EEEEEEEEEEEEEEEEEE"]

/-- The statement is false, even if no message comes with a key id: failing calls overwrite the ids of their keys with random runes; when two ids have become equal as strings, a failing call takes the mark off the wrong key, one that has been used. -/
theorem C113_violated : ¬ C113_Statement (fun _ m => m.keyId.val = []) := by
  intro h
  have hP : ∀ (h : Hist) (s : String), Relation.ReflTransGen (HStep unicode15 (fun _ m => m.keyId.val = [])) h (exSend h [s]) := by
    intro h s
    apply exSend_step
    intro r rest p t' i m e hp hh
    simp only [List.map_cons, List.map_nil, List.cons.injEq] at e
    obtain ⟨rfl, rfl⟩ := e
    exact handed_auto hp hh
  have := h unicode15 unicode15_lawful exStation exMarked exUnmarked (by decide) (by decide) (by decide) (((hP _ _).trans (hP _ _)).trans (hP _ _)) (hP _ _)
  revert this
  decide +kernel

/-- what happened: the first key has been used for a message and loses its mark -/
example : exMarked.spent = [1] ∧ exMarked.inst.keys.map Key.used = [true, false] ∧ exUnmarked.inst.keys.map (fun k => (k.id.addr, k.used)) = [(1, false), (2, true)] := by
  decide +kernel

/-- every step keeps the marks -/
theorem step_flow {U : Unicode} (hU : U.Lawful) {h h' : Hist} (hg : h.inst.groupSize ≠ 0) (hs : HStep U (fun i _ => Distinguishable U i.keys) h h') : Flow h.inst h'.inst := by
  have henc : ∀ {noise : Nat → Rune} {f : Runes} {inst inst' : Inst} {m m' : Msg} {o : Outcome (List Chunk)}, inst.groupSize ≠ 0 → encipherT U noise f inst m = (o, inst', m') →
      Distinguishable U inst.keys → Flow inst inst' := by
    intro noise f inst inst' m m' o hg he hd
    by_cases hok : ∀ c, o ≠ .ok c
    · obtain ⟨o', h1, h2⟩ := encipherT_encipher he hok
      exact (Keeps.encipher_fails hU hg h2 h1 hd).flow
    · simp only [not_forall, not_not] at hok
      obtain ⟨chunks, rfl⟩ := hok
      obtain ⟨i, k, rest, -, -, -, -, -, q6, q7, q8, q9, -, -, -⟩ := encipher_marks hU hd he
      refine Keeps.flow ⟨Nat.le_of_eq q7.symm, q8, q6.length, ?_⟩
      intro j x hx
      obtain ⟨x', a1, b1⟩ := q6.symm.get hx
      refine ⟨x', a1, congrArg (fun k => k.id.addr) b1, ?_⟩
      intro hu
      have := q9 j (by simp [usedAt, hx, hu])
      simpa [usedAt, a1] using this
  cases hs with
  | newKey hk => exact Flow.newKey hk
  | generate hk => exact Flow.generateKeys hk
  | deleteKey noise ids => exact Flow.deleteKey U _ _ _
  | deleteKeyByString noise args => exact Flow.deleteKey U _ _ _
  | deleteKeysBySummary noise lines => exact Flow.deleteBySummary U _ _ _
  | importKeys noise o filter loaded => exact Flow.importKeys U _ _ _ _ _
  | mark id => exact Flow.mark U _ _
  | deleteMessage noise ids => exact Flow.deleteMessage _ _ _
  | deleteMessageByString noise args => exact Flow.deleteMessage _ _ _
  | decipher _ hd => exact (Flow.decipher hd).trans (Flow.messages _ _)
  | tryDecipher _ hd => exact (Flow.tryDecipher hd).trans (Flow.messages _ _)
  | encipher _ he hP => exact (henc hg he hP).trans (Flow.messages _ _)
  | encipherOther he hP => exact henc hg he hP
  | @create noise E f inst inst' r rest t t' p o sp hp hm hP =>
    rcases newTextMessage_flow hm with ⟨h1, h2⟩ | ⟨i, m, n, h1, h2, i2, h3, _, h5⟩
    · exact h2
    · have hi : Flow inst i := by rw [h2]; exact Flow.alloc _ n
      rw [h3] at h5
      exact hi.trans ((henc (m' := (encipherT U noise f i m).2.2) (inst' := (encipherT U noise f i m).2.1) (by rw [h2]; exact hg) rfl (hP i m h1)).trans h5)

theorem steps_flow {U : Unicode} (hU : U.Lawful) {h h' : Hist} (hg : h.inst.groupSize ≠ 0) (ha : Addrs h.inst)
    (hs : Relation.ReflTransGen (HStep U (fun i _ => Distinguishable U i.keys)) h h') : Flows h.inst h'.inst := by
  induction hs with
  | refl => exact Flow.refl _ ha
  | tail _ hstep ih =>
    exact Flow.trans (fun _ => ih) (step_flow hU (by rw [ih.group]; exact hg) hstep) ha

/-- **C113**, what holds: the mark stays if the key ids are pairwise different strings whenever `Encipher` is called.  Messages may name their keys, and calls may fail. -/
theorem C113_partial (U : Unicode) (hU : U.Lawful) (inst : Inst) (h h' : Hist) (hg : inst.groupSize ≠ 0)
    (ha : (inst.keys.map (fun k => k.id.addr)).Nodup) (hn : ∀ k ∈ inst.keys, k.id.addr < inst.nextAddr)
    (hr : Relation.ReflTransGen (HStep U (fun i _ => Distinguishable U i.keys)) ⟨inst, []⟩ h) (hr' : Relation.ReflTransGen (HStep U (fun i _ => Distinguishable U i.keys)) h h') :
    ∀ k ∈ h.inst.keys, k.used = true → ∀ k' ∈ h'.inst.keys, k'.id.addr = k.id.addr → k'.used = true := by
  have f1 := steps_flow hU hg ⟨ha, hn⟩ hr
  have f2 := steps_flow hU (by rw [f1.group]; exact hg) f1.addrs hr'
  intro k hk hu k' hk' hka
  rcases f2.origin k' hk' with hnew | ⟨k0, hk0, h0, hu0⟩
  · have := f1.addrs.fresh k hk
    omega
  · have : k0 = k := by
      obtain ⟨i, hi⟩ := List.mem_iff_getElem?.1 hk0
      obtain ⟨j, hj⟩ := List.mem_iff_getElem?.1 hk
      have hij : i = j := by
        apply nodup_getElem? f1.addrs.nodup (a := k.id.addr)
        · rw [List.getElem?_map, hi, ← hka, ← h0]; rfl
        · rw [List.getElem?_map, hj]; rfl
      subst hij
      rw [hi] at hj; cases hj; rfl
    subst this
    exact hu0 hu

/-- not vacuous: a short message marks the first key, then a long one fails -/
example : ∃ h h', Relation.ReflTransGen (HStep unicode15 (fun i _ => Distinguishable unicode15 i.keys)) ⟨exStation, []⟩ h ∧
    Relation.ReflTransGen (HStep unicode15 (fun i _ => Distinguishable unicode15 i.keys)) h h' ∧ h.inst.keys.map Key.used = [true, false] ∧
    h'.inst.keys.map Key.used = [true, false] ∧ h'.inst ≠ h.inst := by
  have hP : ∀ (h : Hist) (s : String), Distinguishable unicode15 h.inst.keys →
      Relation.ReflTransGen (HStep unicode15 (fun i _ => Distinguishable unicode15 i.keys)) h (exSend h [s]) := by
    intro h s hd
    apply exSend_step
    intro r rest p t' i m e hp hh
    simp only [List.map_cons, List.map_nil, List.cons.injEq] at e
    obtain ⟨rfl, rfl⟩ := e
    rcases p with p | e | _
    · simp only [handed] at hh
      split at hh
      · simp only [Option.some.injEq, Prod.mk.injEq] at hh; rw [← hh.1]; exact hd
      · cases hh
    · cases hh
    · cases hh
  exact ⟨_, _, hP ⟨exStation, []⟩ "OP DE SM = HEJ" (by decide), hP _ "OP DE SM = EEEEEEEEEEEEEEEEEE" (by decide +kernel), by decide +kernel, by decide +kernel, by decide +kernel⟩

end K431
