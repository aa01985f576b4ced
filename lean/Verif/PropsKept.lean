import Verif.FaceKeeps
import Verif.PropsHistory

/-!
# C114: the letters of a stored key never change
-/

namespace K431
open Spec

/-- every step carries the keys -/
theorem step_carry {U : Unicode} {P : Inst → Msg → Prop} {h h' : Hist} (hs : HStep U P h h') : KeepsFlow h.inst h'.inst := by
  cases hs with
  | newKey hk => exact KeepsFlow.newKey hk
  | generate hk => exact KeepsFlow.generateKeys hk
  | deleteKey noise ids => exact KeepsFlow.deleteKey U _ _ _
  | deleteKeyByString noise args => exact KeepsFlow.deleteKey U _ _ _
  | deleteKeysBySummary noise lines => exact KeepsFlow.deleteBySummary U _ _ _
  | importKeys noise o filter loaded => exact KeepsFlow.importKeys U _ _ _ _ _
  | mark id => exact KeptAlike.carry (Nat.le_refl _) (KeptAlike.mark U _ _ _)
  | deleteMessage noise ids => exact KeepsFlow.deleteMessage _ _ _
  | deleteMessageByString noise args => exact KeepsFlow.deleteMessage _ _ _
  | decipher _ hd => exact (KeepsFlow.decipher hd).trans (KeepsFlow.messages _ _)
  | tryDecipher _ hd => exact (KeepsFlow.tryDecipher hd).trans (KeepsFlow.messages _ _)
  | encipher _ he hP => exact (KeepsFlow.encipherT he).trans (KeepsFlow.messages _ _)
  | encipherOther he hP => exact KeepsFlow.encipherT he
  | create hp hm hP => exact KeepsFlow.newTextMessage hm

/-- **C114**: take any two moments of a history of generating, deleting, importing and marking keys, and of creating, enciphering, deciphering and deleting messages, with or without named keys, whether the calls succeed or fail.
A key that is in the store at both moments has the same letters, the same dates, the same comment and the same mark of compromise.  (A key is recognised by the array of its id.  Its id, its keepers and its mark of use can change, see C16, C26 and C113.) -/
theorem C114_kept (U : Unicode) (P : Inst → Msg → Prop) (inst : Inst) (h h' : Hist)
    (ha : (inst.keys.map (fun k => k.id.addr)).Nodup) (hn : ∀ k ∈ inst.keys, k.id.addr < inst.nextAddr)
    (hr : Relation.ReflTransGen (HStep U P) ⟨inst, []⟩ h) (hr' : Relation.ReflTransGen (HStep U P) h h') :
    ∀ k ∈ h.inst.keys, ∀ k' ∈ h'.inst.keys, k'.id.addr = k.id.addr →
      k'.runes = k.runes ∧ k'.created = k.created ∧ k'.expires = k.expires ∧ k'.comment = k.comment ∧ k'.compromised = k.compromised := by
  have key : ∀ {x y : Hist}, Relation.ReflTransGen (HStep U P) x y → KeepsFlow x.inst y.inst := by
    intro x y hxy
    induction hxy with
    | refl => exact KeepsFlow.refl _
    | tail _ hstep ih => exact ih.trans (step_carry hstep)
  have f1 := key hr ⟨ha, hn⟩
  have f2 := key hr' f1.addrs
  intro k hk k' hk' hka
  rcases f2.origin k' hk' with hnew | ⟨k0, hk0, e⟩
  · have := f1.addrs.fresh k hk
    omega
  · have h0 : k0.id.addr = k'.id.addr := congrArg Prod.fst e
    have : k0 = k := by
      obtain ⟨i, hi⟩ := List.mem_iff_getElem?.1 hk0
      obtain ⟨j, hj⟩ := List.mem_iff_getElem?.1 hk
      have hij : i = j := by
        apply nodup_getElem? f1.addrs.nodup (a := k.id.addr)
        · rw [List.getElem?_map, hi, ← hka, ← h0]; rfl
        · rw [List.getElem?_map, hj]; rfl
      subst hij
      rw [hi] at hj; cases hj; rfl
    subst this
    simp only [Key.kept, Prod.mk.injEq] at e
    exact ⟨e.2.1.symm, e.2.2.1.symm, e.2.2.2.1.symm, e.2.2.2.2.2.symm, e.2.2.2.2.1.symm⟩

/-- not vacuous: after the four radiograms of `exFour`, of which two have failed, both ids have changed, and both marks; the letters are the same -/
example : Relation.ReflTransGen (HStep unicode15 (fun _ m => m.keyId.val = [])) ⟨exStation, []⟩ exFour ∧
    exFour.inst.keys.map (fun k => k.id.addr) = exStation.keys.map (fun k => k.id.addr) ∧
    exFour.inst.keys.map (fun k => k.id.val) ≠ exStation.keys.map (fun k => k.id.val) ∧
    exFour.inst.keys.map Key.used = [true, true] ∧ exStation.keys.map Key.used = [false, false] ∧
    exFour.inst.keys.map Key.runes = [lit "QWERTYUIOP", lit "ASDFGHJKLZ"] := by
  have hP : ∀ (h : Hist) (s : String), Relation.ReflTransGen (HStep unicode15 (fun _ m => m.keyId.val = [])) h (exSend h [s]) := by
    intro h s
    apply exSend_step
    intro r rest p t' i m e hp hh
    simp only [List.map_cons, List.map_nil, List.cons.injEq] at e
    obtain ⟨rfl, rfl⟩ := e
    exact handed_auto hp hh
  exact ⟨(((hP _ _).trans (hP _ _)).trans (hP _ _)).trans (hP _ _), by decide +kernel, by decide +kernel, by decide +kernel, by decide +kernel, by decide +kernel⟩

end K431
