import Verif.AirLemmas
import Verif.KeyOrderLemmas
import Verif.PropsHistory

/-!
# C117: older keys are used before newer ones
-/

namespace K431
open Spec

/-- **C117**, full statement: take two moments of a history, the earlier `h1` and the later `h2`.  When at the later moment a message is
enciphered that names no key, and it takes a key that was not in the store at the earlier moment, then it takes every suitable key that was.
(A key is recognised by the array of its id; a key is taken if it was not marked before the call and is marked afterwards.) -/
def C117_Statement : Prop :=
  ∀ (U : Unicode), U.Lawful → ∀ (inst : Inst) (h1 h2 : Hist), (inst.keys.map (fun k => k.id.addr)).Nodup → (∀ k ∈ inst.keys, k.id.addr < inst.nextAddr) →
    Relation.ReflTransGen (HStep U (fun _ _ => True)) ⟨inst, []⟩ h1 → Relation.ReflTransGen (HStep U (fun _ _ => True)) h1 h2 →
    ∀ (noise : Nat → Rune) (f : Runes) (inst' : Inst) (m m' : Msg), m.keyId.val = [] → Distinguishable U h2.inst.keys →
      encipher U noise f h2.inst m = (.ok (), inst', m') →
      ∀ (i j : Nat) (k k' x x' : Key), h2.inst.keys[j]? = some k → inst'.keys[j]? = some k' → k.used = false → k'.used = true →
        (∀ y ∈ h1.inst.keys, y.id.addr ≠ k.id.addr) →
        h2.inst.keys[i]? = some x → inst'.keys[i]? = some x' → Selectable h2.inst.groupSize m.recipients x → (∃ y ∈ h1.inst.keys, y.id.addr = x.id.addr) →
        x'.used = true

/-- `exStation` after importing a third key from OP -/
def exLater : Hist := ⟨(importKeys unicode15 (fun _ => ⟨fun _ _ => -1, fun _ _ => -1⟩) ⟨false, false, fun _ => none⟩ (fun _ => true)
  (.ok ([exKey 7 "C" "ZXCVBNMPLK"], lit "OP")) exStation).2.2, []⟩

/-- and after deleting the first key -/
def exGap : Hist := ⟨(deleteKey unicode15 (fun _ => ⟨fun _ _ => -1, fun _ _ => -1⟩) exLater.inst [lit "A"]).2, []⟩

theorem exGap_reached : Relation.ReflTransGen (HStep unicode15 (fun _ _ => True)) ⟨exStation, []⟩ exGap :=
  .tail (.single (.importKeys _ _ _ _ _ _)) (.deleteKey _ _ _ _)

/-- The statement is false: the last key is moved to the place of the deleted one. -/
theorem C117_violated : ¬ C117_Statement := by
  intro h
  have hB : exGap.inst.keys[1]?.map (fun k => (k.id.val, k.id.addr)) = some (lit "B", 2) := by decide
  have := h unicode15 unicode15_lawful exStation ⟨exStation, []⟩ exGap (by decide) (by decide) .refl exGap_reached (fun _ => -1) []
    (encipher unicode15 (fun _ => -1) [] exGap.inst { exMsg "HEJ" with recipients := [lit "OP"] }).2.1 { exMsg "HEJ" with recipients := [lit "OP"] }
    (encipher unicode15 (fun _ => -1) [] exGap.inst { exMsg "HEJ" with recipients := [lit "OP"] }).2.2 rfl (by decide +kernel)
    (by decide +kernel) 1 0 _ _ _ _ (show exGap.inst.keys[0]? = some _ from rfl) rfl (by decide +kernel) (by decide +kernel) (by decide +kernel)
    (show exGap.inst.keys[1]? = some _ from rfl) rfl (by decide +kernel) (by decide +kernel)
  revert this
  decide +kernel

/-- what happened: the order was A, B, C; after A has been deleted it is C, B -/
example : exLater.inst.keys.map (fun k => k.id.val) = [lit "A", lit "B", lit "C"] ∧ exGap.inst.keys.map (fun k => k.id.val) = [lit "C", lit "B"] := by decide

/-- **C117** (partial): as long as no key of the earlier moment has been lost, each has its place in the store, before all newer ones -- whatever
else has been generated, imported and deleted, and whatever messages have been created, enciphered, deciphered and deleted. -/
theorem C117_places_partial (U : Unicode) (P : Inst → Msg → Prop) (h1 h2 : Hist) (ha : (h1.inst.keys.map (fun k => k.id.addr)).Nodup) (hn : ∀ k ∈ h1.inst.keys, k.id.addr < h1.inst.nextAddr) (hr : Relation.ReflTransGen (HStep U P) h1 h2)
    (hkept : ∀ y ∈ h1.inst.keys, ∃ x ∈ h2.inst.keys, x.id.addr = y.id.addr) :
    ∀ i, i < h1.inst.keys.length → (h2.inst.keys[i]?).map (fun k => k.id.addr) = (h1.inst.keys[i]?).map (fun k => k.id.addr) := by
  have key : ∀ {x y : Hist}, Relation.ReflTransGen (HStep U P) x y → OrderFlow x.inst y.inst := by
    intro x y hxy
    induction hxy with
    | refl => exact OrderFlow.refl _
    | tail _ hstep ih => exact ih.trans (step_order hstep)
  obtain ⟨fr, e⟩ := (key hr ⟨ha, hn⟩).2 h1.inst.arrays [] (by simp) (by
    intro x hx
    obtain ⟨y, hy, rfl⟩ := List.mem_map.1 hx
    obtain ⟨z, hz, hzy⟩ := hkept y hy
    exact List.mem_map.2 ⟨z, hz, hzy⟩)
  intro i hi
  have h1' : h1.inst.arrays[i]? = (h1.inst.keys[i]?).map (fun k => k.id.addr) := by unfold Inst.arrays; rw [List.getElem?_map]
  have h2' : h2.inst.arrays[i]? = (h2.inst.keys[i]?).map (fun k => k.id.addr) := by unfold Inst.arrays; rw [List.getElem?_map]
  rw [← h1', ← h2', e, List.getElem?_append_left (by unfold Inst.arrays; rwa [List.length_map])]

/-- **C117** (partial): the order within the store.  When a message that names no key takes a key, it takes every suitable key before it. -/
theorem C117_order_partial (U : Unicode) (hU : U.Lawful) (noise : Nat → Rune) (f : Runes) (inst inst' : Inst) (m m' : Msg) (hauto : m.keyId.val = [])
    (hd : Distinguishable U inst.keys) (h : encipher U noise f inst m = (.ok (), inst', m')) (i j : Nat) (hij : i < j) (k k' x x' : Key)
    (hk : inst.keys[j]? = some k) (hk' : inst'.keys[j]? = some k') (hu : k.used = false) (hu' : k'.used = true)
    (hx : inst.keys[i]? = some x) (hx' : inst'.keys[i]? = some x') (hs : Selectable inst.groupSize m.recipients x) : x'.used = true := by
  obtain ⟨chunks, hT⟩ := encipher_T h
  obtain ⟨inst1, m1, a, s, out, e⟩ := encipherT_ok hT
  obtain ⟨hfl, _, _⟩ := e.auto_flags hU hauto hd
  have hj := hfl j
  simp only [usedAt, hk, hk', hu, hu', Bool.false_or] at hj
  have hi := hfl i
  simp only [usedAt, hx, hx'] at hi
  rw [hi, decide_eq_true (e.auto_order hU hauto hd j (of_decide_eq_true hj.symm) i hij x hx ((eligible_iff _ _ _ _).2 hs)), Bool.or_true]

/-- **C117** (partial; missing: histories that lose a key of the earlier moment, because then the last key is moved to its place): if every key of the
earlier moment is still in the store, newer keys are taken only together with all older ones that are suitable. -/
theorem C117_partial (U : Unicode) (hU : U.Lawful) (P : Inst → Msg → Prop) (inst : Inst) (h1 h2 : Hist) (ha : (inst.keys.map (fun k => k.id.addr)).Nodup)
    (hn : ∀ k ∈ inst.keys, k.id.addr < inst.nextAddr) (hr : Relation.ReflTransGen (HStep U P) ⟨inst, []⟩ h1) (hr' : Relation.ReflTransGen (HStep U P) h1 h2)
    (hkept : ∀ y ∈ h1.inst.keys, ∃ x ∈ h2.inst.keys, x.id.addr = y.id.addr)
    (noise : Nat → Rune) (f : Runes) (inst' : Inst) (m m' : Msg) (hauto : m.keyId.val = []) (hd : Distinguishable U h2.inst.keys)
    (h : encipher U noise f h2.inst m = (.ok (), inst', m')) (i j : Nat) (k k' x x' : Key)
    (hk : h2.inst.keys[j]? = some k) (hk' : inst'.keys[j]? = some k') (hu : k.used = false) (hu' : k'.used = true)
    (hnew : ∀ y ∈ h1.inst.keys, y.id.addr ≠ k.id.addr)
    (hx : h2.inst.keys[i]? = some x) (hx' : inst'.keys[i]? = some x') (hs : Selectable h2.inst.groupSize m.recipients x)
    (hold : ∃ y ∈ h1.inst.keys, y.id.addr = x.id.addr) : x'.used = true := by
  have key : ∀ {x y : Hist}, Relation.ReflTransGen (HStep U P) x y → OrderFlow x.inst y.inst := by
    intro x y hxy
    induction hxy with
    | refl => exact OrderFlow.refl _
    | tail _ hstep ih => exact ih.trans (step_order hstep)
  have f1 := (key hr ⟨ha, hn⟩).1.addrs
  have f2 := (key hr' f1).1.addrs
  have hpl := C117_places_partial U P h1 h2 f1.nodup f1.fresh hr' hkept
  refine C117_order_partial U hU noise f h2.inst inst' m m' hauto hd h i j ?_ k k' x x' hk hk' hu hu' hx hx' hs
  obtain ⟨y, hy, hyx⟩ := hold
  obtain ⟨n, hny⟩ := List.mem_iff_getElem?.1 hy
  have hnl := (List.getElem?_eq_some_iff.1 hny).1
  have hin : i = n := by
    apply nodup_getElem? f2.nodup (a := x.id.addr)
    · rw [List.getElem?_map, hx]; rfl
    · rw [List.getElem?_map, hpl n hnl, hny, ← hyx]; rfl
  have hjl : h1.inst.keys.length ≤ j := by
    by_contra hlt
    have hj := hpl j (by omega)
    rw [hk] at hj
    rcases hz : h1.inst.keys[j]? with _ | z
    · rw [hz] at hj; cases hj
    · rw [hz] at hj
      simp only [Option.map_some, Option.some.injEq] at hj
      exact hnew z (List.mem_of_getElem? hz) hj.symm
  omega

/-- not vacuous: a message that takes three keys, of which the third is new -/
example : Relation.ReflTransGen (HStep unicode15 (fun _ _ => True)) ⟨exStation, []⟩ exLater ∧
    (encipher unicode15 (fun _ => -1) [] exLater.inst { exMsg "HEJ DU DIN HEJ DU" with recipients := [lit "OP"] }).1 = .ok () ∧
    (encipher unicode15 (fun _ => -1) [] exLater.inst { exMsg "HEJ DU DIN HEJ DU" with recipients := [lit "OP"] }).2.1.keys.map Key.used = [true, true, true] :=
  ⟨.single (.importKeys _ _ _ _ _ _), by decide +kernel, by decide +kernel⟩

/-- and one that takes two of them -/
example : (encipher unicode15 (fun _ => -1) [] exLater.inst { exMsg "HEJ DU DIN" with recipients := [lit "OP"] }).2.1.keys.map Key.used = [true, true, false] := by
  decide +kernel

end K431
