import Verif.AgainLemmas

/-!
# C129, C130: importing a second time
-/

namespace K431
open Spec

/-- **C129**: keys are imported from a file, without permission to replace, into a store (`inst`); later, whatever happened in the meantime -- keys were marked, commented and added, messages written and deleted -- only
that the ids that were there after the import are still there, the same keys are imported again.  Then nothing is imported, and no key and no message changes. -/
theorem C129_again (U : Unicode) (noise noise' : Nat → Noise) (o o' : ImportOpts) (filter : Key → Bool) (ks : List Key) (call call' : Runes) (inst later : Inst)
    (ho : o.overwrite = false) (ha : o.canAsk = true → ∀ k, o.answer k = some false) (ho' : o'.overwrite = false) (ha' : o'.canAsk = true → ∀ k, o'.answer k = some false)
    (hg : later.groupSize = inst.groupSize) (hkeep : ∀ x ∈ (importKeys U noise o filter (.ok (ks, call)) inst).2.2.keys, ∃ y ∈ later.keys, y.id.val = x.id.val) :
    ∃ nx, importKeys U noise' o' filter (.ok (ks, call')) later = (.ok (), 0, { later with nextAddr := nx }) := by
  refine ⟨later.nextAddr + 1, ?_⟩
  unfold importKeys at hkeep ⊢
  refine importLoop_idle ho' ha' ks noise' 0 _ ?_
  intro k hk hl hf
  obtain ⟨s, hs, h⟩ := importLoop_holds (U := U) (filter := filter) (call := ⟨inst.nextAddr, call⟩) ho ha ks noise 0 { inst with nextAddr := inst.nextAddr + 1 } k hk
    (by rw [hl]; exact hg) hf
  obtain ⟨x, hx, rfl⟩ := List.mem_map.1 hs
  obtain ⟨y, hy, e⟩ := hkeep x hx
  exact ⟨y.id.val, List.mem_map.2 ⟨y, hy, rfl⟩, by rw [e]; exact h⟩

/-- the keys of the file of the exporter -/
def exHanded : List Key := [⟨⟨7, lit "AB"⟩, lit "ZXCV", [], 0, 9, false, false, []⟩, ⟨⟨8, lit "CD"⟩, lit "QWER", [], 0, 9, false, false, []⟩]

/-- non-vacuity of `C129_again`: two keys are imported; then one of them is marked as used and the keys are in another order -/
example : let inst : Inst := { exEmpty with groupSize := 2 }
    let later : Inst := { inst with keys := [⟨⟨3, lit "CD"⟩, lit "QWER", [], 0, 9, true, false, lit "X"⟩, ⟨⟨1, lit "AB"⟩, lit "ZXCV", [], 0, 9, false, false, []⟩] }
    (importKeys unicode15 (fun _ => noNoise) ⟨false, false, fun _ => none⟩ (fun _ => true) (.ok (exHanded, lit "SM0AA")) inst).2.1 = 2 ∧
    (∀ x ∈ (importKeys unicode15 (fun _ => noNoise) ⟨false, false, fun _ => none⟩ (fun _ => true) (.ok (exHanded, lit "SM0AA")) inst).2.2.keys, ∃ y ∈ later.keys, y.id.val = x.id.val) := by
  decide +kernel

/-- **C130**, in full: an import takes no mark off a key: if the keys of this name in the store are marked as used (or as compromised), so they are afterwards. -/
def C130_Statement : Prop := ∀ (U : Unicode), U.Lawful → ∀ (noise : Nat → Noise) (o : ImportOpts) (filter : Key → Bool) (loaded : Outcome (List Key × Runes)) (inst : Inst), StoreOk U inst →
  ∀ x ∈ inst.keys, ∀ y ∈ (importKeys U noise o filter loaded inst).2.2.keys, SameFold U y.id.val x.id.val → (x.used = true → y.used = true) ∧ (x.compromised = true → y.compromised = true)

/-- a store with a used and compromised key, imported earlier -/
def exSpent : Inst := { exEmpty with
  groupSize := 2
  keys := [⟨⟨1, lit "AB"⟩, lit "ZXCV", [⟨2, lit "SM0AA"⟩], 0, 9, true, true, []⟩]
  nextAddr := 3 }

/-- **C130** is violated: importing the same file again with permission to replace brings a spent pad back.  The key is then selected by `FindKey` for the next message. -/
theorem C130_violated : ¬ C130_Statement ∧
    findKey unicode15 2 exSpent.keys [lit "SM0AA"] = none ∧
    findKey unicode15 2 (importKeys unicode15 (fun _ => noNoise) ⟨true, false, fun _ => none⟩ (fun _ => true) (.ok (exHanded.take 1, lit "SM0AA")) exSpent).2.2.keys [lit "SM0AA"] = some 0 := by
  refine ⟨?_, by decide +kernel, by decide +kernel⟩
  intro h
  have := h unicode15 unicode15_lawful (fun _ => noNoise) ⟨true, false, fun _ => none⟩ (fun _ => true) (.ok (exHanded.take 1, lit "SM0AA")) exSpent (by decide +kernel)
  revert this
  decide +kernel

/-- **C130**, what holds: no mark is taken off if nothing may be replaced, or if the keys of this name in the file are marked likewise.  Missing: a file with an unmarked copy of the key, imported with permission
to replace. -/
theorem C130_partial (U : Unicode) (noise : Nat → Noise) (o : ImportOpts) (filter : Key → Bool) (loaded : Outcome (List Key × Runes)) (inst : Inst) (hs : StoreOk U inst) (x : Key) (hx : x ∈ inst.keys)
    (h : (o.overwrite = false ∧ (o.canAsk = true → ∀ k, o.answer k ≠ some true)) ∨
      ∀ ks call, loaded = .ok (ks, call) → ∀ k ∈ ks, SameFold U k.id.val x.id.val → (x.used = true → k.used = true) ∧ (x.compromised = true → k.compromised = true)) :
    ∀ y ∈ (importKeys U noise o filter loaded inst).2.2.keys, SameFold U y.id.val x.id.val → (x.used = true → y.used = true) ∧ (x.compromised = true → y.compromised = true) := by
  have huniq : ∀ (i : Inst), StoreOk U i → ∀ a ∈ i.keys, ∀ b ∈ i.keys, SameFold U b.id.val a.id.val → b = a := by
    intro i hi a ha b hb e
    by_contra hne
    have hd := List.pairwise_map.1 hi.distinct
    haveI : Std.Symm (fun a b : Key => ¬ SameFold U a.id.val b.id.val) := ⟨fun _ _ h h' => h (SameFold.symm h')⟩
    exact hd.forall hb ha hne e
  rcases h with ⟨ho, ha⟩ | h
  · intro y hy e
    have hok := hs.importKeys (noise := noise) (o := o) (filter := filter) (loaded := loaded)
    obtain ⟨new, nx, e2⟩ := C39_protects U noise o filter loaded inst ho ha
    have hx' : x ∈ (importKeys U noise o filter loaded inst).2.2.keys := by rw [e2]; exact List.mem_append.2 (.inl hx)
    rw [huniq _ hok x hx' y hy e]
    exact ⟨id, id⟩
  · intro y hy e
    unfold importKeys at hy
    rcases loaded with ⟨ks, call⟩ | e' | _
    · simp only at hy
      have hs' : StoreOk U { inst with nextAddr := inst.nextAddr + 1 } := ⟨hs.distinct, hs.arrays, fun k hk => by have := hs.fresh k hk; simp only; omega⟩
      constructor
      · intro hu
        exact importLoop_marks (name := x.id.val) (mark := Key.used) (fun _ _ h _ => h) ks noise 0 _ hs' (fun k hk e => (h ks call rfl k hk e).1 hu)
          (fun z hz e => by rw [huniq _ hs x hx z hz e]; exact hu) y hy e
      · intro hu
        exact importLoop_marks (name := x.id.val) (mark := Key.compromised) (fun _ _ _ h => h) ks noise 0 _ hs' (fun k hk e => (h ks call rfl k hk e).2 hu)
          (fun z hz e => by rw [huniq _ hs x hx z hz e]; exact hu) y hy e
    · rw [huniq _ hs x hx y hy e]; exact ⟨id, id⟩
    · rw [huniq _ hs x hx y hy e]; exact ⟨id, id⟩

/-- non-vacuity of `C130_partial`: importing without permission into a store with a marked key, from a file with an unmarked copy of it and another key; the other one is imported -/
example : StoreOk unicode15 exSpent ∧ (∃ x ∈ exSpent.keys, x.used = true ∧ x.compromised = true) ∧
    (importKeys unicode15 (fun _ => noNoise) ⟨false, false, fun _ => none⟩ (fun _ => true) (.ok (exHanded, lit "SM0AA")) exSpent).2.1 = 1 := by decide +kernel

end K431
