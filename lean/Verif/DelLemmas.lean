import Verif.KeyLemmas
import Verif.SpecStore
import Mathlib.Data.List.Nodup

/-! # Helper lemmas: deleting keys -/

namespace K431
open Spec

theorem KeepersOnly.id {x y : Key} (h : KeepersOnly x y) : y.id = x.id := by rw [h.eq]

theorem KeepersOnly.trans {x y z : Key} (h : KeepersOnly x y) (h' : KeepersOnly y z) : KeepersOnly x z := by
  obtain ⟨e1, a1⟩ := h
  obtain ⟨e2, a2⟩ := h'
  refine ⟨?_, a2.trans a1⟩
  rw [e2, e1]

/-- overwriting the keepers' arrays of `k` as seen by `x` -/
def wkeep (noise : Noise) (k x : Key) : Key :=
  { x with keepers := x.keepers.map (Sl.wipedIn ((k.keepers.filter (fun s => s.val ≠ [])).map Sl.addr) noise.calls) }

theorem wipedIn_addr (as : List Nat) (n : Nat → Nat → Rune) (s : Sl) : (s.wipedIn as n).addr = s.addr := by
  unfold Sl.wipedIn; split <;> rfl

theorem wipedIn_of_not {as : List Nat} {s : Sl} (n : Nat → Nat → Rune) (h : s.addr ∉ as) : s.wipedIn as n = s := by
  unfold Sl.wipedIn; rw [if_neg h]

theorem wkeep_only (noise : Noise) (k x : Key) : KeepersOnly x (wkeep noise k x) := by
  refine ⟨rfl, ?_⟩
  simp only [wkeep, List.map_map]
  apply List.map_congr_left
  intro s _
  exact wipedIn_addr _ _ _

theorem wkeep_unshared {noise : Noise} {k x : Key} (h : ∀ s ∈ k.keepers, ∀ t ∈ x.keepers, s.addr ≠ t.addr) :
    wkeep noise k x = x := by
  have : x.keepers.map (Sl.wipedIn ((k.keepers.filter (fun s => s.val ≠ [])).map Sl.addr) noise.calls) = x.keepers := by
    have e : ∀ t ∈ x.keepers, Sl.wipedIn ((k.keepers.filter (fun s => s.val ≠ [])).map Sl.addr) noise.calls t = t := by
      intro t ht
      apply wipedIn_of_not
      intro hm
      obtain ⟨s, hs, he⟩ := List.mem_map.1 hm
      exact h s (List.mem_filter.1 hs).1 t ht he
    rw [List.map_congr_left e]
    simp
  unfold wkeep
  rw [this]

/-- What one round of `DeleteKey` does. -/
theorem deleteKeyOnce_spec {U : Unicode} {noise : Noise} {inst : Inst} {id : Runes}
    (hd : DistinctNames U (inst.keys.map (fun k => k.id.val))) (ha : (inst.keys.map (fun k => k.id.addr)).Nodup) :
    ∃ (f : Key → Key) (g : Sl → Sl), (deleteKeyOnce U noise inst id).2.keys.Perm
        ((inst.keys.filter (fun k => !decide (SameFold U k.id.val id))).map f) ∧
      (deleteKeyOnce U noise inst id).1 + (deleteKeyOnce U noise inst id).2.keys.length = inst.keys.length ∧
      (∀ x, KeepersOnly x (f x)) ∧
      (∀ x : Key, (∀ k ∈ inst.keys, SameFold U k.id.val id → ∀ s ∈ k.keepers, ∀ t ∈ x.keepers, s.addr ≠ t.addr) → f x = x) ∧
      (∀ s : Sl, (∀ k ∈ inst.keys, SameFold U k.id.val id → k.id.addr ≠ s.addr) → g s = s) ∧
      (deleteKeyOnce U noise inst id).2 = { inst with
        keys := (deleteKeyOnce U noise inst id).2.keys
        messages := inst.messages.map (fun m => { m with keyId := g m.keyId }) } := by
  rcases hf : firstIdx (fun k => equalRunesFold U (some k.id.val) (some id)) 0 inst.keys with _ | i
  · have e : deleteKeyOnce U noise inst id = (0, inst) := by unfold deleteKeyOnce; rw [hf]
    rw [e]
    refine ⟨fun x => x, fun s => s, ?_, by simp, fun x => ⟨rfl, rfl⟩, fun _ _ => rfl, fun _ _ => rfl, ?_⟩
    · have : inst.keys.filter (fun k => !decide (SameFold U k.id.val id)) = inst.keys := by
        rw [List.filter_eq_self]
        intro k hk
        have := firstIdx_none hf k hk
        simp only [Bool.not_eq_true', decide_eq_false_iff_not]
        intro hs
        rw [(equalRunesFold_iff U _ _).2 hs] at this
        cases this
      simp only [this]
      rw [List.map_id']
    · simp
  · obtain ⟨⟨k, hk, hp⟩, he⟩ := firstIdx_some hf
    rw [equalRunesFold_iff] at hp
    have hkm := List.mem_of_getElem? hk
    have hilt := (List.getElem?_eq_some_iff.1 hk).1
    have e : deleteKeyOnce U noise inst id =
        (1, { wipeKey noise k inst with keys := swapRemove (wipeKey noise k inst).keys i }) := by
      unfold deleteKeyOnce; rw [hf]; simp only [hk]
    rw [e]
    have hd' : inst.keys.Pairwise (fun x y => ¬ SameFold U x.id.val y.id.val) := List.pairwise_map.1 hd
    rw [eraseP_eq_filter _ _ (hd'.imp (by
      intro x y hxy ⟨h1, h2⟩
      rw [equalRunesFold_iff] at h1 h2
      exact hxy (SameFold.trans h1 (SameFold.symm h2))))] at he
    have hfil : inst.keys.filter (fun k => !decide (SameFold U k.id.val id)) = inst.keys.eraseIdx i := by
      rw [← he]
      apply List.filter_congr
      intro x _
      have : equalRunesFold U (some x.id.val) (some id) = decide (SameFold U x.id.val id) := by
        rw [Bool.eq_iff_iff, equalRunesFold_iff, decide_eq_true_iff]; exact Iff.rfl
      rw [this]
    refine ⟨wkeep noise k, fun s => s.wipedIn (if k.id.val ≠ [] then [k.id.addr] else []) noise.ids, ?_, ?_,
      wkeep_only noise k, ?_, ?_, ?_⟩
    · have h1 := swapRemove_perm (l := (wipeKey noise k inst).keys) (i := i) (by simp [wipeKey]; exact hilt)
      refine h1.trans (List.Perm.of_eq ?_)
      rw [hfil]
      simp only [wipeKey]
      rw [List.eraseIdx_map]
      apply List.map_congr_left
      intro x hx
      have hne : x.id.addr ≠ k.id.addr := by
        intro e
        rw [← hfil] at hx
        obtain ⟨hx1, hx2⟩ := List.mem_filter.1 hx
        have : x = k := List.inj_on_of_nodup_map ha hx1 hkm e
        subst this
        rw [show decide (SameFold U x.id.val id) = true from decide_eq_true hp] at hx2
        cases hx2
      unfold wkeep
      congr 1
      apply wipedIn_of_not
      split
      · simpa using hne
      · simp
    · have h1 := (swapRemove_perm (l := (wipeKey noise k inst).keys) (i := i) (by simp [wipeKey]; exact hilt)).length_eq
      rw [List.length_eraseIdx] at h1
      simp only [h1]
      simp only [wipeKey, List.length_map, if_pos hilt]
      omega
    · intro x h
      exact wkeep_unshared (h k hkm hp)
    · intro s h
      apply wipedIn_of_not
      split
      · simpa using fun e => h k hkm hp e.symm
      · simp
    · simp only [wipeKey]

/-- What `DeleteKey` does. -/
theorem deleteKey_spec {U : Unicode} : ∀ (ids : List Runes) (noise : Nat → Noise) (inst : Inst),
    DistinctNames U (inst.keys.map (fun k => k.id.val)) → (inst.keys.map (fun k => k.id.addr)).Nodup →
    ∃ (f : Key → Key) (g : Sl → Sl), (deleteKey U noise inst ids).2.keys.Perm
        ((inst.keys.filter (fun k => !decide (InFold U k.id.val ids))).map f) ∧
      (deleteKey U noise inst ids).1 + (deleteKey U noise inst ids).2.keys.length = inst.keys.length ∧
      (∀ x, KeepersOnly x (f x)) ∧
      (∀ x : Key, (∀ k ∈ inst.keys, InFold U k.id.val ids → ∀ s ∈ k.keepers, ∀ t ∈ x.keepers, s.addr ≠ t.addr) → f x = x) ∧
      (∀ s : Sl, (∀ k ∈ inst.keys, InFold U k.id.val ids → k.id.addr ≠ s.addr) → g s = s) ∧
      (deleteKey U noise inst ids).2 = { inst with
        keys := (deleteKey U noise inst ids).2.keys
        messages := inst.messages.map (fun m => { m with keyId := g m.keyId }) } := by
  intro ids
  induction ids with
  | nil =>
    intro noise inst hd ha
    refine ⟨fun x => x, fun s => s, ?_, by simp [deleteKey], fun x => ⟨rfl, rfl⟩, fun _ _ => rfl, fun _ _ => rfl, ?_⟩
    · simp [deleteKey, InFold]
    · simp [deleteKey]
  | cons id ids ih =>
    intro noise inst hd ha
    obtain ⟨f1, g1, p1, n1, o1, u1, m1, e1⟩ := deleteKeyOnce_spec (noise := noise 0) (id := id) hd ha
    simp only [deleteKey]
    generalize deleteKeyOnce U (noise 0) inst id = r at *
    have hids : (r.2.keys.map (fun k => k.id)).Perm
        ((inst.keys.filter (fun k => !decide (SameFold U k.id.val id))).map (fun k => k.id)) := by
      refine (p1.map (fun k => k.id)).trans (List.Perm.of_eq ?_)
      rw [List.map_map]
      apply List.map_congr_left
      intro x _
      exact (o1 x).id
    have hsub : ((inst.keys.filter (fun k => !decide (SameFold U k.id.val id))).map (fun k => k.id)).Sublist
        (inst.keys.map (fun k => k.id)) := (List.filter_sublist).map _
    have hd2 : DistinctNames U (r.2.keys.map (fun k => k.id.val)) := by
      have h1 : (r.2.keys.map (fun k => k.id.val)) = (r.2.keys.map (fun k => k.id)).map Sl.val := by simp
      have h2 : (inst.keys.map (fun k => k.id.val)) = (inst.keys.map (fun k => k.id)).map Sl.val := by simp
      unfold DistinctNames at *
      rw [h1]
      rw [h2] at hd
      exact (List.Perm.pairwise_iff (fun hxy h => hxy h.symm) (hids.map Sl.val)).2 (hd.sublist (hsub.map _))
    have ha2 : (r.2.keys.map (fun k => k.id.addr)).Nodup := by
      have h1 : (r.2.keys.map (fun k => k.id.addr)) = (r.2.keys.map (fun k => k.id)).map Sl.addr := by simp
      have h2 : (inst.keys.map (fun k => k.id.addr)) = (inst.keys.map (fun k => k.id)).map Sl.addr := by simp
      rw [h1]
      rw [h2] at ha
      exact (hids.map Sl.addr).nodup_iff.2 (ha.sublist (hsub.map _))
    obtain ⟨f2, g2, p2, n2, o2, u2, m2, e2⟩ := ih (fun i => noise (i + 1)) r.2 hd2 ha2
    generalize deleteKey U (fun i => noise (i + 1)) r.2 ids = r' at *
    -- keys of the intermediate store
    have hmem : ∀ k1 ∈ r.2.keys, ∃ k ∈ inst.keys, ¬ SameFold U k.id.val id ∧ k1 = f1 k := by
      intro k1 hk1
      obtain ⟨k, hk, rfl⟩ := List.mem_map.1 (p1.mem_iff.1 hk1)
      obtain ⟨a, b⟩ := List.mem_filter.1 hk
      exact ⟨k, a, by simpa using b, rfl⟩
    refine ⟨f2 ∘ f1, g2 ∘ g1, ?_, by omega, fun x => (o1 x).trans (o2 _), ?_, ?_, ?_⟩
    · refine p2.trans ?_
      have h1 := (p1.filter (fun k => !decide (InFold U k.id.val ids))).map f2
      refine h1.trans (List.Perm.of_eq ?_)
      rw [List.filter_map, List.map_map, List.filter_filter]
      congr 1
      apply List.filter_congr
      intro x _
      simp only [Function.comp, (o1 x).id, InFold, List.mem_cons, exists_eq_or_imp, Bool.decide_or, Bool.not_or]
      rw [Bool.and_comm]
    · intro x h
      have e : f1 x = x := u1 x (fun k hk hs => h k hk ⟨id, by simp, hs⟩)
      simp only [Function.comp, e]
      apply u2
      intro k1 hk1 hin s hs t ht
      obtain ⟨k, hk, _, rfl⟩ := hmem k1 hk1
      rw [(o1 k).id] at hin
      obtain ⟨b, hb, hsf⟩ := hin
      have hsa : s.addr ∈ k.keepers.map Sl.addr := by
        rw [← (o1 k).addrs]; exact List.mem_map_of_mem hs
      obtain ⟨s', hs', he'⟩ := List.mem_map.1 hsa
      rw [← he']
      exact h k hk ⟨b, by simp [hb], hsf⟩ s' hs' t ht
    · intro s h
      have e : g1 s = s := m1 s (fun k hk hs => h k hk ⟨id, by simp, hs⟩)
      simp only [Function.comp, e]
      apply m2
      intro k1 hk1 hin
      obtain ⟨k, hk, _, rfl⟩ := hmem k1 hk1
      rw [(o1 k).id] at hin ⊢
      obtain ⟨b, hb, hsf⟩ := hin
      exact h k hk ⟨b, by simp [hb], hsf⟩
    · rw [e2, e1]
      simp [List.map_map]

end K431
