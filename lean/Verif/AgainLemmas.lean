import Verif.ImpSpec
import Verif.PropsKeys

/-! # Helper lemmas: importing a second time -/

namespace K431
open Spec

/-- after an import that may replace nothing, every key of the file that fits and is asked for is there -/
theorem importLoop_holds {U : Unicode} {o : ImportOpts} {filter : Key → Bool} {call : Sl}
    (ho : o.overwrite = false) (ha : o.canAsk = true → ∀ k, o.answer k = some false) : ∀ (ks : List Key) (noise : Nat → Noise) (n : Nat) (inst : Inst),
    ∀ k ∈ ks, k.id.val.length = inst.groupSize → filter k = true → InFold U k.id.val ((importLoop U noise o filter call ks n inst).2.2.keys.map (fun x => x.id.val)) := by
  intro ks
  induction ks with
  | nil => intro _ _ _ k hk; cases hk
  | cons a ks ih =>
    intro noise n inst k hk hl hf
    have hnt : o.canAsk = true → ∀ k, o.answer k ≠ some true := fun h k e => by rw [ha h k] at e; cases e
    obtain ⟨r, h1, h2⟩ := importLoop_cons U noise o filter call a ks n inst
    rw [h2]
    have hmono : ∀ (m : Nat) (i : Inst), InFold U k.id.val (i.keys.map (fun x => x.id.val)) →
        InFold U k.id.val ((importLoop U (fun i => noise (i + 1)) o filter call ks m i).2.2.keys.map (fun x => x.id.val)) := by
      intro m i h
      obtain ⟨new, nx, e⟩ := importLoop_protects (U := U) (filter := filter) (call := call) ho hnt ks (fun i => noise (i + 1)) m i
      rw [e]
      obtain ⟨x, hx, hs⟩ := h
      exact ⟨x, by simp only [List.map_append, List.mem_append]; exact .inl hx, hs⟩
    have htail : ∀ (m : Nat) (i : Inst), i.groupSize = inst.groupSize → k ∈ ks →
        InFold U k.id.val ((importLoop U (fun i => noise (i + 1)) o filter call ks m i).2.2.keys.map (fun x => x.id.val)) :=
      fun m i hg hm => ih _ m i k hm (by rw [hg]; exact hl) hf
    rcases List.mem_cons.1 hk with rfl | hm
    · cases h1 with
      | skipLen h => exact absurd hl h
      | skipFilter h => rw [hf] at h; cases h
      | skipExisting _ _ h _ _ => exact hmono _ _ h
      | stop _ _ h h' => rw [ha h k] at h'; cases h'
      | new _ _ _ =>
        refine hmono _ _ ⟨k.id.val, ?_, rfl⟩
        simp only [addImported, List.map_append, List.mem_append]
        exact .inr (by simp [importedKey])
      | replace _ _ _ h =>
        exfalso
        rcases h with h | ⟨h, h'⟩
        · rw [ho] at h; cases h
        · exact hnt h k h'
    · cases h1 with
      | skipLen _ => exact htail _ _ rfl hm
      | skipFilter _ => exact htail _ _ rfl hm
      | skipExisting _ _ _ _ _ => exact htail _ _ rfl hm
      | stop _ _ h h' => rw [ha h a] at h'; cases h'
      | new _ _ _ => exact htail _ _ rfl hm
      | replace _ _ _ h =>
        exfalso
        rcases h with h | ⟨h, h'⟩
        · rw [ho] at h; cases h
        · exact hnt h a h'

/-- an import that may replace nothing and finds all keys there does nothing -/
theorem importLoop_idle {U : Unicode} {o : ImportOpts} {filter : Key → Bool} {call : Sl}
    (ho : o.overwrite = false) (ha : o.canAsk = true → ∀ k, o.answer k = some false) : ∀ (ks : List Key) (noise : Nat → Noise) (n : Nat) (inst : Inst),
    (∀ k ∈ ks, k.id.val.length = inst.groupSize → filter k = true → InFold U k.id.val (inst.keys.map (fun x => x.id.val))) →
    importLoop U noise o filter call ks n inst = (.ok (), n, inst) := by
  intro ks
  induction ks with
  | nil => intro _ _ _ _; rfl
  | cons a ks ih =>
    intro noise n inst h
    obtain ⟨r, h1, h2⟩ := importLoop_cons U noise o filter call a ks n inst
    rw [h2]
    have hr := fun noise => ih noise n inst (fun k hk => h k (List.mem_cons_of_mem _ hk))
    cases h1 with
    | skipLen _ => exact hr _
    | skipFilter _ => exact hr _
    | skipExisting _ _ _ _ _ => exact hr _
    | stop _ _ g g' => rw [ha g a] at g'; cases g'
    | new g g' g'' => exact absurd (h a (by simp) g g') g''
    | replace _ _ _ g =>
      exfalso
      rcases g with g | ⟨g, g'⟩
      · rw [ho] at g; cases g
      · rw [ha g a] at g'; cases g'

/-- a mark that all keys of this name have, in the store and in the file, all have after the import -/
theorem importLoop_marks {U : Unicode} {o : ImportOpts} {filter : Key → Bool} {call : Sl} {name : Runes} {mark : Key → Bool}
    (hm : ∀ (x y : Key), x.used = y.used → x.compromised = y.compromised → mark x = mark y) : ∀ (ks : List Key) (noise : Nat → Noise) (n : Nat) (inst : Inst), StoreOk U inst →
    (∀ k ∈ ks, SameFold U k.id.val name → mark k = true) → (∀ x ∈ inst.keys, SameFold U x.id.val name → mark x = true) →
    ∀ y ∈ (importLoop U noise o filter call ks n inst).2.2.keys, SameFold U y.id.val name → mark y = true := by
  intro ks
  induction ks with
  | nil => intro _ _ _ _ _ h; exact h
  | cons a ks ih =>
    intro noise n inst hs hf h
    obtain ⟨r, h1, h2⟩ := importLoop_cons U noise o filter call a ks n inst
    rw [h2]
    have hok := h1.storeOk hs
    have hf' : ∀ k ∈ ks, SameFold U k.id.val name → mark k = true := fun k hk => hf k (List.mem_cons_of_mem _ hk)
    have hadd : ∀ i : Inst, (∀ x ∈ i.keys, SameFold U x.id.val name → mark x = true) → ∀ x ∈ (addImported U call a i).keys, SameFold U x.id.val name → mark x = true := by
      intro i hi x hx hn
      simp only [addImported, List.mem_append, List.mem_singleton] at hx
      rcases hx with hx | rfl
      · exact hi x hx hn
      · rw [hm (importedKey U i call a) a rfl rfl]
        exact hf a (by simp) hn
    cases h1 with
    | skipLen _ => exact ih _ _ _ hs hf' h
    | skipFilter _ => exact ih _ _ _ hs hf' h
    | skipExisting _ _ _ _ _ => exact ih _ _ _ hs hf' h
    | stop _ _ _ _ => exact h
    | new _ _ _ => exact ih _ _ _ (hok _ _ rfl) hf' (hadd _ h)
    | replace _ _ _ _ =>
      refine ih _ _ _ (hok _ _ rfl) hf' (hadd _ ?_)
      obtain ⟨f, g, p, -, hk, -⟩ := deleteKey_spec [a.id.val] (fun _ => noise 0) inst hs.distinct hs.arrays
      intro x hx hn
      obtain ⟨z, hz, rfl⟩ := List.mem_map.1 (p.mem_iff.1 hx)
      have e := (hk z).eq
      rw [hm (f z) z (by rw [e]) (by rw [e])]
      exact h z (List.mem_filter.1 hz).1 (by rw [e] at hn; exact hn)

end K431
