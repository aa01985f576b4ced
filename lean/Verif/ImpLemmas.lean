import Verif.DelLemmas

/-! # Helper lemmas: the invariant of the key store, importing keys -/

namespace K431
open Spec

theorem DistinctNames.perm {U : Unicode} {a b : List Runes} (h : DistinctNames U a) (p : a.Perm b) : DistinctNames U b :=
  (List.Perm.pairwise_iff (fun hxy h => hxy h.symm) p).1 h

theorem DistinctNames.sublist {U : Unicode} {a b : List Runes} (h : DistinctNames U a) (p : b.Sublist a) :
    DistinctNames U b := List.Pairwise.sublist p h

theorem StoreOk.add {U : Unicode} {inst : Inst} (h : StoreOk U inst) {k : Key} {n : Nat}
    (hk : ¬ InFold U k.id.val (inst.keys.map (fun k => k.id.val))) (ha : k.id.addr = inst.nextAddr)
    (hn : inst.nextAddr < n) : StoreOk U { inst with keys := inst.keys ++ [k], nextAddr := n } := by
  refine ⟨?_, ?_, ?_⟩
  · simp only [List.map_append, List.map_cons, List.map_nil]
    unfold DistinctNames
    rw [List.pairwise_append]
    refine ⟨h.distinct, by simp, ?_⟩
    intro x hx y hy
    rw [List.mem_singleton] at hy
    subst hy
    exact fun hs => hk ⟨x, hx, hs.symm⟩
  · simp only [List.map_append, List.map_cons, List.map_nil]
    rw [List.nodup_append]
    refine ⟨h.arrays, by simp, ?_⟩
    intro x hx y hy
    rw [List.mem_singleton] at hy
    subst hy
    obtain ⟨k', hk', rfl⟩ := List.mem_map.1 hx
    have := h.fresh k' hk'
    omega
  · intro x hx
    simp only [List.mem_append, List.mem_singleton] at hx
    rcases hx with hx | rfl
    · have := h.fresh x hx; simp only; omega
    · simp only; omega

theorem deleteKey_ids {U : Unicode} {ids : List Runes} {noise : Nat → Noise} {inst : Inst} (h : StoreOk U inst) :
    ((deleteKey U noise inst ids).2.keys.map (fun k => k.id)).Perm
      ((inst.keys.filter (fun k => !decide (InFold U k.id.val ids))).map (fun k => k.id)) := by
  obtain ⟨f, g, p, _, o, _⟩ := deleteKey_spec ids noise inst h.distinct h.arrays
  refine (p.map (fun k => k.id)).trans (List.Perm.of_eq ?_)
  rw [List.map_map]
  apply List.map_congr_left
  intro x _
  exact (o x).id

theorem StoreOk.delete {U : Unicode} {ids : List Runes} {noise : Nat → Noise} {inst : Inst} (h : StoreOk U inst) :
    StoreOk U (deleteKey U noise inst ids).2 := by
  have hp := deleteKey_ids (ids := ids) (noise := noise) h
  have hsub : ((inst.keys.filter (fun k => !decide (InFold U k.id.val ids))).map (fun k => k.id)).Sublist
        (inst.keys.map (fun k => k.id)) := (List.filter_sublist).map _
  obtain ⟨f, g, _, _, _, _, _, e⟩ := deleteKey_spec ids noise inst h.distinct h.arrays
  have hn : (deleteKey U noise inst ids).2.nextAddr = inst.nextAddr := by rw [e]
  refine ⟨?_, ?_, ?_⟩
  · have h1 := hp.map Sl.val
    have h2 := hsub.map Sl.val
    simp only [List.map_map] at h1 h2
    exact (h.distinct.sublist h2).perm h1.symm
  · have h1 := hp.map Sl.addr
    have h2 := hsub.map Sl.addr
    simp only [List.map_map] at h1 h2
    exact h1.symm.nodup_iff.1 (h.arrays.sublist h2)
  · intro k hk
    have : k.id ∈ (deleteKey U noise inst ids).2.keys.map (fun k => k.id) := List.mem_map_of_mem hk
    obtain ⟨k', hk', he⟩ := List.mem_map.1 (hsub.subset (hp.mem_iff.1 this))
    rw [hn, ← he]
    exact h.fresh k' hk'

theorem deleteKey_gone {U : Unicode} {ids : List Runes} {noise : Nat → Noise} {inst : Inst} (h : StoreOk U inst) (a : Runes) :
    InFold U a ((deleteKey U noise inst ids).2.keys.map (fun k => k.id.val)) ↔
      InFold U a (inst.keys.map (fun k => k.id.val)) ∧ ¬ InFold U a ids := by
  have hp := (deleteKey_ids (ids := ids) (noise := noise) h).map Sl.val
  simp only [List.map_map] at hp
  constructor
  · rintro ⟨b, hb, hs⟩
    obtain ⟨k, hk, he⟩ := List.mem_map.1 (hp.mem_iff.1 hb)
    obtain ⟨h1, h2⟩ := List.mem_filter.1 hk
    simp only [Function.comp] at he
    subst he
    refine ⟨⟨_, List.mem_map_of_mem h1, hs⟩, ?_⟩
    rintro ⟨c, hc, hs'⟩
    simp only [Bool.not_eq_true', decide_eq_false_iff_not] at h2
    exact h2 ⟨c, hc, hs.symm.trans hs'⟩
  · rintro ⟨⟨b, hb, hs⟩, hn⟩
    obtain ⟨k, hk, rfl⟩ := List.mem_map.1 hb
    refine ⟨k.id.val, hp.symm.mem_iff.1 (List.mem_map.2 ⟨k, List.mem_filter.2 ⟨hk, ?_⟩, rfl⟩), hs⟩
    simp only [Bool.not_eq_true', decide_eq_false_iff_not]
    rintro ⟨c, hc, hs'⟩
    exact hn ⟨c, hc, hs.trans hs'⟩

theorem StoreOk.newKey {U : Unicode} {now expire : Int} {keepers : List Runes} {inst inst' : Inst} {t t' : Tape} {k : Key}
    (h : StoreOk U inst) (hn : newKey U now expire keepers inst t = some (k, inst', t')) : StoreOk U inst' := by
  obtain ⟨rfl, h1, _, _, h2, _⟩ := newKey_spec hn
  exact h.add h2 h1 (by omega)

/-- The body of the import loop after the decision to add the key. -/
def addImported (U : Unicode) (call : Sl) (k : Key) (inst : Inst) : Inst :=
  { inst with keys := inst.keys ++ [importedKey U inst call k], nextAddr := inst.nextAddr + 1 + k.keepers.length }

/-- The decision of the import loop on one key. -/
inductive ImpStep (U : Unicode) (noise : Nat → Noise) (o : ImportOpts) (filter : Key → Bool) (call : Sl) (k : Key)
    (inst : Inst) : Option (Bool × Inst) → Prop
  | skipLen : k.id.val.length ≠ inst.groupSize → ImpStep U noise o filter call k inst (some (false, inst))
  | skipFilter : filter k = false → ImpStep U noise o filter call k inst (some (false, inst))
  | skipExisting : k.id.val.length = inst.groupSize → filter k = true →
      InFold U k.id.val (inst.keys.map (fun k => k.id.val)) → o.overwrite = false →
      (o.canAsk = true → o.answer k = some false) → ImpStep U noise o filter call k inst (some (false, inst))
  | stop : InFold U k.id.val (inst.keys.map (fun k => k.id.val)) → o.overwrite = false →
      o.canAsk = true → o.answer k = none → ImpStep U noise o filter call k inst none
  | new : k.id.val.length = inst.groupSize → filter k = true →
      ¬ InFold U k.id.val (inst.keys.map (fun k => k.id.val)) →
      ImpStep U noise o filter call k inst (some (true, addImported U call k inst))
  | replace : k.id.val.length = inst.groupSize → filter k = true →
      InFold U k.id.val (inst.keys.map (fun k => k.id.val)) →
      (o.overwrite = true ∨ (o.canAsk = true ∧ o.answer k = some true)) →
      ImpStep U noise o filter call k inst
        (some (true, addImported U call k (deleteKey U (fun _ => noise 0) inst [k.id.val]).2))

theorem importLoop_cons (U : Unicode) (noise : Nat → Noise) (o : ImportOpts) (filter : Key → Bool) (call : Sl) (k : Key)
    (ks : List Key) (n : Nat) (inst : Inst) :
    ∃ r, ImpStep U noise o filter call k inst r ∧
      importLoop U noise o filter call (k :: ks) n inst =
        match r with
        | none => (.err .other, n, inst)
        | some (b, inst1) => importLoop U (fun i => noise (i + 1)) o filter call ks (if b then n + 1 else n) inst1 := by
  simp only [importLoop]
  by_cases hl : k.id.val.length ≠ inst.groupSize
  · exact ⟨_, .skipLen hl, by rw [if_pos hl]; rfl⟩
  · rw [if_neg hl]
    have hl' : k.id.val.length = inst.groupSize := by omega
    by_cases hf : filter k = true
    · rw [if_pos hf]
      by_cases hc : containsKeyId U inst.keys (some k.id.val) = true
      · have hc' := (containsKeyId_iff U _ _).1 hc
        rw [if_pos hc]
        by_cases ho : o.overwrite = true
        · refine ⟨_, .replace hl' hf hc' (.inl ho), ?_⟩
          simp [ho, addImported]
        · have ho' : o.overwrite = false := by simpa using ho
          by_cases ha : o.canAsk = true
          · rcases han : o.answer k with _ | b
            · exact ⟨_, .stop hc' ho' ha han, by simp [ho', ha]⟩
            · cases b with
              | false => exact ⟨_, .skipExisting hl' hf hc' ho' (fun _ => han), by simp [ho', ha]⟩
              | true => exact ⟨_, .replace hl' hf hc' (.inr ⟨ha, han⟩), by simp [ho', ha, addImported]⟩
          · exact ⟨_, .skipExisting hl' hf hc' ho' (fun h => absurd h ha), by simp [ho', ha]⟩
      · have hc' := fun h => hc ((containsKeyId_iff U _ _).2 h)
        rw [if_neg hc]
        exact ⟨_, .new hl' hf hc', by simp [addImported]⟩
    · rw [if_neg hf]
      exact ⟨_, .skipFilter (by simpa using hf), by simp⟩

theorem ImpStep.storeOk {U : Unicode} {noise : Nat → Noise} {o : ImportOpts} {filter : Key → Bool} {call : Sl} {k : Key}
    {inst : Inst} {r : Option (Bool × Inst)} (h : ImpStep U noise o filter call k inst r) (hs : StoreOk U inst) :
    ∀ b inst1, r = some (b, inst1) → StoreOk U inst1 := by
  intro b inst1 e
  cases h <;> cases e
  · exact hs
  · exact hs
  · exact hs
  · exact hs.add (by assumption) rfl (by omega)
  · refine (hs.delete).add ?_ rfl (by omega)
    rw [show (importedKey U (deleteKey U (fun _ => noise 0) inst [k.id.val]).2 call k).id.val = k.id.val from rfl,
      deleteKey_gone hs]
    exact fun h => h.2 ⟨_, by simp, rfl⟩

theorem StoreOk.importLoop {U : Unicode} {o : ImportOpts} {filter : Key → Bool} {call : Sl} : ∀ (ks : List Key)
    (noise : Nat → Noise) (n : Nat) (inst : Inst), StoreOk U inst →
    StoreOk U (importLoop U noise o filter call ks n inst).2.2 := by
  intro ks
  induction ks with
  | nil => intro noise n inst h; exact h
  | cons k ks ih =>
    intro noise n inst h
    obtain ⟨r, h1, h2⟩ := importLoop_cons U noise o filter call k ks n inst
    rw [h2]
    rcases r with _ | ⟨b, inst1⟩
    · exact h
    · exact ih _ _ _ (h1.storeOk h _ _ rfl)

theorem StoreOk.importKeys {U : Unicode} {noise : Nat → Noise} {o : ImportOpts} {filter : Key → Bool}
    {loaded : Outcome (List Key × Runes)} {inst : Inst} (h : StoreOk U inst) :
    StoreOk U (importKeys U noise o filter loaded inst).2.2 := by
  unfold K431.importKeys
  rcases loaded with ⟨keys, call⟩ | e | _
  · simp only
    apply StoreOk.importLoop
    exact ⟨h.distinct, h.arrays, fun k hk => by have := h.fresh k hk; simp only; omega⟩
  · exact h
  · exact h

end K431
