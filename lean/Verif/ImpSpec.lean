import Verif.ImpLemmas
import Verif.SpecImport
import Verif.Messages

/-! # Helper lemmas: what an import does as a whole -/

namespace K431
open Spec

theorem removeOne_names {U : Unicode} (own : Runes) (l : List Sl) :
    ((removeKeeper U l [own]).map Sl.val).Perm ((l.map Sl.val).eraseP (fun n => decide (SameFold U own n))) := by
  simp only [removeKeeper]
  have h := (removeFirst_perm (fun s => equalRunesFold U (some own) (some s.val)) l).map Sl.val
  refine h.trans (List.Perm.of_eq ?_)
  rw [List.eraseP_map]
  congr 2
  funext s
  simp only [Function.comp]
  rw [Bool.eq_iff_iff, equalRunesFold_iff, decide_eq_true_iff]
  exact Iff.rfl

/-- The copy made by the import loop. -/
theorem importedKey_imported {U : Unicode} (inst : Inst) (call : Sl) (k : Key) :
    Imported U inst.callSign call.val k (importedKey U inst call k) ∧
    (∀ s ∈ (importedKey U inst call k).keepers, s = call ∨ inst.nextAddr < s.addr) := by
  obtain ⟨new, e, hsub, hin, hdist, hnew, _⟩ := addKeeper_spec U [call]
    (removeKeeper U (allocSls (inst.nextAddr + 1) k.names) [inst.callSign])
  have hnm := removeOne_names (U := U) inst.callSign (allocSls (inst.nextAddr + 1) k.names)
  rw [allocSls_names] at hnm
  have hk : (importedKey U inst call k).keepers =
      removeKeeper U (allocSls (inst.nextAddr + 1) k.names) [inst.callSign] ++ new := e
  have hn : (importedKey U inst call k).names =
      (removeKeeper U (allocSls (inst.nextAddr + 1) k.names) [inst.callSign]).map Sl.val ++ new.map Sl.val := by
    rw [Key.names, hk, List.map_append]
  have hnew' : ∀ s ∈ new, s = call := fun s hs => by simpa using hsub.subset hs
  have hd : DistinctNames U k.names → DistinctNames U (k.names.eraseP (fun n => decide (SameFold U inst.callSign n))) :=
    fun h => h.sublist (List.eraseP_sublist)
  refine ⟨⟨rfl, rfl, ?_, ?_, ?_, ?_, ?_⟩, ?_⟩
  · rw [hn, ← List.map_append]; exact hin call (by simp)
  · intro n hnm' hne
    rw [hn, List.mem_append]
    left
    rw [hnm.mem_iff, List.mem_eraseP_of_neg (by simpa using fun h => hne (SameFold.symm h))]
    exact hnm'
  · intro n h
    rw [hn, List.mem_append] at h
    rcases h with h | h
    · exact .inl (List.mem_of_mem_eraseP (hnm.mem_iff.1 h))
    · obtain ⟨s, hs, rfl⟩ := List.mem_map.1 h
      exact .inr (by rw [hnew' s hs])
  · rintro hdn hco ⟨n, h, hs⟩
    rw [hn, List.mem_append] at h
    rcases h with h | h
    · have h := hnm.mem_iff.1 h
      rw [eraseP_eq_filter _ _ (hdn.imp (by
        intro x y hxy ⟨h1, h2⟩
        exact hxy ((of_decide_eq_true h1).symm.trans (of_decide_eq_true h2))))] at h
      have := (List.mem_filter.1 h).2
      simp only [Bool.not_eq_true', decide_eq_false_iff_not] at this
      exact this hs
    · obtain ⟨s, hs', rfl⟩ := List.mem_map.1 h
      rw [hnew' s hs'] at hs
      exact hco hs.symm
  · intro hdn
    rw [hn, ← List.map_append]
    exact hdist ((hd hdn).perm hnm.symm)
  · intro s hs
    rw [hk, List.mem_append] at hs
    rcases hs with hs | hs
    · obtain ⟨r, h1, h2⟩ := removeKeeper_sub U [inst.callSign] (allocSls (inst.nextAddr + 1) k.names)
      have := allocSls_addr _ _ s (h2.subset (h1.mem_iff.1 hs))
      right; omega
    · exact .inl (hnew' s hs)

theorem ImpStep.settings {U : Unicode} {noise : Nat → Noise} {o : ImportOpts} {filter : Key → Bool} {call : Sl} {k : Key}
    {inst : Inst} {r : Option (Bool × Inst)} (h : ImpStep U noise o filter call k inst r) (hs : StoreOk U inst) :
    ∀ b inst1, r = some (b, inst1) → inst1 = { inst with keys := inst1.keys, messages := inst1.messages, nextAddr := inst1.nextAddr } ∧
      inst.nextAddr ≤ inst1.nextAddr := by
  intro b inst1 e
  cases h <;> cases e
  · exact ⟨rfl, Nat.le_refl _⟩
  · exact ⟨rfl, Nat.le_refl _⟩
  · exact ⟨rfl, Nat.le_refl _⟩
  · exact ⟨rfl, by simp only [addImported]; omega⟩
  · obtain ⟨f, g, _, _, _, _, _, e⟩ := deleteKey_spec [k.id.val] (fun _ => noise 0) inst hs.distinct hs.arrays
    constructor
    · simp only [addImported]; rw [e]
    · simp only [addImported]; rw [e]; simp only; omega

/-- Without permission to replace, an import only appends. -/
theorem importLoop_protects {U : Unicode} {o : ImportOpts} {filter : Key → Bool} {call : Sl}
    (ho : o.overwrite = false) (ha : o.canAsk = true → ∀ k, o.answer k ≠ some true) : ∀ (ks : List Key)
    (noise : Nat → Noise) (n : Nat) (inst : Inst),
    ∃ new nx, (importLoop U noise o filter call ks n inst).2 =
      (n + new.length, { inst with keys := inst.keys ++ new, nextAddr := nx }) := by
  intro ks
  induction ks with
  | nil => intro noise n inst; exact ⟨[], inst.nextAddr, by simp [importLoop]⟩
  | cons k ks ih =>
    intro noise n inst
    obtain ⟨r, h1, h2⟩ := importLoop_cons U noise o filter call k ks n inst
    rw [h2]
    cases h1 with
    | skipLen _ => exact ih _ _ _
    | skipFilter _ => exact ih _ _ _
    | skipExisting _ _ _ _ _ => exact ih _ _ _
    | stop _ _ _ _ => exact ⟨[], inst.nextAddr, by simp⟩
    | new _ _ _ =>
      obtain ⟨new, nx, e⟩ := ih (fun i => noise (i + 1)) (n + 1) (addImported U call k inst)
      refine ⟨importedKey U inst call k :: new, nx, ?_⟩
      simp only [if_true]
      rw [e]
      simp [addImported]
      omega
    | replace _ _ _ h =>
      exfalso
      rcases h with h | ⟨h, h'⟩
      · rw [ho] at h; cases h
      · exact ha h k h'

/-- The effect of a whole import: `olds` are the keys of the store before, `news` those added so far. -/
theorem importLoop_spec {U : Unicode} {o : ImportOpts} {filter : Key → Bool} {call : Sl} (a0 : Nat) : ∀ (ks : List Key)
    (noise : Nat → Noise) (n : Nat) (inst : Inst) (olds news : List Key), StoreOk U inst →
    inst.keys.Perm (olds ++ news) → (∀ x ∈ olds, ∀ s ∈ x.keepers, s.addr < a0) → (∀ x ∈ news, ∀ s ∈ x.keepers, a0 ≤ s.addr) →
    a0 ≤ inst.nextAddr → a0 ≤ call.addr → (∀ k ∈ ks, ∀ x ∈ news, ¬ SameFold U k.id.val x.id.val) →
    DistinctNames U (ks.map (fun k => k.id.val)) → (∀ k ∈ ks, o.answer k ≠ none) →
    ∃ (f : Key → Key) (g : Sl → Sl) (new : List Key) (acc : List Key) (nx : Nat),
      acc = ks.filter (fun k => decide (Accepts U o filter inst.groupSize (olds.map (fun k => k.id.val)) k)) ∧
      importLoop U noise o filter call ks n inst = (.ok (), n + new.length, { inst with
        keys := (importLoop U noise o filter call ks n inst).2.2.keys
        messages := inst.messages.map (fun m => { m with keyId := g m.keyId }), nextAddr := nx }) ∧
      (importLoop U noise o filter call ks n inst).2.2.keys.Perm
        ((olds.filter (fun x => !decide (InFold U x.id.val (acc.map (fun k => k.id.val))))).map f ++ news ++ new) ∧
      List.Forall₂ (Imported U inst.callSign call.val) acc new ∧
      (∀ x, KeepersOnly x (f x)) ∧
      (∀ x : Key, (∀ y ∈ olds, InFold U y.id.val (acc.map (fun k => k.id.val)) → ¬ ShareKeeper y x) → f x = x) ∧
      (∀ s : Sl, (∀ y ∈ olds, InFold U y.id.val (acc.map (fun k => k.id.val)) → y.id.addr ≠ s.addr) → g s = s) := by
  intro ks
  induction ks with
  | nil =>
    intro noise n inst olds news hs hp ho hn ha hc hk hd hans
    refine ⟨fun x => x, fun s => s, [], [], inst.nextAddr, rfl, ?_, ?_, .nil, fun x => ⟨rfl, rfl⟩, fun _ _ => rfl, fun _ _ => rfl⟩
    · simp [importLoop]
    · simpa [importLoop, InFold] using hp
  | cons k ks ih =>
    intro noise n inst olds news hs hp ho hn ha hc hk hd hans
    obtain ⟨r, h1, h2⟩ := importLoop_cons U noise o filter call k ks n inst
    rw [h2]
    have hids : InFold U k.id.val (inst.keys.map (fun k => k.id.val)) ↔ InFold U k.id.val (olds.map (fun k => k.id.val)) := by
      constructor
      · rintro ⟨b, hb, hsf⟩
        have := (hp.map (fun k => k.id.val)).mem_iff.1 hb
        rw [List.map_append, List.mem_append] at this
        rcases this with h | h
        · exact ⟨b, h, hsf⟩
        · obtain ⟨x, hx, rfl⟩ := List.mem_map.1 h
          exact absurd hsf (hk k (by simp) x hx)
      · rintro ⟨b, hb, hsf⟩
        exact ⟨b, (hp.map (fun k => k.id.val)).mem_iff.2 (by rw [List.map_append]; exact List.mem_append_left _ hb), hsf⟩
    have hd0 : (∀ a ∈ ks, ¬ SameFold U k.id.val a.id.val) ∧ DistinctNames U (ks.map (fun k => k.id.val)) := by
      have : DistinctNames U (k.id.val :: ks.map (fun k => k.id.val)) := hd
      unfold DistinctNames at this
      rw [List.pairwise_cons] at this
      exact ⟨fun a ha => this.1 _ (List.mem_map_of_mem ha), this.2⟩
    have hk' : ∀ a ∈ ks, ∀ x ∈ news, ¬ SameFold U a.id.val x.id.val := fun a ha' => hk a (List.mem_cons_of_mem _ ha')
    have hans' : ∀ a ∈ ks, o.answer a ≠ none := fun a ha' => hans a (List.mem_cons_of_mem _ ha')
    -- a key that is not accepted
    have skip : ¬ Accepts U o filter inst.groupSize (olds.map (fun k => k.id.val)) k →
        (k :: ks).filter (fun k => decide (Accepts U o filter inst.groupSize (olds.map (fun k => k.id.val)) k)) =
        ks.filter (fun k => decide (Accepts U o filter inst.groupSize (olds.map (fun k => k.id.val)) k)) := by
      intro hna; rw [List.filter_cons_of_neg (by simpa using hna)]
    cases h1 with
    | skipLen hl =>
      rw [skip (fun h => hl h.1)]
      exact ih _ n inst olds news hs hp ho hn ha hc hk' hd0.2 hans'
    | skipFilter hf =>
      rw [skip (fun h => by rw [h.2.1] at hf; cases hf)]
      exact ih _ n inst olds news hs hp ho hn ha hc hk' hd0.2 hans'
    | skipExisting hl hf hin hov han =>
      rw [skip (fun h => by
        rcases h.2.2 (hids.1 hin) with h | ⟨h, h'⟩
        · rw [hov] at h; cases h
        · rw [han h] at h'; cases h')]
      exact ih _ n inst olds news hs hp ho hn ha hc hk' hd0.2 hans'
    | stop _ _ _ hnone => exact absurd hnone (hans k (by simp))
    | new hl hf hnin =>
      have hacc : Accepts U o filter inst.groupSize (olds.map (fun k => k.id.val)) k :=
        ⟨hl, hf, fun h => absurd (hids.2 h) hnin⟩
      rw [List.filter_cons_of_pos (by simpa using hacc)]
      obtain ⟨himp, haddr⟩ := importedKey_imported (U := U) inst call k
      have hs1 : StoreOk U (addImported U call k inst) := hs.add hnin rfl (by omega)
      obtain ⟨f, g, new, acc, nx, e1, e2, e3, e4, e5, e6, e7⟩ := ih (fun i => noise (i + 1)) (n + 1) (addImported U call k inst) olds
        (news ++ [importedKey U inst call k]) hs1 (by
          simp only [addImported]
          rw [← List.append_assoc]
          exact hp.append_right _) ho (by
          intro x hx s hsx
          rw [List.mem_append, List.mem_singleton] at hx
          rcases hx with hx | rfl
          · exact hn x hx s hsx
          · rcases haddr s hsx with rfl | h
            · exact hc
            · omega) (by simp only [addImported]; omega) hc (by
          intro a ha' x hx
          rw [List.mem_append, List.mem_singleton] at hx
          rcases hx with hx | rfl
          · exact hk' a ha' x hx
          · exact fun h => hd0.1 a ha' (SameFold.symm h)) hd0.2 hans'
      simp only [if_true]
      have hnotold : ∀ x ∈ olds, ¬ SameFold U x.id.val k.id.val := fun x hx h =>
        hnin (hids.2 ⟨_, List.mem_map_of_mem hx, h.symm⟩)
      have hinf : ∀ x ∈ olds, (InFold U x.id.val ((k :: acc).map (fun k => k.id.val)) ↔
          InFold U x.id.val (acc.map (fun k => k.id.val))) := by
        intro x hx
        simp only [InFold, List.map_cons, List.mem_cons, exists_eq_or_imp]
        exact ⟨fun h => h.resolve_left (hnotold x hx), .inr⟩
      refine ⟨f, g, importedKey U inst call k :: new, k :: acc, nx, by rw [e1]; rfl, ?_, ?_, ?_, e5, ?_, ?_⟩
      · rw [e2]; simp [addImported]; omega
      · refine e3.trans (List.Perm.of_eq ?_)
        have : olds.filter (fun x => !decide (InFold U x.id.val ((k :: acc).map (fun k => k.id.val)))) =
            olds.filter (fun x => !decide (InFold U x.id.val (acc.map (fun k => k.id.val)))) :=
          List.filter_congr (fun x hx => by rw [decide_eq_decide.2 (hinf x hx)])
        rw [this]
        simp
      · exact .cons himp e4
      · intro x h; exact e6 x (fun y hy hi => h y hy ((hinf y hy).2 hi))
      · intro s h; exact e7 s (fun y hy hi => h y hy ((hinf y hy).2 hi))
    | replace hl hf hin hperm =>
      have hacc : Accepts U o filter inst.groupSize (olds.map (fun k => k.id.val)) k := ⟨hl, hf, fun _ => hperm⟩
      rw [List.filter_cons_of_pos (by simpa using hacc)]
      obtain ⟨f1, g1, p1, _, o1, u1, m1, q1⟩ := deleteKey_spec [k.id.val] (fun _ => noise 0) inst hs.distinct hs.arrays
      have hst := (hs.delete (ids := [k.id.val]) (noise := fun _ => noise 0))
      have hgone := deleteKey_gone (ids := [k.id.val]) (noise := fun _ => noise 0) hs k.id.val
      generalize (deleteKey U (fun _ => noise 0) inst [k.id.val]).2 = inst1 at *
      have hone : ∀ x : Key, InFold U x.id.val [k.id.val] ↔ SameFold U x.id.val k.id.val := by
        intro x; simp [InFold]
      -- news are untouched
      have hnewf : ∀ x ∈ news, f1 x = x := by
        intro x hx
        apply u1
        intro y hy hsf s hsy t htx
        rcases List.mem_append.1 (hp.mem_iff.1 hy) with h | h
        · have h1 := ho y h s hsy
          have h2 := hn x hx t htx
          omega
        · exact absurd (((hone y).1 hsf).symm) (hk k (by simp) y h)
      have hp1 : inst1.keys.Perm ((olds.filter (fun x => !decide (SameFold U x.id.val k.id.val))).map f1 ++ news) := by
        refine p1.trans ?_
        have h1 := (hp.filter (fun x => !decide (InFold U x.id.val [k.id.val]))).map f1
        refine h1.trans (List.Perm.of_eq ?_)
        rw [List.filter_append, List.map_append]
        congr 1
        · congr 1
          apply List.filter_congr
          intro x _
          rw [decide_eq_decide.2 (hone x)]
        · have : news.filter (fun x => !decide (InFold U x.id.val [k.id.val])) = news := by
            rw [List.filter_eq_self]
            intro x hx
            simp only [Bool.not_eq_true', decide_eq_false_iff_not, hone]
            exact fun h => hk k (by simp) x hx h.symm
          rw [this, List.map_congr_left hnewf, List.map_id']
      have hnin : ¬ InFold U k.id.val (inst1.keys.map (fun k => k.id.val)) := by
        rw [hgone]; exact fun h => h.2 ⟨_, by simp, rfl⟩
      have hgs : inst1.groupSize = inst.groupSize := by rw [q1]
      have hcs : inst1.callSign = inst.callSign := by rw [q1]
      have hna : inst1.nextAddr = inst.nextAddr := by rw [q1]
      obtain ⟨himp, haddr⟩ := importedKey_imported (U := U) inst1 call k
      have hs1 : StoreOk U (addImported U call k inst1) := hst.add hnin rfl (by omega)
      obtain ⟨f, g, new, acc, nx, e1, e2, e3, e4, e5, e6, e7⟩ := ih (fun i => noise (i + 1)) (n + 1) (addImported U call k inst1)
        ((olds.filter (fun x => !decide (SameFold U x.id.val k.id.val))).map f1)
        (news ++ [importedKey U inst1 call k]) hs1 (by
          simp only [addImported]
          rw [← List.append_assoc]
          exact hp1.append_right _) (by
          intro x hx s hsx
          obtain ⟨y, hy, rfl⟩ := List.mem_map.1 hx
          have : s.addr ∈ y.keepers.map Sl.addr := by rw [← (o1 y).addrs]; exact List.mem_map_of_mem hsx
          obtain ⟨s', hs', he⟩ := List.mem_map.1 this
          rw [← he]
          exact ho y (List.mem_filter.1 hy).1 s' hs') (by
          intro x hx s hsx
          rw [List.mem_append, List.mem_singleton] at hx
          rcases hx with hx | rfl
          · exact hn x hx s hsx
          · rcases haddr s hsx with rfl | h
            · exact hc
            · omega) (by simp only [addImported]; omega) hc (by
          intro a ha' x hx
          rw [List.mem_append, List.mem_singleton] at hx
          rcases hx with hx | rfl
          · exact hk' a ha' x hx
          · exact fun h => hd0.1 a ha' (SameFold.symm h)) hd0.2 hans'
      simp only [if_true]
      -- ids of the remaining old keys decide acceptance as before
      have haccs : acc = ks.filter (fun k => decide (Accepts U o filter inst.groupSize (olds.map (fun k => k.id.val)) k)) := by
        rw [e1]
        apply List.filter_congr
        intro a ha'
        apply decide_eq_decide.2
        simp only [Accepts, addImported, hgs]
        have : InFold U a.id.val (((olds.filter (fun x => !decide (SameFold U x.id.val k.id.val))).map f1).map (fun k => k.id.val)) ↔
            InFold U a.id.val (olds.map (fun k => k.id.val)) := by
          constructor
          · rintro ⟨b, hb, hsf⟩
            simp only [List.map_map, List.mem_map, Function.comp] at hb
            obtain ⟨x, hx, rfl⟩ := hb
            rw [(o1 x).id] at hsf
            exact ⟨_, List.mem_map_of_mem (List.mem_filter.1 hx).1, hsf⟩
          · rintro ⟨b, hb, hsf⟩
            obtain ⟨x, hx, rfl⟩ := List.mem_map.1 hb
            refine ⟨(f1 x).id.val, List.mem_map_of_mem (List.mem_map_of_mem (List.mem_filter.2 ⟨hx, ?_⟩)), ?_⟩
            · simp only [Bool.not_eq_true', decide_eq_false_iff_not]
              exact fun h => hd0.1 a ha' (hsf.trans h).symm
            · rw [(o1 x).id]; exact hsf
        rw [this]
      have hcons : ∀ x : Key, InFold U x.id.val ((k :: acc).map (fun k => k.id.val)) ↔
          SameFold U x.id.val k.id.val ∨ InFold U x.id.val (acc.map (fun k => k.id.val)) := by
        intro x
        simp only [InFold, List.map_cons, List.mem_cons, exists_eq_or_imp]
      refine ⟨f ∘ f1, g ∘ g1, importedKey U inst1 call k :: new, k :: acc, nx, by rw [haccs], ?_, ?_, ?_,
        fun x => (o1 x).trans (e5 _), ?_, ?_⟩
      · rw [e2, q1]; simp [addImported]; omega
      · refine e3.trans (List.Perm.of_eq ?_)
        rw [List.filter_map, List.map_map, List.filter_filter]
        have : olds.filter (fun x => ((fun x => !decide (InFold U x.id.val (acc.map (fun k => k.id.val)))) ∘ f1) x &&
            !decide (SameFold U x.id.val k.id.val)) =
            olds.filter (fun x => !decide (InFold U x.id.val ((k :: acc).map (fun k => k.id.val)))) := by
          apply List.filter_congr
          intro x _
          simp only [Function.comp, (o1 x).id]
          rw [decide_eq_decide.2 (hcons x), Bool.decide_or, Bool.not_or, Bool.and_comm]
        rw [this]
        simp
      · have : (addImported U call k inst1).callSign = inst.callSign := hcs
        rw [this] at e4
        rw [hcs] at himp
        exact .cons himp e4
      · intro x h
        have hx1 : f1 x = x := by
          apply u1
          intro y hy hsf s hsy t htx e
          rcases List.mem_append.1 (hp.mem_iff.1 hy) with hy' | hy'
          · exact h y hy' ((hcons y).2 (.inl ((hone y).1 hsf))) ⟨s, hsy, t, htx, e⟩
          · exact absurd (((hone y).1 hsf).symm) (hk k (by simp) y hy')
        simp only [Function.comp, hx1]
        apply e6
        intro y hy hi hsh
        obtain ⟨z, hz, rfl⟩ := List.mem_map.1 hy
        rw [(o1 z).id] at hi
        refine h z (List.mem_filter.1 hz).1 ((hcons z).2 (.inr hi)) ?_
        obtain ⟨s, hs', t, ht, e⟩ := hsh
        have : s.addr ∈ z.keepers.map Sl.addr := by rw [← (o1 z).addrs]; exact List.mem_map_of_mem hs'
        obtain ⟨s', hs'', he⟩ := List.mem_map.1 this
        exact ⟨s', hs'', t, ht, by rw [he]; exact e⟩
      · intro s h
        have hs1' : g1 s = s := by
          apply m1
          intro y hy hsf
          rcases List.mem_append.1 (hp.mem_iff.1 hy) with hy' | hy'
          · exact h y hy' ((hcons y).2 (.inl ((hone y).1 hsf)))
          · exact absurd (((hone y).1 hsf).symm) (hk k (by simp) y hy')
        simp only [Function.comp, hs1']
        apply e7
        intro y hy hi
        obtain ⟨z, hz, rfl⟩ := List.mem_map.1 hy
        rw [(o1 z).id] at hi ⊢
        exact h z (List.mem_filter.1 hz).1 ((hcons z).2 (.inr hi))

theorem StoreOk.generateLoop {U : Unicode} {now : Nat → Int} {expire : Int} {keepers : List Runes} : ∀ {n : Nat} {inst inst' : Inst}
    {t t' : Tape}, StoreOk U inst → generateLoop U now expire keepers n inst t = some (inst', t') → StoreOk U inst' := by
  intro n
  induction n with
  | zero => intro inst inst' t t' h e; simp [K431.generateLoop] at e; rw [← e.1]; exact h
  | succ n ih =>
    intro inst inst' t t' h e
    simp only [K431.generateLoop] at e
    rcases hk : K431.newKey U (now n) expire keepers inst t with _ | ⟨k, inst1, t1⟩
    · rw [hk] at e; cases e
    · rw [hk] at e
      exact ih (h.newKey hk) e

theorem StoreOk.deleteBySummary {U : Unicode} : ∀ {lines : List Runes} {noise : Nat → Nat → Noise} {inst : Inst}, StoreOk U inst →
    StoreOk U (deleteKeysBySummary U noise inst lines).2 := by
  intro lines
  induction lines with
  | nil => intro noise inst h; exact h
  | cons l ls ih => intro noise inst h; exact ih h.delete

theorem newKey_fresh {U : Unicode} {now expire : Int} {keepers : List Runes} {inst inst' : Inst} {t t' : Tape} {k : Key}
    (hg : inst.groupSize ≠ 0) (h : newKey U now expire keepers inst t = some (k, inst', t')) : Fresh inst expire k := by
  obtain ⟨_, _, h3, h4, _, h6, h7, h8, h9, h10, h11, h12, _⟩ := newKey_spec h
  obtain ⟨a, b, c⟩ := newKeyLength_spec inst.keyLength inst.groupSize hg
  rw [← h7] at a b c
  exact ⟨h3, h4, h6, ⟨k.runes.length / inst.groupSize, by
    have := Nat.div_add_mod k.runes.length inst.groupSize
    rw [a, Nat.mul_comm] at this
    omega⟩, b, c, h8, h9, h11, h12⟩

theorem generateLoop_spec {U : Unicode} {now : Nat → Int} {expire : Int} {keepers : List Runes} : ∀ {n : Nat} {inst inst' : Inst}
    {t t' : Tape}, inst.groupSize ≠ 0 → generateLoop U now expire keepers n inst t = some (inst', t') →
    ∃ new nx, inst' = { inst with keys := inst.keys ++ new, nextAddr := nx } ∧ new.length = n ∧
      (∀ k ∈ new, Fresh inst expire k) ∧
      (DistinctNames U (inst.keys.map (fun k => k.id.val)) → DistinctNames U ((inst.keys ++ new).map (fun k => k.id.val))) := by
  intro n
  induction n with
  | zero =>
    intro inst inst' t t' hg h
    simp [generateLoop] at h
    exact ⟨[], inst.nextAddr, by simp [h.1], rfl, by simp, by simp⟩
  | succ n ih =>
    intro inst inst' t t' hg h
    simp only [generateLoop] at h
    rcases hk : newKey U (now n) expire keepers inst t with _ | ⟨k, inst1, t1⟩
    · rw [hk] at h; cases h
    · rw [hk] at h
      simp only at h
      have f1 := newKey_fresh hg hk
      obtain ⟨e1, _, _, _, d1, _⟩ := newKey_spec hk
      obtain ⟨new, nx, e2, l2, f2, d2⟩ := ih (by rw [e1]; exact hg) h
      refine ⟨k :: new, nx, by rw [e2, e1]; simp, by simp [l2], ?_, ?_⟩
      · intro x hx
        rcases List.mem_cons.1 hx with rfl | hx
        · exact f1
        · obtain ⟨a1, a2, a3, a4, a5, a6, a7, a8, a9, a10⟩ := f2 x hx
          rw [e1] at a1 a4 a5 a6
          exact ⟨a1, a2, a3, a4, a5, a6, a7, a8, a9, a10⟩
      · intro hd
        rw [e1] at d2
        simp only [List.append_assoc, List.singleton_append] at d2
        apply d2
        rw [List.map_append]
        unfold DistinctNames
        rw [List.pairwise_append]
        refine ⟨hd, by simp, ?_⟩
        intro x hx y hy
        simp only [List.map_cons, List.map_nil, List.mem_singleton] at hy
        subst hy
        exact fun hs => d1 ⟨x, hx, hs.symm⟩

theorem firstIdx_map {α β : Type} (f : α → β) (p : β → Bool) : ∀ (l : List α) (i : Nat),
    firstIdx p i (l.map f) = firstIdx (fun x => p (f x)) i l := by
  intro l
  induction l with
  | nil => intro i; rfl
  | cons x xs ih => intro i; simp [firstIdx, ih]

theorem removeRecipient_map (U : Unicode) : ∀ (args : List Runes) (l : List Sl),
    (removeKeeper U l args).map Sl.val = removeRecipient U (l.map Sl.val) args := by
  intro args
  induction args with
  | nil => intro l; rfl
  | cons a as ih =>
    intro l
    simp only [removeKeeper, removeRecipient]
    rw [ih]
    congr 1
    unfold removeFirst
    rw [firstIdx_map]
    generalize firstIdx (fun s => equalRunesFold U (some a) (some s.val)) 0 l = o
    cases o with
    | none => rfl
    | some i => exact swapRemove_map _ _ _

theorem addRecipient_map (U : Unicode) : ∀ (args l : List Sl),
    (addKeeper U l args).map Sl.val = addRecipient U (l.map Sl.val) (args.map Sl.val) := by
  intro args
  induction args with
  | nil => intro l; rfl
  | cons a as ih =>
    intro l
    simp only [addKeeper, addRecipient, List.map_cons]
    rw [ih]
    congr 1
    split <;> simp

end K431
