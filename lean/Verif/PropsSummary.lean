import Verif.SummaryLemmas

/-!
# C55: a line of a summary identifies its key or message
-/

namespace K431
open Spec

/-- **C55**, keys.  Suppose the ids of the selected keys are printable and no longer than a group.  Then there is one line for each
selected key, in order, and the text of a line up to the first blank is the id of its key.  If the user ticks any of the
lines, `DeleteKeysBySummaryString` deletes exactly the keys of these lines and reports their number; the other keys are unchanged except,
as in C26, for contents of keepers' arrays shared with a deleted key. -/
theorem C55_keys (U : Unicode) (hU : U.Lawful) (date : Int → Runes) (filter : Key → Bool) (inst : Inst)
    (hids : ∀ k ∈ inst.keys, filter k = true → Printable U k.id.val ∧ k.id.val.length ≤ inst.groupSize) :
    let lines := (summaryOfKeys date filter inst).2
    let shown := inst.keys.filter filter
    lines.length = shown.length ∧
    (∀ p ∈ shown.zip lines, (goStr p.2).takeWhile (fun c => c != 32) = p.1.id.val) ∧
    ∀ (response : List Runes) (noise : Nat → Nat → Noise), StoreOk U inst →
      (∀ r ∈ response, ∃ l ∈ lines, r = goStr l) →
      let result := deleteKeysBySummary U noise inst response
      (∃ f : Key → Key, result.2.keys.Perm ((inst.keys.filter (fun k => !decide (Chosen shown lines response k))).map f) ∧
        ∀ x, KeepersOnly x (f x) ∧ ((∀ k ∈ inst.keys, Chosen shown lines response k → ¬ ShareKeeper k x) → f x = x)) ∧
      result.1 = (inst.keys.filter (fun k => decide (Chosen shown lines response k))).length := by
  intro lines shown
  have hmem : ∀ k ∈ shown, k ∈ inst.keys ∧ Printable U k.id.val ∧ k.id.val.length ≤ inst.groupSize := by
    intro k hk
    obtain ⟨h1, h2⟩ := List.mem_filter.1 hk
    exact ⟨h1, hids k h1 h2⟩
  have hcut : ∀ k ∈ shown, cutBlank (goStr (keyLine date (keySizes inst.groupSize shown) k)) = k.id.val :=
    fun k hk => keyLine_cut hU date hk (hmem k hk).2.1 (hmem k hk).2.2
  have hlines : lines = shown.map (keyLine date (keySizes inst.groupSize shown)) := rfl
  have hzip : ∀ p ∈ shown.zip lines, p.1 ∈ shown ∧ p.2 = keyLine date (keySizes inst.groupSize shown) p.1 :=
    fun p hp => (mem_zip_map _ _ p).1 hp
  have hzip' : ∀ k ∈ shown, (k, keyLine date (keySizes inst.groupSize shown) k) ∈ shown.zip lines :=
    fun k hk => (mem_zip_map _ _ _).2 ⟨hk, rfl⟩
  refine ⟨by simp [hlines], ?_, ?_⟩
  · intro p hp
    obtain ⟨h1, h2⟩ := hzip p hp
    have := hcut p.1 h1
    rw [← h2] at this
    exact this
  · intro response noise hst hresp result
    have hr : ∀ r ∈ response, ∃ k ∈ shown, r = goStr (keyLine date (keySizes inst.groupSize shown) k) := by
      intro r hr
      obtain ⟨l, hl, rfl⟩ := hresp r hr
      obtain ⟨k, hk, rfl⟩ := List.mem_map.1 hl
      exact ⟨k, hk, rfl⟩
    have hv : ∀ l ∈ response, vettedKeepers U [cutBlank l] = [toUpperStr U (cutBlank l)] := by
      intro l hl
      obtain ⟨k, hk, rfl⟩ := hr l hl
      rw [hcut k hk]
      exact (vetted_printable hU (hmem k hk).2.1).1
    have hres : result = deleteKey U (fun i => noise i 0) inst (response.map (fun l => toUpperStr U (cutBlank l))) :=
      deleteKeysBySummary_eq U _ response noise inst hv
    have hiff : ∀ k ∈ inst.keys, InFold U k.id.val (response.map (fun l => toUpperStr U (cutBlank l))) ↔ Chosen shown lines response k := by
      intro k hk
      constructor
      · rintro ⟨b, hb, hs⟩
        obtain ⟨r, hrr, rfl⟩ := List.mem_map.1 hb
        obtain ⟨k', hk', rfl⟩ := hr r hrr
        rw [hcut k' hk'] at hs
        have hs' : SameFold U k.id.val k'.id.val := by
          unfold SameFold toUpperStr at *
          rw [hs, List.map_map]
          apply List.map_congr_left
          intro c _
          exact hU.toUpper_idem c
        have : k = k' := by
          have hd := hst.distinct
          unfold DistinctNames at hd
          rw [List.pairwise_map] at hd
          exact eq_of_pairwise (fun a b h => Eq.symm h) hd hk (hmem k' hk').1 hs'
        subst this
        exact ⟨_, hzip' k hk', rfl, hrr⟩
      · rintro ⟨p, hp, rfl, hmem'⟩
        obtain ⟨h1, h2⟩ := hzip p hp
        refine ⟨_, List.mem_map.2 ⟨_, hmem', rfl⟩, ?_⟩
        rw [h2, hcut p.1 h1]
        unfold SameFold toUpperStr
        rw [List.map_map]
        apply List.map_congr_left
        intro c _
        exact (hU.toUpper_idem c).symm
    have hdec : ∀ k ∈ inst.keys, decide (InFold U k.id.val (response.map (fun l => toUpperStr U (cutBlank l)))) =
        decide (Chosen shown lines response k) := fun k hk => by simp only [hiff k hk]
    obtain ⟨⟨f, hf1, hf2⟩, -, hn, -⟩ := C26_partial U (fun i => noise i 0) inst (response.map (fun l => toUpperStr U (cutBlank l))) hst
    rw [← hres] at hf1 hn
    refine ⟨⟨f, ?_, ?_⟩, ?_⟩
    · rw [List.filter_congr (q := fun k => !decide (Chosen shown lines response k)) (fun k hk => by simp only [hdec k hk])] at hf1
      exact hf1
    · intro x
      refine ⟨(hf2 x).1, fun h => (hf2 x).2 (fun k hk hi => h k hk ((hiff k hk).1 hi))⟩
    · rw [hn, List.filter_congr hdec]

/-- non-vacuity: three keys, the two unused ones are shown, the second line is ticked -/
example : let inst := exInst [exKey 1 "A" "Q", { exKey 2 "B" "W" with used := true }, exKey 3 "C" "E"]
    let lines := (summaryOfKeys (fun _ => lit "012345ZJAN23") (fun k => !k.used) inst).2
    inst.groupSize = 1 ∧ (∀ k ∈ inst.keys, Printable unicode15 k.id.val ∧ k.id.val.length ≤ inst.groupSize) ∧ StoreOk unicode15 inst ∧
    lines = [lit "A Anonymous 012345ZJAN23 012345ZJAN23 No   No           ", lit "C Anonymous 012345ZJAN23 012345ZJAN23 No   No           "] ∧
    (deleteKeysBySummary unicode15 (fun _ _ => noNoise) inst (lines.drop 1)).2.keys.map (fun k => k.id.val) = [lit "A", lit "B"] := by
  decide +kernel

/-! ## Messages -/

/-- **C55**, messages.  Suppose every stored message has an id, ids are pairwise different, and those of the selected messages are printable
and at most four characters long.  Then the summary has one line for each selected message, in order, and the text of a line up to
the first blank is the id of its message (deciphering the messages for the summary does not change ids).  If the user ticks any of the lines,
`DeleteMessagesBySummaryString` deletes exactly the messages with these ids and reports their number; nothing else changes except,
as in C27, for contents of arrays holding the key id of a deleted message. -/
theorem C55_messages (U : Unicode) (hU : U.Lawful) (fresh : Nat → Runes) (date : Int → Runes) (digest : Msg → Runes) (filter : Msg → Bool)
    (inst inst' : Inst) (header : Runes) (lines : List Runes) (hnd : (inst.messages.map Msg.id).Nodup) (hne : ∀ m ∈ inst.messages, m.id ≠ [])
    (hids : ∀ m ∈ inst.messages, filter m = true → Printable U m.id ∧ m.id.length ≤ 4)
    (h : summaryOfMessages U fresh date digest filter inst = .ok (inst', header, lines)) :
    let shown := (inst.messages.filter filter).map Msg.id
    inst'.messages.map Msg.id = inst.messages.map Msg.id ∧
    lines.length = shown.length ∧
    (∀ p ∈ shown.zip lines, (goStr p.2).takeWhile (fun c => c != 32) = p.1) ∧
    ∀ (response : List Runes) (noise : Nat → Nat → Nat → Rune), (∀ r ∈ response, ∃ l ∈ lines, r = goStr l) →
      let result := deleteMessagesBySummary U noise inst' response
      result.1 = (inst'.messages.filter (fun m => decide (Chosen shown lines response m.id))).length ∧
      ∃ g : Sl → Sl,
        (∀ s, (¬ ∃ m ∈ inst'.messages, Chosen shown lines response m.id ∧ m.keyId.val ≠ [] ∧ m.keyId.addr = s.addr) → g s = s) ∧
        result.2 = { inst' with keys := inst'.keys.map (fun k => { k with id := g k.id }), messages := result.2.messages } ∧
        result.2.messages.Perm
          ((inst'.messages.filter (fun m => !decide (Chosen shown lines response m.id))).map (fun m => { m with keyId := g m.keyId })) := by
  intro shown
  unfold summaryOfMessages at h
  rcases hs : scanMessages U fresh filter (List.range inst.messages.length) inst with ⟨i1, sel⟩ | e | _
  · rw [hs] at h
    simp only [Outcome.ok.injEq, Prod.mk.injEq] at h
    obtain ⟨rfl, -, hl⟩ := h
    obtain ⟨hmid, hsel⟩ := scan_spec _ _ _ _ List.nodup_range hne hs
    generalize hmp : sel.filterMap (fun i => i1.messages[i]?) = mp at hl
    -- the ids of the messages shown
    have hmpid : mp.map Msg.id = shown := by
      rw [← hmp, hsel, List.map_filterMap, List.filterMap_filter]
      show _ = (inst.messages.filter filter).map Msg.id
      have : inst.messages.filter filter = inst.messages.filterMap (fun m => if filter m = true then some m else none) := by
        rw [← List.filterMap_eq_filter]; rfl
      rw [this, List.map_filterMap, ← filterMap_range inst.messages]
      apply List.filterMap_congr
      intro i _
      have hi : (i1.messages[i]?).map Msg.id = (inst.messages[i]?).map Msg.id := by
        rw [← List.getElem?_map, ← List.getElem?_map, hmid]
      rcases hm : inst.messages[i]? with _ | m
      · simp [selectedAt, hm]
      · rw [hm] at hi
        by_cases hf : filter m = true
        · simp [selectedAt, hm, hf] at hi ⊢
          exact hi
        · simp [selectedAt, hm, hf]
    have hshown : ∀ x ∈ shown, Printable U x ∧ x.length ≤ 4 := by
      intro x hx
      obtain ⟨m, hm, rfl⟩ := List.mem_map.1 hx
      obtain ⟨h1, h2⟩ := List.mem_filter.1 hm
      exact hids m h1 h2
    have hcut : ∀ m ∈ mp, cutBlank (goStr (msgLine date digest (msgSizes mp) m)) = m.id := by
      intro m hm
      have hx := hshown m.id (by rw [← hmpid]; exact List.mem_map.2 ⟨m, hm, rfl⟩)
      unfold msgLine
      simp only [List.append_assoc]
      have : (msgSizes mp).getD 0 0 = 4 := rfl
      rw [this]
      exact cut_padded hU hx.1 (by omega)
    have hline : ∀ l ∈ lines, cutBlank (goStr l) ∈ shown := by
      intro l hl'
      rw [← hl] at hl'
      obtain ⟨m, hm, rfl⟩ := List.mem_map.1 hl'
      rw [hcut m hm, ← hmpid]
      exact List.mem_map.2 ⟨m, hm, rfl⟩
    have hzip : ∀ p : Runes × Runes, p ∈ shown.zip lines → p.1 ∈ shown ∧ p.2 ∈ lines ∧ cutBlank (goStr p.2) = p.1 := by
      intro p hp
      refine ⟨(List.of_mem_zip hp).1, (List.of_mem_zip hp).2, ?_⟩
      rw [← hmpid, ← hl, List.zip_map] at hp
      obtain ⟨q, hq, rfl⟩ := List.mem_map.1 hp
      have hq' := (mem_zip_map id mp q).1 (by simpa using hq)
      simp only [id] at hq'
      simp only [Prod.map]
      rw [hq'.2]
      exact hcut q.1 hq'.1
    have hzip' : ∀ l ∈ lines, (cutBlank (goStr l), l) ∈ shown.zip lines := by
      intro l hl'
      rw [← hl] at hl'
      obtain ⟨m, hm, rfl⟩ := List.mem_map.1 hl'
      rw [hcut m hm, ← hmpid, ← hl, List.zip_map]
      exact List.mem_map.2 ⟨(m, m), by simpa using (mem_zip_map id mp (m, m)).2 ⟨hm, rfl⟩, rfl⟩
    refine ⟨hmid, by rw [← hl, ← hmpid]; simp, fun p hp => (hzip p hp).2.2, ?_⟩
    intro response noise hresp result
    have hv : ∀ r ∈ response, vettedMessageIds U [cutBlank r] = [cutBlank r] := by
      intro r hr
      obtain ⟨l, hl', rfl⟩ := hresp r hr
      exact (vetted_printable hU (hshown _ (hline l hl')).1).2
    have hres : result = deleteMessage (fun i => noise i 0) i1 (response.map cutBlank) :=
      deleteMessagesBySummary_eq U _ response noise i1 hv
    have hiff : ∀ x : Runes, x ∈ response.map cutBlank ↔ Chosen shown lines response x := by
      intro x
      constructor
      · intro hx
        obtain ⟨r, hr, rfl⟩ := List.mem_map.1 hx
        obtain ⟨l, hl', rfl⟩ := hresp r hr
        exact ⟨_, hzip' l hl', rfl, hr⟩
      · rintro ⟨p, hp, rfl, hr⟩
        exact List.mem_map.2 ⟨_, hr, (hzip p hp).2.2⟩
    obtain ⟨hn, ⟨g, g1, _, g3, g4⟩, _⟩ := C27_partial (fun i => noise i 0) i1 (response.map cutBlank) (by rw [hmid]; exact hnd)
    rw [← hres] at hn g3 g4
    simp only [hiff] at hn g1 g4
    exact ⟨hn, g, g1, g3, g4⟩
  · rw [hs] at h; cases h
  · rw [hs] at h; cases h

/-- non-vacuity: two messages, the second line is ticked -/
example : let inst : Inst := { exInst [] with messages := [{ exMsg "HI" with id := lit "Ab12", from_ := lit "SM" }, { exMsg "YO" with id := lit "AB12" }] }
    ((summaryOfMessages unicode15 (fun _ => []) (fun _ => lit "012345ZJAN23") (fun m => m.plainText) (fun _ => true) inst).val?).map (fun r =>
      (r.2.2, (deleteMessagesBySummary unicode15 (fun _ _ _ => 0) r.1 (r.2.2.drop 1)).2.messages.map Msg.id)) =
    some ([lit "Ab12 012345ZJAN23 NIL SM HI", lit "AB12 012345ZJAN23 NIL NILYO"], [lit "Ab12"]) := by decide +kernel

end K431
