import Verif.ExportLemmas

/-!
# C38 and C41: exporting and wiping, in memory
-/

namespace K431.Mem

/-- **C41**, keys and messages: whatever the random source does, after `Wipe` no cell of runes depends on the secrets: two memories that differ only in the contents of the
secret cells have become the same. -/
theorem C41_runes (crand : Bool) (src : Source) {h h' : Heap} {k : HInst} (e : AgreeOff (SecretRune h k) (SecretByte h k) h h') :
    (wipe crand src h k).1.runes = (wipe crand src h' k).1.runes ∧ (wipe crand src h k).1.headers = (wipe crand src h' k).1.headers := by
  have a := agree_bytes (agree_bytes (agree_targets crand src (instTargets crand k) e) crand src k.pfk) crand src k.salt
  rw [wipe_eq, wipe_eq]
  refine ⟨funext (fun x => a.runes x ?_), a.headers⟩
  rintro ⟨h1, h2⟩
  exact h2 (targetHas_inst.2 h1)

/-- **C41**, if the random source works (or zeroes are used): after `Wipe` nothing in memory depends on the secrets. -/
theorem C41_partial {crand : Bool} {src : Source} (hs : crand = true → ∀ n, src n ≠ none) {h h' : Heap} {k : HInst} (e : AgreeOff (SecretRune h k) (SecretByte h k) h h') :
    (wipe crand src h k).1 = (wipe crand src h' k).1 := by
  rw [wipe_eq, wipe_eq]
  have a := agree_targets crand src (instTargets crand k) e
  have b := agree_bytes_erased a crand src k.pfk (fun hc => hs hc _)
  have c := agree_bytes_erased b crand src k.salt (fun hc => hs hc _)
  refine (c.mono ?_ ?_).eq
  · rintro x ⟨h1, h2⟩
    exact h2 (targetHas_inst.2 h1)
  · rintro x ⟨⟨⟨p, hp, hx⟩, h2⟩, h3⟩
    rw [(wipeTargets_only (ts := instTargets crand k)).ptrs] at h2
    by_cases hp' : k.pfk = some p
    · exact h2 p hp' hx
    · rcases hp with hp | hp
      · exact hp' hp
      · refine h3 p hp ?_
        rw [wipeBytes_ptrs hp', (wipeTargets_only (ts := instTargets crand k)).ptrs]
        exact hx

/-- **C41**, the instance: no keys and no messages are left; if the random source works, file key and salt are empty; all else is kept. -/
theorem C41_instance (crand : Bool) (src : Source) (h : Heap) (k : HInst) :
    (wipe crand src h k).2 = { k with keys := [], messages := [] } ∧
    ((crand = true → ∀ n, src n ≠ none) → readPtr (wipe crand src h k).1 k.pfk = k.pfk.map (fun _ => []) ∧ readPtr (wipe crand src h k).1 k.salt = k.salt.map (fun _ => [])) := by
  refine ⟨by rw [wipe_eq], fun hs => ?_⟩
  rw [wipe_eq]
  dsimp only
  have hsalt : ∀ (g : Heap) (q : Nat), k.salt = some q → (wipeBytes crand src k.salt g).ptrs q = Slice.nil := by
    intro g q hq
    rw [hq]; exact wipeBytes_self (fun hc => hs hc _)
  constructor
  · cases hp : k.pfk with
    | none => rfl
    | some p =>
      show some _ = some _
      have : (wipeBytes crand src k.salt (wipeBytes crand src (some p) (wipeTargets crand src (instTargets crand k) h))).ptrs p = Slice.nil := by
        by_cases hq : k.salt = some p
        · exact hsalt _ p hq
        · rw [wipeBytes_ptrs hq]; exact wipeBytes_self (fun hc => hs hc _)
      dsimp only; rw [this]; rfl
  · cases hp : k.salt with
    | none => rfl
    | some p =>
      show some _ = some _
      have := hsalt (wipeBytes crand src k.pfk (wipeTargets crand src (instTargets crand k) h)) p hp
      rw [hp] at this
      dsimp only; rw [this]; rfl

/-- **C41**, conversely `Wipe` touches nothing else. -/
theorem C41_frame (crand : Bool) (src : Source) (h : Heap) (k : HInst) :
    (∀ a, ¬ SecretRune h k a → (wipe crand src h k).1.runes a = h.runes a) ∧
    (∀ a, ¬ SecretByte h k a → (wipe crand src h k).1.bytes a = h.bytes a) ∧
    (∀ j, (∀ x ∈ k.keys, ¬ x.keepers.Has j) → (wipe crand src h k).1.headers j = h.headers j) ∧
    (∀ q, k.pfk ≠ some q → k.salt ≠ some q → (wipe crand src h k).1.ptrs q = h.ptrs q) := by
  rw [wipe_eq]
  dsimp only
  obtain ⟨a1, a2, -⟩ := wipeBytes_only crand src k.salt (wipeBytes crand src k.pfk (wipeTargets crand src (instTargets crand k) h))
  obtain ⟨b1, b2, -⟩ := wipeBytes_only crand src k.pfk (wipeTargets crand src (instTargets crand k) h)
  have o := wipeTargets_only (crand := crand) (src := src) (ts := instTargets crand k) (h := h)
  refine ⟨?_, ?_, ?_, ?_⟩
  · intro a ha
    rw [a1, b1, wipeTargets_off (fun hx => ha (targetHas_inst.1 hx))]
  · intro a ha
    rw [wipeBytes_off, wipeBytes_off, o.bytes]
    · intro q hq hh
      rw [o.ptrs] at hh
      exact ha ⟨q, Or.inl hq, hh⟩
    · intro q hq hh
      by_cases hp : k.pfk = some q
      · have hx : ((wipeBytes crand src k.pfk (wipeTargets crand src (instTargets crand k) h)).ptrs q).Has a → (h.ptrs q).Has a := by
          rw [hp, ← o.ptrs]
          unfold wipeBytes
          dsimp only
          repeat' split
          all_goals dsimp only
          all_goals first
            | exact fun h => h
            | (rw [if_pos rfl]; exact fun h => absurd h (nil_has a))
        exact ha ⟨q, Or.inr hq, hx hh⟩
      · rw [wipeBytes_ptrs hp, o.ptrs] at hh
        exact ha ⟨q, Or.inr hq, hh⟩
  · intro j hj
    rw [a2, b2, wipeTargets_headers, if_neg]
    intro hm
    obtain ⟨x, hx, hh⟩ := cell_mem_inst.1 hm
    exact hj x hx hh
  · intro q h1 h2
    rw [wipeBytes_ptrs h2, wipeBytes_ptrs h1, o.ptrs]

/-- **C41** is violated if the random source fails: file key and salt stay in memory and in the instance. -/
theorem C41_violated {src : Source} (hs : ∀ n, src n = none) (h : Heap) (k : HInst) (hp : ∀ q, (k.pfk = some q ∨ k.salt = some q) → (h.ptrs q).len ≠ 0) :
    (wipe true src h k).1.bytes = h.bytes ∧ readPtr (wipe true src h k).1 k.pfk = readPtr h k.pfk ∧ readPtr (wipe true src h k).1 k.salt = readPtr h k.salt := by
  rw [wipe_eq]
  dsimp only
  have o := wipeTargets_only (crand := true) (src := src) (ts := instTargets true k) (h := h)
  obtain ⟨p1, b1⟩ := wipeBytes_fails (crand := true) (src := src) (p := k.pfk) (h := wipeTargets true src (instTargets true k) h) rfl (hs _)
    (fun q hq => by rw [o.ptrs]; exact hp q (Or.inl hq))
  obtain ⟨p2, b2⟩ := wipeBytes_fails (crand := true) (src := src) (p := k.salt) (h := wipeBytes true src k.pfk (wipeTargets true src (instTargets true k) h)) rfl (hs _)
    (fun q hq => by rw [p1, o.ptrs]; exact hp q (Or.inr hq))
  rw [p1, o.ptrs] at p2
  rw [b1, o.bytes] at b2
  exact ⟨b2, readPtr_congr (fun q _ => by rw [p2]) (fun q a _ _ => by rw [b2]), readPtr_congr (fun q _ => by rw [p2]) (fun q a _ _ => by rw [b2])⟩

/-- **C38**, until the exported instance is wiped: exactly the selected keys in order, no messages, the settings, call-sign, key and salt of the original; and the original
is unchanged. -/
theorem C38_partial (filter : KeyVal → Bool) {h : Heap} {k : HInst} (hf : Fits h k) :
    let h' := (exportKeys filter h k).1
    let e := (exportKeys filter h k).2
    (e.keys.map (keyVal h') = (k.keys.map (keyVal h)).filter filter ∧ e.messages = [] ∧ e.groupSize = k.groupSize ∧ e.keyLength = k.keyLength ∧ e.columns = k.columns ∧
      e.keyColumns = k.keyColumns ∧ e.interactive = k.interactive ∧ e.persistence = [] ∧ e.overwrite = false ∧ readRunes h' e.callSign = readRunes h k.callSign ∧
      readPtr h' e.pfk = some ((readPtr h k.pfk).getD []) ∧ readPtr h' e.salt = some ((readPtr h k.salt).getD [])) ∧
    (k.keys.map (keyVal h') = k.keys.map (keyVal h) ∧ k.messages.map (msgVal h') = k.messages.map (msgVal h) ∧ readRunes h' k.callSign = readRunes h k.callSign ∧
      readPtr h' k.pfk = readPtr h k.pfk ∧ readPtr h' k.salt = readPtr h k.salt) := by
  intro h' e
  have g := export_grows filter h k
  have hkv : ∀ x ∈ k.keys, keyVal h' x = keyVal h x := fun x hx => g.keyVal (hf.keys x hx)
  have hpfk : ∀ q, k.pfk = some q → q < h.nextPtr ∧ ∀ a, (h.ptrs q).Has a → a < h.nextByte := fun q hq => hf.ptrs q (Or.inl hq)
  have hsalt : ∀ q, k.salt = some q → q < h.nextPtr ∧ ∀ a, (h.ptrs q).Has a → a < h.nextByte := fun q hq => hf.ptrs q (Or.inr hq)
  have hkeys : k.keys.map (keyVal h') = k.keys.map (keyVal h) := List.map_congr_left hkv
  obtain ⟨a, ha⟩ : ∃ a, a = newBytes ((readPtr h k.pfk).getD []) h := ⟨_, rfl⟩
  obtain ⟨b, hb⟩ : ∃ b, b = newBytes ((readPtr a.1 k.salt).getD []) a.1 := ⟨_, rfl⟩
  obtain ⟨c, hc⟩ : ∃ c, c = newRunes (readRunes b.1 k.callSign) b.1 := ⟨_, rfl⟩
  have hh : h' = c.1 := by subst hc hb ha; rfl
  have ga : Grows h a.1 := ha ▸ newBytes_grows _ _
  have gb : Grows a.1 b.1 := hb ▸ newBytes_grows _ _
  have gc : Grows b.1 c.1 := hc ▸ newRunes_grows _ _
  have ra : readPtr a.1 (some a.2) = some ((readPtr h k.pfk).getD []) := by rw [ha]; exact readPtr_new _ _
  have rb : readPtr b.1 (some b.2) = some ((readPtr a.1 k.salt).getD []) := by rw [hb]; exact readPtr_new _ _
  have rc : readRunes c.1 c.2 = readRunes b.1 k.callSign := by rw [hc]; exact readRunes_new _ _
  have fa : a.2 < a.1.nextPtr ∧ ∀ x, (a.1.ptrs a.2).Has x → x < a.1.nextByte := by
    rw [ha]; unfold newBytes Slice.Has; simp
  have fb : b.2 < b.1.nextPtr ∧ ∀ x, (b.1.ptrs b.2).Has x → x < b.1.nextByte := by
    rw [hb]; unfold newBytes Slice.Has; simp
  refine ⟨⟨?_, rfl, rfl, rfl, rfl, rfl, rfl, rfl, rfl, ?_, ?_, ?_⟩, hkeys, ?_, g.readRunes hf.callSign, g.readPtr hpfk, g.readPtr hsalt⟩
  · rw [← hkeys, List.filter_map]; rfl
  · rw [show readRunes h' e.callSign = readRunes c.1 c.2 by subst hc hb ha; rfl, rc]
    exact (ga.trans gb).readRunes hf.callSign
  · rw [show readPtr h' e.pfk = readPtr c.1 (some a.2) by subst hc hb ha; rfl, ← ra]
    exact (gb.trans gc).readPtr (fun q hq => by cases hq; exact fa)
  · rw [show readPtr h' e.salt = readPtr c.1 (some b.2) by subst hc hb ha; rfl, ← ga.readPtr hsalt, ← rb]
    exact gc.readPtr (fun q hq => by cases hq; exact fb)
  · exact List.map_congr_left (fun m hm => g.msgVal (hf.messages m hm))

/-- **C38**, what survives wiping the exported instance: everything in the original that shares no array with an exported key. -/
theorem C38_survives (filter : KeyVal → Bool) (crand : Bool) (src : Source) {h : Heap} {k : HInst} (hf : Fits h k) :
    let h' := (wipe crand src (exportKeys filter h k).1 (exportKeys filter h k).2).1
    let out := k.keys.filter (fun x => filter (keyVal h x))
    (∀ x ∈ k.keys, (∀ y ∈ out, (∀ a, KeyCell h x a → ¬ KeyCell h y a) ∧ ∀ j, x.keepers.Has j → ¬ y.keepers.Has j) → keyVal h' x = keyVal h x) ∧
    (∀ m ∈ k.messages, (∀ y ∈ out, (∀ a, MsgAll h m a → ¬ KeyCell h y a) ∧ ∀ j, m.recipients.Has j → ¬ y.keepers.Has j) → msgVal h' m = msgVal h m) ∧
    ((∀ y ∈ out, ∀ a, k.callSign.Has a → ¬ KeyCell h y a) → readRunes h' k.callSign = readRunes h k.callSign) ∧
    readPtr h' k.pfk = readPtr h k.pfk ∧ readPtr h' k.salt = readPtr h k.salt := by
  intro h' out
  have g := export_grows filter h k
  have hout : (exportKeys filter h k).2.keys = out := by
    refine List.filter_congr (fun x hx => ?_)
    rw [← g.keyVal (hf.keys x hx)]; rfl
  have hcell : ∀ y a, KeyCell (exportKeys filter h k).1 y a ↔ KeyCell h y a := by
    intro y a; unfold KeyCell; rw [g.headers]
  obtain ⟨f1, f2, f3, f4⟩ := C41_frame crand src (exportKeys filter h k).1 (exportKeys filter h k).2
  have hrune : ∀ a, a < h.nextRune → (∀ y ∈ out, ¬ KeyCell h y a) → h.runes a = h'.runes a := by
    intro a ha hn
    rw [← g.runes a ha]
    refine (f1 a ?_).symm
    rintro (⟨y, hy, hc⟩ | ⟨m, hm, -⟩)
    · rw [hout] at hy
      exact hn y hy ((hcell y a).1 hc)
    · exact absurd hm List.not_mem_nil
  have hhead : ∀ j, (∀ y ∈ out, ¬ y.keepers.Has j) → h.headers j = h'.headers j := by
    intro j hn
    rw [← g.headers]
    refine (f3 j ?_).symm
    rw [hout]; exact hn
  have hptr : ∀ q, q < h.nextPtr → h.ptrs q = h'.ptrs q := by
    intro q hq
    rw [← g.ptrs q hq]
    refine (f4 q ?_ ?_).symm
    · show some h.nextPtr ≠ some q
      simp; omega
    · show some (h.nextPtr + 1) ≠ some q
      simp; omega
  have hbyte : ∀ a, a < h.nextByte → h.bytes a = h'.bytes a := by
    intro a ha
    rw [← g.bytes a ha]
    refine (f2 a ?_).symm
    rintro ⟨q, hq, hh⟩
    have hh2 : h.nextByte ≤ a := by
      rcases hq with hq | hq
      · have hq' : h.nextPtr = q := by simpa [exportKeys, newBytes] using hq
        subst hq'
        simp [exportKeys, newBytes, newRunes, Slice.Has] at hh
        exact hh.1
      · have hq' : h.nextPtr + 1 = q := by simpa [exportKeys, newBytes] using hq
        subst hq'
        simp [exportKeys, newBytes, newRunes, Slice.Has] at hh
        omega
    omega
  refine ⟨?_, ?_, ?_, ?_, ?_⟩
  · intro x hx hn
    exact (keyVal_congr (fun j hj => hhead j (fun y hy => (hn y hy).2 j hj)) (fun a ha => hrune a (hf.keys x hx a ha) (fun y hy => (hn y hy).1 a ha))).symm
  · intro m hm hn
    exact (msgVal_congr (fun j hj => hhead j (fun y hy => (hn y hy).2 j hj)) (fun a ha => hrune a (hf.messages m hm a ha) (fun y hy => (hn y hy).1 a ha))).symm
  · intro hn
    exact (readRunes_congr (fun a ha => hrune a (hf.callSign a ha) (fun y hy => hn y hy a ha))).symm
  · exact (readPtr_congr (fun q hq => hptr q (hf.ptrs q (Or.inl hq)).1) (fun q a hq ha => hbyte a ((hf.ptrs q (Or.inl hq)).2 a ha))).symm
  · exact (readPtr_congr (fun q hq => hptr q (hf.ptrs q (Or.inr hq)).1) (fun q a hq ha => hbyte a ((hf.ptrs q (Or.inr hq)).2 a ha))).symm

/-- **C38** is violated: once the exported instance is wiped, every exported key has lost the names of its keepers in the original as well, whatever the random source does. -/
theorem C38_violated_keepers (filter : KeyVal → Bool) (crand : Bool) (src : Source) {h : Heap} {k : HInst} (hf : Fits h k) (x : HKey) (hx : x ∈ k.keys)
    (hsel : filter (keyVal h x) = true) :
    (keyVal (wipe crand src (exportKeys filter h k).1 (exportKeys filter h k).2).1 x).keepers = List.replicate x.keepers.len [] := by
  have g := export_grows filter h k
  have hout : x ∈ (exportKeys filter h k).2.keys := by
    refine List.mem_filter.2 ⟨hx, ?_⟩
    rw [← hsel, ← g.keyVal (hf.keys x hx)]; rfl
  rw [wipe_eq]
  show readNames _ x.keepers = _
  unfold readNames
  rw [List.eq_replicate_iff]
  refine ⟨by simp, ?_⟩
  intro b hb
  obtain ⟨i, hi, rfl⟩ := List.mem_map.1 hb
  have hi := List.mem_range.1 hi
  rw [(wipeBytes_only crand src _ _).2.1, (wipeBytes_only crand src _ _).2.1, wipeTargets_headers, if_pos (cell_mem_inst.2 ⟨x, hout, by omega, by omega⟩)]
  rfl

/-- a memory with one key and a file key -/
def exHeap : Heap :=
  ⟨fun a => [65, 81, 87, 69, 66, 66].getD a 0, fun _ => ⟨4, 2⟩, fun _ => 7, fun _ => ⟨0, 32⟩, 6, 1, 32, 1, 0⟩
/-- the instance in it -/
def exInstance : HInst := ⟨[], some 0, some 0, false, false, false, 1, 3, 110, 30, [⟨⟨0, 1⟩, ⟨1, 3⟩, ⟨0, 1⟩, 0, 1, false, false, .nil⟩], [], .nil⟩

example : Fits exHeap exInstance := by
  refine ⟨?_, by simp [exInstance], ?_, ?_⟩
  · intro x hx a ha
    obtain rfl : x = ⟨⟨0, 1⟩, ⟨1, 3⟩, ⟨0, 1⟩, 0, 1, false, false, .nil⟩ := by simpa [exInstance] using hx
    rcases ha with h | h | h | ⟨j, -, h⟩ <;> simp [Slice.Has, Slice.nil, exHeap] at h ⊢ <;> omega
  · intro a ha; simp [exInstance, Slice.Has, Slice.nil] at ha
  · intro p hp
    obtain rfl : 0 = p := by rcases hp with h | h <;> simpa [exInstance] using h
    exact ⟨by decide, fun a ha => ha.2⟩

/-- **C38** is violated: with a random source that yields "X" (88) the key of the original reads "XXX" after the exported instance has been wiped. -/
theorem C38_violated : exInstance.keys.map (keyVal exHeap) = [⟨[65], [81, 87, 69], [[66, 66]], 0, 1, false, false, []⟩] ∧
    exInstance.keys.map (keyVal (wipe true (fun _ => some (fun _ => 88)) (exportKeys (fun _ => true) exHeap exInstance).1 (exportKeys (fun _ => true) exHeap exInstance).2).1) =
      [⟨[88], [88, 88, 88], [[]], 0, 1, false, false, []⟩] := by decide

/-- memories that differ in the letters of the key and in the file key -/
example : AgreeOff (SecretRune exHeap exInstance) (SecretByte exHeap exInstance) exHeap
    { exHeap with runes := fun a => [65, 75, 75, 75, 66, 66].getD a 0, bytes := fun a => if a < 32 then 9 else 7 } := by
  refine ⟨?_, ?_, rfl, rfl, rfl, rfl, rfl, rfl, rfl⟩
  · intro a ha
    have : ¬ (1 ≤ a ∧ a < 4) := fun h => ha (Or.inl ⟨_, List.mem_singleton.2 rfl, Or.inr (Or.inl ⟨h.1, h.2⟩)⟩)
    show [65, 81, 87, 69, 66, 66].getD a 0 = [65, 75, 75, 75, 66, 66].getD a (0 : Int)
    rcases a with _ | _ | _ | _ | a
    · rfl
    · omega
    · omega
    · omega
    · rfl
  · intro a ha
    have : ¬ a < 32 := fun h => ha ⟨0, Or.inl rfl, by unfold Slice.Has exHeap; simp; omega⟩
    show 7 = if a < 32 then 9 else 7
    rw [if_neg this]

/-- the hypothesis of `C41_violated` can be met -/
example : readPtr (wipe true (fun _ => none) exHeap exInstance).1 exInstance.pfk = some (List.replicate 32 7) := by decide

end K431.Mem
