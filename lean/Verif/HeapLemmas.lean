import Verif.SpecHeap
import Mathlib.Tactic.Tauto
import Mathlib.Tactic.ByContra

/-!
# Lemmas on wiping memory
-/

namespace K431.Mem

theorem fill_has {α : Type} {s : Slice} {f : Nat → α} {mem : Nat → α} {a : Nat} (h : s.Has a) : fill s f mem a = f (a - s.base) := if_pos h
theorem fill_not {α : Type} {s : Slice} {f : Nat → α} {mem : Nat → α} {a : Nat} (h : ¬ s.Has a) : fill s f mem a = mem a := if_neg h

/-- some target covers the cell -/
def TargetHas (h : Heap) (ts : List Target) (a : Nat) : Prop := ∃ t ∈ ts, (t.slice h).Has a

theorem nil_has (a : Nat) : ¬ Slice.nil.Has a := by unfold Slice.Has Slice.nil; simp

/-- everything but runes, headers and calls stays -/
structure RunesOnly (h h' : Heap) : Prop where
  bytes : h'.bytes = h.bytes
  ptrs : h'.ptrs = h.ptrs
  nextRune : h'.nextRune = h.nextRune
  nextHeader : h'.nextHeader = h.nextHeader
  nextByte : h'.nextByte = h.nextByte
  nextPtr : h'.nextPtr = h.nextPtr

theorem RunesOnly.trans {a b c : Heap} (h : RunesOnly a b) (h' : RunesOnly b c) : RunesOnly a c :=
  ⟨h'.1.trans h.1, h'.2.trans h.2, h'.3.trans h.3, h'.4.trans h.4, h'.5.trans h.5, h'.6.trans h.6⟩

/-- what is written -/
def written (crand : Bool) (src : Source) (n : Nat) (i : Nat) : Rune :=
  if crand then match src n with | some w => int32 (w i) | none => 0 else 0

theorem wipeTarget_eq (crand : Bool) (src : Source) (t : Target) (h : Heap) : wipeTarget crand src t h =
    { h with runes := fill (t.slice h) (written crand src h.calls) h.runes
             headers := fun i => if t = .cell i then Slice.nil else h.headers i
             calls := if crand then h.calls + 1 else h.calls } := by
  have hf : ∀ s : Slice, (fun i => if Target.field s = .cell i then Slice.nil else h.headers i) = h.headers := fun s => by funext i; simp
  have hc : ∀ j : Nat, (fun i => if Target.cell j = .cell i then Slice.nil else h.headers i) = (fun i => if i = j then Slice.nil else h.headers i) :=
    fun j => by funext i; simp [eq_comm]
  cases crand
  · cases t with
    | field s => rw [hf]; rfl
    | cell j => rw [hc]; rfl
  · unfold written wipeTarget
    cases src h.calls with
    | none =>
      cases t with
      | field s => rw [hf]; rfl
      | cell j => rw [hc]; rfl
    | some w =>
      cases t with
      | field s => rw [hf]; rfl
      | cell j => rw [hc]; rfl

theorem wipeTarget_only (crand : Bool) (src : Source) (t : Target) (h : Heap) : RunesOnly h (wipeTarget crand src t h) := by
  rw [wipeTarget_eq]; exact ⟨rfl, rfl, rfl, rfl, rfl, rfl⟩

theorem wipeTarget_headers (crand : Bool) (src : Source) (t : Target) (h : Heap) (i : Nat) :
    (wipeTarget crand src t h).headers i = if t = .cell i then Slice.nil else h.headers i := by
  rw [wipeTarget_eq]

theorem wipeTarget_off {crand : Bool} {src : Source} {t : Target} {h : Heap} {a : Nat} (ha : ¬ (t.slice h).Has a) : (wipeTarget crand src t h).runes a = h.runes a := by
  rw [wipeTarget_eq]; exact fill_not ha

theorem wipeTarget_on {crand : Bool} {src : Source} {t : Target} {h : Heap} {a : Nat} (ha : (t.slice h).Has a) :
    (wipeTarget crand src t h).runes a = written crand src h.calls (a - (t.slice h).base) := by
  rw [wipeTarget_eq]; exact fill_has ha

theorem wipeTarget_calls (crand : Bool) (src : Source) (t : Target) (h : Heap) : (wipeTarget crand src t h).calls = if crand then h.calls + 1 else h.calls := by
  rw [wipeTarget_eq]

theorem AgreeOff.slice {R B : Nat → Prop} {h h' : Heap} (e : AgreeOff R B h h') (t : Target) : t.slice h = t.slice h' := by
  cases t with
  | field s => rfl
  | cell j => show h.headers j = h'.headers j; rw [e.headers]

theorem agree_target {R B : Nat → Prop} {h h' : Heap} (e : AgreeOff R B h h') (crand : Bool) (src : Source) (t : Target) :
    AgreeOff (fun a => R a ∧ ¬ (t.slice h).Has a) B (wipeTarget crand src t h) (wipeTarget crand src t h') := by
  have o := wipeTarget_only crand src t h
  have o' := wipeTarget_only crand src t h'
  refine ⟨?_, ?_, ?_, ?_, ?_, ?_, ?_, ?_, ?_⟩
  · intro a ha
    by_cases hs : (t.slice h).Has a
    · rw [wipeTarget_on hs, wipeTarget_on (by rw [← e.slice]; exact hs), e.calls, e.slice]
    · rw [wipeTarget_off hs, wipeTarget_off (by rw [← e.slice]; exact hs)]
      exact e.runes a (fun hR => ha ⟨hR, hs⟩)
  · intro a ha; rw [o.bytes, o'.bytes]; exact e.bytes a ha
  · funext i; rw [wipeTarget_headers, wipeTarget_headers, e.headers]
  · rw [o.ptrs, o'.ptrs, e.ptrs]
  · rw [o.nextRune, o'.nextRune, e.nextRune]
  · rw [o.nextHeader, o'.nextHeader, e.nextHeader]
  · rw [o.nextByte, o'.nextByte, e.nextByte]
  · rw [o.nextPtr, o'.nextPtr, e.nextPtr]
  · rw [wipeTarget_calls, wipeTarget_calls, e.calls]

theorem AgreeOff.mono {R R' B B' : Nat → Prop} {h h' : Heap} (e : AgreeOff R B h h') (hR : ∀ a, R a → R' a) (hB : ∀ a, B a → B' a) : AgreeOff R' B' h h' :=
  ⟨fun a ha => e.runes a (fun h => ha (hR a h)), fun a ha => e.bytes a (fun h => ha (hB a h)), e.3, e.4, e.5, e.6, e.7, e.8, e.9⟩

/-- a cell of the remaining targets is one afterwards, or has just been wiped -/
theorem slice_after {crand : Bool} {src : Source} {t t' : Target} {h : Heap} {a : Nat} (ha : (t'.slice h).Has a) :
    (t.slice h).Has a ∨ (t'.slice (wipeTarget crand src t h)).Has a := by
  cases t' with
  | field s => exact Or.inr ha
  | cell j =>
    by_cases e : t = .cell j
    · subst e; exact Or.inl ha
    · right
      show ((wipeTarget crand src t h).headers j).Has a
      rw [wipeTarget_headers, if_neg e]; exact ha

theorem slice_before {crand : Bool} {src : Source} {t t' : Target} {h : Heap} {a : Nat} (ha : (t'.slice (wipeTarget crand src t h)).Has a) : (t'.slice h).Has a := by
  cases t' with
  | field s => exact ha
  | cell j =>
    have : ((wipeTarget crand src t h).headers j).Has a := ha
    rw [wipeTarget_headers] at this
    split at this
    · exact absurd this (nil_has a)
    · exact this

theorem agree_targets {B : Nat → Prop} (crand : Bool) (src : Source) : ∀ (ts : List Target) {R : Nat → Prop} {h h' : Heap}, AgreeOff R B h h' →
    AgreeOff (fun a => R a ∧ ¬ TargetHas h ts a) B (wipeTargets crand src ts h) (wipeTargets crand src ts h')
  | [], R, h, h', e => e.mono (fun a ha => ⟨ha, by rintro ⟨t, ht, -⟩; simp at ht⟩) (fun _ h => h)
  | t :: ts, R, h, h', e => by
    refine (agree_targets crand src ts (agree_target e crand src t)).mono ?_ (fun _ h => h)
    rintro a ⟨⟨hR, h1⟩, h2⟩
    refine ⟨hR, ?_⟩
    rintro ⟨t', ht', ha⟩
    rcases List.mem_cons.1 ht' with rfl | ht'
    · exact h1 ha
    · rcases slice_after (crand := crand) (src := src) (t := t) ha with hx | hx
      · exact h1 hx
      · exact h2 ⟨t', ht', hx⟩

theorem wipeTargets_off {crand : Bool} {src : Source} {a : Nat} : ∀ {ts : List Target} {h : Heap}, ¬ TargetHas h ts a → (wipeTargets crand src ts h).runes a = h.runes a
  | [], _, _ => rfl
  | t :: ts, h, ha => by
    show (wipeTargets crand src ts (wipeTarget crand src t h)).runes a = _
    rw [wipeTargets_off, wipeTarget_off]
    · exact fun hs => ha ⟨t, by simp, hs⟩
    · rintro ⟨t', ht', hs⟩
      exact ha ⟨t', by simp [ht'], slice_before hs⟩

theorem wipeTargets_headers {crand : Bool} {src : Source} {i : Nat} : ∀ {ts : List Target} {h : Heap},
    (wipeTargets crand src ts h).headers i = if Target.cell i ∈ ts then Slice.nil else h.headers i
  | [], _ => by simp [wipeTargets]
  | t :: ts, h => by
    show (wipeTargets crand src ts (wipeTarget crand src t h)).headers i = _
    rw [wipeTargets_headers, wipeTarget_headers]
    by_cases h1 : Target.cell i ∈ ts
    · simp [h1]
    · by_cases h2 : t = .cell i
      · simp [h2]
      · simp [h1, h2, Ne.symm h2]

theorem wipeTargets_only {crand : Bool} {src : Source} : ∀ {ts : List Target} {h : Heap}, RunesOnly h (wipeTargets crand src ts h)
  | [], _ => ⟨rfl, rfl, rfl, rfl, rfl, rfl⟩
  | t :: ts, h => (wipeTarget_only crand src t h).trans (wipeTargets_only (ts := ts))

/-- all targets of an instance -/
def instTargets (crand : Bool) (k : HInst) : List Target := k.keys.flatMap (keyTargets crand) ++ k.messages.flatMap msgTargets

theorem foldl_targets {α : Type} (crand : Bool) (src : Source) (f : α → List Target) : ∀ (l : List α) (h : Heap),
    l.foldl (fun h x => wipeTargets crand src (f x) h) h = wipeTargets crand src (l.flatMap f) h
  | [], _ => rfl
  | x :: l, h => by
    rw [List.foldl_cons, foldl_targets crand src f l, List.flatMap_cons]
    unfold wipeTargets
    rw [List.foldl_append]

theorem wipe_eq (crand : Bool) (src : Source) (h : Heap) (k : HInst) :
    wipe crand src h k = (wipeBytes crand src k.salt (wipeBytes crand src k.pfk (wipeTargets crand src (instTargets crand k) h)), { k with keys := [], messages := [] }) := by
  unfold wipe
  dsimp only
  rw [foldl_targets crand src (keyTargets crand), foldl_targets crand src msgTargets]
  unfold instTargets wipeTargets
  rw [List.foldl_append]

theorem mem_keeperCells {s : Slice} {t : Target} : t ∈ keeperCells s ↔ ∃ j, s.Has j ∧ t = .cell j := by
  unfold keeperCells Slice.Has
  constructor
  · intro h
    obtain ⟨i, hi, rfl⟩ := List.mem_map.1 h
    exact ⟨s.base + i, ⟨by omega, by have := List.mem_range.1 hi; omega⟩, rfl⟩
  · rintro ⟨j, ⟨h1, h2⟩, rfl⟩
    exact List.mem_map.2 ⟨j - s.base, List.mem_range.2 (by omega), by congr 1; omega⟩

theorem mem_keyTargets {crand : Bool} {k : HKey} {t : Target} :
    t ∈ keyTargets crand k ↔ t = .field k.id ∨ t = .field k.runes ∨ t = .field k.comment ∨ ∃ j, k.keepers.Has j ∧ t = .cell j := by
  unfold keyTargets
  cases crand
  · simp only [mem_keeperCells, Bool.false_eq_true, if_false, List.mem_append, List.mem_cons, List.not_mem_nil, or_false]
    generalize (∃ j, k.keepers.Has j ∧ t = .cell j) = q
    tauto
  · simp only [mem_keeperCells, if_true, List.mem_append, List.mem_cons, List.not_mem_nil, or_false]
    generalize (∃ j, k.keepers.Has j ∧ t = .cell j) = q
    tauto

theorem mem_msgTargets {m : HMsg} {t : Target} : t ∈ msgTargets m ↔ t = .field m.plainText ∨ t = .field m.cipherText ∨ t = .field m.keyId := by
  unfold msgTargets; simp

theorem targetHas_key {crand : Bool} {h : Heap} {k : HKey} {a : Nat} : TargetHas h (keyTargets crand k) a ↔ KeyCell h k a := by
  unfold TargetHas KeyCell
  constructor
  · rintro ⟨t, ht, ha⟩
    rcases mem_keyTargets.1 ht with rfl | rfl | rfl | ⟨j, hj, rfl⟩
    · exact Or.inl ha
    · exact Or.inr (Or.inl ha)
    · exact Or.inr (Or.inr (Or.inl ha))
    · exact Or.inr (Or.inr (Or.inr ⟨j, hj, ha⟩))
  · rintro (ha | ha | ha | ⟨j, hj, ha⟩)
    · exact ⟨_, mem_keyTargets.2 (Or.inl rfl), ha⟩
    · exact ⟨_, mem_keyTargets.2 (Or.inr (Or.inl rfl)), ha⟩
    · exact ⟨_, mem_keyTargets.2 (Or.inr (Or.inr (Or.inl rfl))), ha⟩
    · exact ⟨_, mem_keyTargets.2 (Or.inr (Or.inr (Or.inr ⟨j, hj, rfl⟩))), ha⟩

theorem targetHas_msg {h : Heap} {m : HMsg} {a : Nat} : TargetHas h (msgTargets m) a ↔ MsgCell m a := by
  unfold TargetHas MsgCell
  constructor
  · rintro ⟨t, ht, ha⟩
    rcases mem_msgTargets.1 ht with rfl | rfl | rfl
    · exact Or.inl ha
    · exact Or.inr (Or.inl ha)
    · exact Or.inr (Or.inr ha)
  · rintro (ha | ha | ha)
    · exact ⟨_, mem_msgTargets.2 (Or.inl rfl), ha⟩
    · exact ⟨_, mem_msgTargets.2 (Or.inr (Or.inl rfl)), ha⟩
    · exact ⟨_, mem_msgTargets.2 (Or.inr (Or.inr rfl)), ha⟩

theorem targetHas_inst {crand : Bool} {h : Heap} {k : HInst} {a : Nat} : TargetHas h (instTargets crand k) a ↔ SecretRune h k a := by
  unfold SecretRune instTargets
  constructor
  · rintro ⟨t, ht, ha⟩
    rcases List.mem_append.1 ht with ht | ht
    · obtain ⟨x, hx, ht⟩ := List.mem_flatMap.1 ht
      exact Or.inl ⟨x, hx, targetHas_key.1 ⟨t, ht, ha⟩⟩
    · obtain ⟨x, hx, ht⟩ := List.mem_flatMap.1 ht
      exact Or.inr ⟨x, hx, targetHas_msg.1 ⟨t, ht, ha⟩⟩
  · rintro (⟨x, hx, ha⟩ | ⟨x, hx, ha⟩)
    · obtain ⟨t, ht, ha⟩ := (targetHas_key (crand := crand)).2 ha
      exact ⟨t, List.mem_append_left _ (List.mem_flatMap.2 ⟨x, hx, ht⟩), ha⟩
    · obtain ⟨t, ht, ha⟩ := (targetHas_msg (h := h)).2 ha
      exact ⟨t, List.mem_append_right _ (List.mem_flatMap.2 ⟨x, hx, ht⟩), ha⟩

theorem cell_mem_inst {crand : Bool} {k : HInst} {j : Nat} : Target.cell j ∈ instTargets crand k ↔ ∃ x ∈ k.keys, x.keepers.Has j := by
  unfold instTargets
  constructor
  · intro h
    rcases List.mem_append.1 h with h | h
    · obtain ⟨x, hx, ht⟩ := List.mem_flatMap.1 h
      rcases mem_keyTargets.1 ht with e | e | e | ⟨i, hi, e⟩ <;> cases e
      exact ⟨x, hx, hi⟩
    · obtain ⟨x, hx, ht⟩ := List.mem_flatMap.1 h
      rcases mem_msgTargets.1 ht with e | e | e <;> cases e
  · rintro ⟨x, hx, h⟩
    exact List.mem_append_left _ (List.mem_flatMap.2 ⟨x, hx, mem_keyTargets.2 (Or.inr (Or.inr (Or.inr ⟨j, h, rfl⟩)))⟩)

/-! ## Bytes -/

/-- nothing but bytes, pointers and calls changes -/
theorem wipeBytes_only (crand : Bool) (src : Source) (p : Option Nat) (h : Heap) :
    (wipeBytes crand src p h).runes = h.runes ∧ (wipeBytes crand src p h).headers = h.headers ∧ (wipeBytes crand src p h).nextRune = h.nextRune ∧
    (wipeBytes crand src p h).nextHeader = h.nextHeader ∧ (wipeBytes crand src p h).nextByte = h.nextByte ∧ (wipeBytes crand src p h).nextPtr = h.nextPtr := by
  unfold wipeBytes
  cases p with
  | none => exact ⟨rfl, rfl, rfl, rfl, rfl, rfl⟩
  | some p =>
    dsimp only
    repeat' split
    all_goals exact ⟨rfl, rfl, rfl, rfl, rfl, rfl⟩

theorem wipeBytes_off {crand : Bool} {src : Source} {p : Option Nat} {h : Heap} {a : Nat} (ha : ∀ q, p = some q → ¬ (h.ptrs q).Has a) :
    (wipeBytes crand src p h).bytes a = h.bytes a := by
  unfold wipeBytes
  cases p with
  | none => rfl
  | some p =>
    dsimp only
    repeat' split
    all_goals try dsimp only
    all_goals first
      | rfl
      | exact fill_not (ha p rfl)

theorem wipeBytes_ptrs {crand : Bool} {src : Source} {p : Option Nat} {h : Heap} {q : Nat} (hq : p ≠ some q) : (wipeBytes crand src p h).ptrs q = h.ptrs q := by
  unfold wipeBytes
  cases p with
  | none => rfl
  | some p =>
    have : ¬ q = p := fun e => hq (by rw [e])
    dsimp only
    repeat' split
    all_goals simp [this]

theorem wipeBytes_self {crand : Bool} {src : Source} {p : Nat} {h : Heap} (hs : crand = true → src h.calls ≠ none) : (wipeBytes crand src (some p) h).ptrs p = Slice.nil := by
  unfold wipeBytes
  dsimp only
  split
  · next hc =>
    split
    · simp
    · next e => exact absurd e (hs hc)
  · simp

theorem wipeBytes_fails {crand : Bool} {src : Source} {p : Option Nat} {h : Heap} (hc : crand = true) (hs : src h.calls = none) (hl : ∀ q, p = some q → (h.ptrs q).len ≠ 0) :
    (wipeBytes crand src p h).ptrs = h.ptrs ∧ (wipeBytes crand src p h).bytes = h.bytes := by
  subst hc
  unfold wipeBytes
  cases p with
  | none => exact ⟨rfl, rfl⟩
  | some p =>
    dsimp only
    rw [if_pos rfl, hs]
    dsimp only
    rw [if_neg (hl p rfl)]
    exact ⟨rfl, rfl⟩

theorem wipeBytes_calls (crand : Bool) (src : Source) (p : Option Nat) (h : Heap) :
    (wipeBytes crand src p h).calls = if crand = true ∧ p ≠ none then h.calls + 1 else h.calls := by
  unfold wipeBytes
  cases p with
  | none => simp
  | some p =>
    dsimp only
    cases crand
    · simp
    · rw [if_pos rfl, if_pos (c := true = true ∧ some p ≠ none) ⟨rfl, by simp⟩]
      repeat' split
      all_goals rfl

theorem agree_bytes {R B : Nat → Prop} {h h' : Heap} (e : AgreeOff R B h h') (crand : Bool) (src : Source) (p : Option Nat) :
    AgreeOff R B (wipeBytes crand src p h) (wipeBytes crand src p h') := by
  obtain ⟨a1, a2, a3, a4, a5, a6⟩ := wipeBytes_only crand src p h
  obtain ⟨b1, b2, b3, b4, b5, b6⟩ := wipeBytes_only crand src p h'
  refine ⟨by rw [a1, b1]; exact e.runes, ?_, by rw [a2, b2, e.headers], ?_, by rw [a3, b3, e.nextRune], by rw [a4, b4, e.nextHeader], by rw [a5, b5, e.nextByte],
    by rw [a6, b6, e.nextPtr], by rw [wipeBytes_calls, wipeBytes_calls, e.calls]⟩
  · intro a ha
    unfold wipeBytes
    cases p with
    | none => exact e.bytes a ha
    | some p =>
      dsimp only
      rw [e.calls, e.ptrs]
      have hb := e.bytes a ha
      repeat' split
      all_goals dsimp only
      all_goals first
        | exact hb
        | (unfold fill; rw [hb])
  · unfold wipeBytes
    cases p with
    | none => exact e.ptrs
    | some p =>
      dsimp only
      rw [e.calls, e.ptrs]
      repeat' split
      all_goals rfl

theorem agree_bytes_erased {R B : Nat → Prop} {h h' : Heap} (e : AgreeOff R B h h') (crand : Bool) (src : Source) (p : Option Nat) (hs : crand = true → src h.calls ≠ none) :
    AgreeOff R (fun a => B a ∧ ∀ q, p = some q → ¬ (h.ptrs q).Has a) (wipeBytes crand src p h) (wipeBytes crand src p h') := by
  have base := agree_bytes e crand src p
  refine ⟨base.runes, ?_, base.headers, base.ptrs, base.nextRune, base.nextHeader, base.nextByte, base.nextPtr, base.calls⟩
  intro a ha
  by_cases hB : B a
  · have : ∃ q, p = some q ∧ (h.ptrs q).Has a := by
      by_contra hn
      exact ha ⟨hB, fun q hq hh => hn ⟨q, hq, hh⟩⟩
    obtain ⟨q, rfl, hq⟩ := this
    unfold wipeBytes
    dsimp only
    rw [← e.calls, ← e.ptrs]
    split
    · next hc =>
      split
      · dsimp only
        rw [fill_has hq, fill_has hq]
      · next en => exact absurd en (hs hc)
    · dsimp only
      rw [fill_has hq, fill_has hq]
  · exact base.bytes a hB

theorem AgreeOff.eq {h h' : Heap} (e : AgreeOff (fun _ => False) (fun _ => False) h h') : h = h' := by
  obtain ⟨e1, e2, e3, e4, e5, e6, e7, e8, e9⟩ := e
  cases h; cases h'
  simp only [Heap.mk.injEq]
  exact ⟨funext fun a => e1 a (fun h => h), e3, funext fun a => e2 a (fun h => h), e4, e5, e6, e7, e8, e9⟩

end K431.Mem
