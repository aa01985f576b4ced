import Verif.LockLemmas

/-! # C46: the random source is goroutine-safe -/

namespace K431

/-- C46, blocks: in every execution there is a list of pairwise disjoint blocks of the stream (goroutine, call, position), in the
order of the stream, such that what a goroutine's calls returned are its blocks, whole, in the order of its calls.  No byte is handed
out twice, and none that the source has not delivered. -/
theorem C46_blocks (stream : Nat → Nat) (prog : Nat → List RCall) (s : RState) (h : RReach stream prog s) :
    ∃ log : List (Nat × RCall × Nat),
      log.Pairwise (fun a b => a.2.2 + a.2.1.size ≤ b.2.2) ∧ (∀ e ∈ log, e.2.2 + e.2.1.size ≤ s.pos) ∧
      ∀ t, (s.threads t).results.filterMap (fun r => r.2.map (fun bytes => (r.1, bytes))) <+:
        (log.filter (fun e => e.1 = t)).map (fun e => (e.2.1, (List.range e.2.1.size).map (fun i => stream (e.2.2 + i)))) := by
  obtain ⟨log, hi⟩ := h.inv
  refine ⟨log, hi.sorted, hi.bound, fun t => ⟨(s.threads t).phase.pending, ?_⟩⟩
  exact (hi.given t).symm

/-- C46: each goroutine gets the results of its own calls, in order; a call that succeeds gets eight bytes (`Uint64`), one byte for each
byte (`Read`), four for each rune (`ReadRunes`); `Uint64` never returns without its eight bytes. -/
theorem C46_program (stream : Nat → Nat) (prog : Nat → List RCall) (s : RState) (h : RReach stream prog s) (t : Nat) :
    (s.threads t).results.map Prod.fst <+: prog t ∧
    (∀ c bytes, (c, some bytes) ∈ (s.threads t).results →
      bytes.length = match c with | .uint64 => 8 | .read n => n | .readRunes n => 4 * n) ∧
    (RCall.uint64, none) ∉ (s.threads t).results := by
  refine ⟨(h.inv.elim fun _ hi => hi.order' t), ?_, ?_⟩
  · intro c bytes hm
    obtain ⟨log, -, -, hpre⟩ := C46_blocks stream prog s h
    have : (c, bytes) ∈ (s.threads t).results.filterMap (fun r => r.2.map (fun bytes => (r.1, bytes))) :=
      List.mem_filterMap.2 ⟨(c, some bytes), hm, rfl⟩
    obtain ⟨e, -, he⟩ := List.mem_map.1 ((hpre t).subset this)
    simp only [Prod.mk.injEq] at he
    obtain ⟨rfl, rfl⟩ := he
    rw [List.length_map, List.length_range]
    cases e.2.1 <;> rfl
  induction h with
  | start => simp [RState.start]
  | @step s s' u hr hs ih =>
    cases hs with
    | @ret c res hp hne =>
      by_cases hu : t = u
      · subst hu
        simp only [RState.upd, if_true, List.mem_append, List.mem_singleton, Prod.mk.injEq, not_or]
        exact ⟨ih, fun e => hne e.1.symm e.2.symm⟩
      · simpa [RState.upd, hu] using ih
    | _ =>
      simp only [RState.upd]
      split
      · rename_i e; subst e; exact ih
      · exact ih

/-- C46, mutual exclusion: a goroutine is between `Lock` and `Unlock` exactly when it holds the mutex.  So two never are, `Unlock` is only
called by the holder, and when no goroutine is in a call, also after errors and panics, the mutex is free. -/
theorem C46_lock (stream : Nat → Nat) (prog : Nat → List RCall) (s : RState) (h : RReach stream prog s) (t : Nat) :
    s.lock = some t ↔ (∃ c buf, (s.threads t).phase = .reading c buf) ∨ ∃ c res, (s.threads t).phase = .returned c res := by
  obtain ⟨log, hi⟩ := h.inv
  rw [← hi.lock t]
  cases (s.threads t).phase <;> simp [RPhase.inside]

/-- Executions during which goroutine `t` keeps the mutex, with the goroutines that made the steps. -/
inductive RHeld (stream : Nat → Nat) (t : Nat) : RState → List Nat → RState → Prop where
  | nil {s : RState} : s.lock = some t → RHeld stream t s [] s
  | cons {s s' s'' : RState} {u : Nat} {us : List Nat} : s.lock = some t → RStep stream u s s' → RHeld stream t s' us s'' → RHeld stream t s (u :: us) s''

/-- steps the holder can make at most before it unlocks -/
def RPhase.left : RPhase → Nat
  | .reading c buf => c.size - buf.length + 1
  | _ => 0

theorem RHeld.count {stream : Nat → Nat} {prog : Nat → List RCall} {t : Nat} {s s' : RState} {us : List Nat} (h : RHeld stream t s us s') :
    RReach stream prog s → us.count t ≤ (s.threads t).phase.left := by
  induction h with
  | nil _ => intro _; simp
  | @cons s s1 s2 u us hl hs hrest ih =>
    intro hr
    have ih := ih (hr.step hs)
    have hl1 : s1.lock = some t := by cases hrest <;> assumption
    by_cases hu : u = t
    · subst hu
      rw [List.count_cons_self]
      cases hs with
      | lock hp ht hl' => rw [hl] at hl'; cases hl'
      | @more c buf n hp hn hle =>
        rw [hp]
        simp only [RState.upd, if_true, RPhase.left, List.length_append, block_length] at ih ⊢
        omega
      | @fail c buf n hp hle =>
        rw [hp]
        simp only [RState.upd, if_true, RPhase.left] at ih ⊢
        omega
      | @done c buf hp hlen =>
        rw [hp]
        simp only [RState.upd, if_true, RPhase.left] at ih ⊢
        omega
      | unlock hp => simp at hl1
      | ret hp _ =>
        have := (C46_lock stream prog s hr u).1 hl
        rw [hp] at this; simp at this
      | panic hp =>
        have := (C46_lock stream prog s hr u).1 hl
        rw [hp] at this; simp at this
    · rw [List.count_cons_of_ne (fun e => hu (by simpa using e))]
      have : s1.threads t = s.threads t := by
        cases hs <;> simp [RState.upd, Ne.symm hu]
      rw [this] at ih
      exact ih

/-- C46, the lock is not left held: a goroutine wanting `n` bytes makes at most `n + 1` steps before it unlocks, whatever the
others do and whether or not the source fails. -/
theorem C46_release (stream : Nat → Nat) (prog : Nat → List RCall) (s s' : RState) (h : RReach stream prog s) (t : Nat) (c : RCall)
    (hc : ∃ buf, (s.threads t).phase = .reading c buf) (us : List Nat) (hus : RHeld stream t s us s') : us.count t ≤ c.size + 1 := by
  have := hus.count h
  obtain ⟨buf, hb⟩ := hc
  rw [hb] at this
  simp only [RPhase.left] at this
  omega

/-- C46, no deadlock: if some goroutine has not finished (and has not panicked), some goroutine can make a step; the holder of the mutex always can. -/
theorem C46_progress (stream : Nat → Nat) (prog : Nat → List RCall) (s : RState) (h : RReach stream prog s) :
    (∀ t, s.lock = some t → ∃ s', RStep stream t s s') ∧
    ((∃ t, (s.threads t).phase ≠ .panicked ∧ ((s.threads t).phase = .idle → (s.threads t).todo ≠ [])) → ∃ t s', RStep stream t s s') := by
  have hold : ∀ t, s.lock = some t → ∃ s', RStep stream t s s' := by
    intro t ht
    obtain ⟨log, hi⟩ := h.inv
    rcases (C46_lock stream prog s h t).1 ht with ⟨c, buf, hp⟩ | ⟨c, res, hp⟩
    · obtain ⟨hle, -⟩ := hi.reading t c buf hp
      by_cases he : buf.length = c.size
      · exact ⟨_, .done hp he⟩
      · exact ⟨_, .more (n := 1) hp (by omega) (by omega)⟩
    · exact ⟨_, .unlock hp⟩
  refine ⟨hold, ?_⟩
  rintro ⟨t, hp, ht⟩
  rcases hl : s.lock with _ | u
  · rcases hph : (s.threads t).phase with _ | ⟨c, buf⟩ | ⟨c, res⟩ | ⟨c, res⟩ | _
    · rcases htd : (s.threads t).todo with _ | ⟨c, cs⟩
      · exact absurd htd (ht hph)
      · exact ⟨t, _, .lock hph htd hl⟩
    · have := (C46_lock stream prog s h t).2 (.inl ⟨c, buf, hph⟩)
      rw [hl] at this; cases this
    · have := (C46_lock stream prog s h t).2 (.inr ⟨c, res, hph⟩)
      rw [hl] at this; cases this
    · by_cases hc : c = .uint64 ∧ res = none
      · obtain ⟨rfl, rfl⟩ := hc
        exact ⟨t, _, .panic hph⟩
      · exact ⟨t, _, .ret hph (fun e e' => hc ⟨e, e'⟩)⟩
    · exact absurd hph hp
  · obtain ⟨s', hs'⟩ := hold u hl
    exact ⟨u, s', hs'⟩

/-- non-vacuity: goroutine 1 reads between the calls of goroutine 0, in two portions, and its second read fails -/
example : ∃ s, RReach (fun i => i) (fun t => if t = 0 then [.read 2, .read 1] else [.read 3, .uint64]) s ∧
    (s.threads 0).results = [(.read 2, some [0, 1]), (.read 1, some [7])] ∧
    (s.threads 1).results = [(.read 3, some [2, 3, 4])] ∧ (s.threads 1).phase = .panicked ∧ s.lock = none := by
  have h0 := RReach.start (stream := fun i => i) (prog := fun t => if t = 0 then [.read 2, .read 1] else [.read 3, .uint64])
  have h1 := h0.step (.lock (t := 0) rfl rfl rfl)
  have h2 := h1.step (.more (t := 0) (n := 2) rfl (by decide) (by decide))
  have h3 := h2.step (.done (t := 0) rfl rfl)
  have h4 := h3.step (.unlock (t := 0) rfl)
  have h5 := h4.step (.lock (t := 1) rfl rfl rfl)
  have h6 := h5.step (.more (t := 1) (n := 1) rfl (by decide) (by decide))
  have h7 := h6.step (.ret (t := 0) rfl (by decide))
  have h8 := h7.step (.more (t := 1) (n := 2) rfl (by decide) (by decide))
  have h9 := h8.step (.done (t := 1) rfl rfl)
  have h10 := h9.step (.unlock (t := 1) rfl)
  have h11 := h10.step (.ret (t := 1) rfl (by decide))
  have h12 := h11.step (.lock (t := 1) rfl rfl rfl)
  have h13 := h12.step (.fail (t := 1) (n := 2) rfl (by decide))
  have h14 := h13.step (.unlock (t := 1) rfl)
  have h15 := h14.step (.lock (t := 0) rfl rfl rfl)
  have h16 := h15.step (.more (t := 0) (n := 1) rfl (by decide) (by decide))
  have h17 := h16.step (.panic (t := 1) rfl)
  have h18 := h17.step (.done (t := 0) rfl rfl)
  have h19 := h18.step (.unlock (t := 0) rfl)
  have h20 := h19.step (.ret (t := 0) rfl (by decide))
  exact ⟨_, h20, rfl, rfl, rfl, rfl⟩

end K431
