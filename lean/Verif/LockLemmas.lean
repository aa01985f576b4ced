import Verif.RandLock

/-! # Helper lemmas: the lock of the random source -/

namespace K431

/-- between `s.Lock()` and `s.Unlock()` -/
def RPhase.inside : RPhase → Bool
  | .reading .. => true
  | .returned .. => true
  | _ => false

/-- bytes on their way to the caller -/
def RPhase.pending : RPhase → List (RCall × List Nat)
  | .returned c (some b) => [(c, b)]
  | .unlocked c (some b) => [(c, b)]
  | _ => []

/-- the call being made -/
def RPhase.current : RPhase → List RCall
  | .reading c _ => [c]
  | .returned c _ => [c]
  | .unlocked c _ => [c]
  | _ => []

/-- calls that got their bytes, in order -/
def okResults (l : List (RCall × Option (List Nat))) : List (RCall × List Nat) :=
  l.filterMap (fun p => p.2.map (fun b => (p.1, b)))

/-- blocks of the stream handed out: goroutine, call, position -/
abbrev RLog := List (Nat × RCall × Nat)

/-- the part of the log of one goroutine -/
def RLog.of (log : RLog) (stream : Nat → Nat) (t : Nat) : List (RCall × List Nat) :=
  (log.filter (fun e => e.1 = t)).map (fun e => (e.2.1, block stream e.2.2 e.2.1.size))

structure RInv (stream : Nat → Nat) (prog : Nat → List RCall) (s : RState) (log : RLog) : Prop where
  lock : ∀ t, (s.threads t).phase.inside = true ↔ s.lock = some t
  reading : ∀ t c buf, (s.threads t).phase = .reading c buf → buf.length ≤ c.size ∧
    ∃ p, buf = block stream p buf.length ∧ p + buf.length = s.pos ∧ ∀ e ∈ log, e.2.2 + e.2.1.size ≤ p
  given : ∀ t, log.of stream t = okResults (s.threads t).results ++ (s.threads t).phase.pending
  sorted : log.Pairwise (fun a b => a.2.2 + a.2.1.size ≤ b.2.2)
  bound : ∀ e ∈ log, e.2.2 + e.2.1.size ≤ s.pos
  order : ∀ t, (s.threads t).phase ≠ .panicked →
    (s.threads t).results.map Prod.fst ++ (s.threads t).phase.current ++ (s.threads t).todo = prog t
  order' : ∀ t, (s.threads t).results.map Prod.fst <+: prog t

theorem block_length (stream : Nat → Nat) (p n : Nat) : (block stream p n).length = n := by simp [block]

theorem block_append (stream : Nat → Nat) (p n m : Nat) : block stream p n ++ block stream (p + n) m = block stream p (n + m) := by
  unfold block
  rw [List.range_add, List.map_append, List.map_map]
  congr 1
  apply List.map_congr_left
  intro i _
  simp [Nat.add_assoc]

theorem RInv.start (stream : Nat → Nat) (prog : Nat → List RCall) : RInv stream prog (.start prog) [] := by
  refine ⟨?_, ?_, ?_, ?_, ?_, ?_, ?_⟩
  · intro t; simp [RState.start, RPhase.inside]
  · intro t c buf h; cases h
  · intro t; rfl
  · exact List.Pairwise.nil
  · intro e h; cases h
  · intro t _; rfl
  · intro t; exact ⟨prog t, rfl⟩

theorem upd_same (s : RState) (t : Nat) (th : RThread) : (s.upd t th).threads t = th := by simp [RState.upd]
theorem upd_other (s : RState) {t u : Nat} (h : u ≠ t) (th : RThread) : (s.upd t th).threads u = s.threads u := by
  simp [RState.upd, h]

theorem okResults_append (l m : List (RCall × Option (List Nat))) : okResults (l ++ m) = okResults l ++ okResults m := by
  simp [okResults]

theorem RLog.of_append (log : RLog) (stream : Nat → Nat) (e : Nat × RCall × Nat) (t : Nat) :
    RLog.of (log ++ [e]) stream t = log.of stream t ++ if e.1 = t then [(e.2.1, block stream e.2.2 e.2.1.size)] else [] := by
  unfold RLog.of
  rw [List.filter_append, List.map_append]
  congr 1
  by_cases h : e.1 = t <;> simp [h]

theorem RInv.step {stream : Nat → Nat} {prog : Nat → List RCall} {s s' : RState} {log : RLog} {t : Nat} (h : RInv stream prog s log)
    (hs : RStep stream t s s') : ∃ log', RInv stream prog s' log' := by
  have excl : ∀ {u}, (s.threads t).phase.inside = true → u ≠ t → (s.threads u).phase.inside = false := by
    intro u h1 h2
    rw [Bool.eq_false_iff]
    intro h3
    have e := ((h.lock t).1 h1).symm.trans ((h.lock u).1 h3)
    exact h2 (Option.some.inj e).symm
  have noread : ∀ {u c buf}, (s.threads u).phase.inside = false → (s.threads u).phase = .reading c buf → False := by
    intro u c buf h1 h2; rw [h2] at h1; cases h1
  cases hs with
  | @lock c cs hp ht hl =>
    refine ⟨log, ?_, ?_, ?_, h.sorted, h.bound, ?_, ?_⟩
    · intro u
      by_cases hu : u = t
      · subst hu; simp [RState.upd, RPhase.inside]
      · simp only [RState.upd, if_neg hu]
        rw [h.lock u, hl]
        simp [Ne.symm hu]
    · intro u c' buf hr
      by_cases hu : u = t
      · subst hu
        simp only [RState.upd, if_true, RPhase.reading.injEq] at hr
        obtain ⟨rfl, rfl⟩ := hr
        exact ⟨Nat.zero_le _, s.pos, rfl, rfl, h.bound⟩
      · simp only [RState.upd, if_neg hu] at hr
        have := (h.lock u).1 (by rw [hr]; rfl)
        rw [hl] at this; cases this
    · intro u
      by_cases hu : u = t
      · subst hu
        have := h.given u
        rw [hp] at this
        simpa [RState.upd, RPhase.pending] using this
      · simpa [RState.upd, hu] using h.given u
    · intro u hu'
      by_cases hu : u = t
      · subst hu
        have := h.order u (by rw [hp]; simp)
        rw [hp, ht] at this
        simpa [RState.upd, RPhase.current] using this
      · simp only [RState.upd, if_neg hu] at hu' ⊢
        exact h.order u hu'
    · intro u
      by_cases hu : u = t
      · subst hu; simpa [RState.upd] using h.order' u
      · simpa [RState.upd, hu] using h.order' u
  | @more c buf n hp hn hle =>
    have hin : (s.threads t).phase.inside = true := by rw [hp]; rfl
    obtain ⟨_, p, hb, hpos, hlog⟩ := h.reading t c buf hp
    refine ⟨log, ?_, ?_, ?_, h.sorted, ?_, ?_, ?_⟩
    · intro u
      by_cases hu : u = t
      · subst hu; simpa [RState.upd, RPhase.inside] using (h.lock u).1 hin
      · simpa [RState.upd, hu] using h.lock u
    · intro u c' buf' hr
      by_cases hu : u = t
      · subst hu
        simp only [RState.upd, if_true, RPhase.reading.injEq] at hr
        obtain ⟨rfl, rfl⟩ := hr
        rw [List.length_append, block_length]
        refine ⟨hle, p, ?_, by simp only; omega, hlog⟩
        rw [← block_append, ← hpos]
        conv => lhs; rw [hb]
        simp [block_length]
      · simp only [RState.upd, if_neg hu] at hr
        exact (noread (excl hin hu) hr).elim
    · intro u
      by_cases hu : u = t
      · subst hu
        have := h.given u
        rw [hp] at this
        simpa [RState.upd, RPhase.pending] using this
      · simpa [RState.upd, hu] using h.given u
    · intro e he; have := h.bound e he; simp only; omega
    · intro u hu'
      by_cases hu : u = t
      · subst hu
        have := h.order u (by rw [hp]; simp)
        rw [hp] at this
        simpa [RState.upd, RPhase.current] using this
      · simp only [RState.upd, if_neg hu] at hu' ⊢
        exact h.order u hu'
    · intro u
      by_cases hu : u = t
      · subst hu; simpa [RState.upd] using h.order' u
      · simpa [RState.upd, hu] using h.order' u
  | @fail c buf n hp hle =>
    have hin : (s.threads t).phase.inside = true := by rw [hp]; rfl
    refine ⟨log, ?_, ?_, ?_, h.sorted, ?_, ?_, ?_⟩
    · intro u
      by_cases hu : u = t
      · subst hu; simpa [RState.upd, RPhase.inside] using (h.lock u).1 hin
      · simpa [RState.upd, hu] using h.lock u
    · intro u c' buf' hr
      by_cases hu : u = t
      · subst hu; simp [RState.upd] at hr
      · simp only [RState.upd, if_neg hu] at hr
        exact (noread (excl hin hu) hr).elim
    · intro u
      by_cases hu : u = t
      · subst hu
        have := h.given u
        rw [hp] at this
        simpa [RState.upd, RPhase.pending] using this
      · simpa [RState.upd, hu] using h.given u
    · intro e he; have := h.bound e he; simp only; omega
    · intro u hu'
      by_cases hu : u = t
      · subst hu
        have := h.order u (by rw [hp]; simp)
        rw [hp] at this
        simpa [RState.upd, RPhase.current] using this
      · simp only [RState.upd, if_neg hu] at hu' ⊢
        exact h.order u hu'
    · intro u
      by_cases hu : u = t
      · subst hu; simpa [RState.upd] using h.order' u
      · simpa [RState.upd, hu] using h.order' u
  | @done c buf hp hlen =>
    have hin : (s.threads t).phase.inside = true := by rw [hp]; rfl
    obtain ⟨_, p, hb, hpos, hlog⟩ := h.reading t c buf hp
    refine ⟨log ++ [(t, c, p)], ?_, ?_, ?_, ?_, ?_, ?_, ?_⟩
    · intro u
      by_cases hu : u = t
      · subst hu; simpa [RState.upd, RPhase.inside] using (h.lock u).1 hin
      · simpa [RState.upd, hu] using h.lock u
    · intro u c' buf' hr
      by_cases hu : u = t
      · subst hu; simp [RState.upd] at hr
      · simp only [RState.upd, if_neg hu] at hr
        exact (noread (excl hin hu) hr).elim
    · intro u
      rw [RLog.of_append]
      by_cases hu : u = t
      · subst hu
        have := h.given u
        rw [hp] at this
        simp only [RPhase.pending, List.append_nil] at this
        rw [this, if_pos rfl, ← hlen, ← hb]
        simp [RState.upd, RPhase.pending]
      · rw [if_neg (Ne.symm hu), List.append_nil]
        simpa [RState.upd, hu] using h.given u
    · rw [List.pairwise_append]
      refine ⟨h.sorted, by simp, ?_⟩
      intro a ha b hb'
      rw [List.mem_singleton] at hb'
      subst hb'
      exact hlog a ha
    · intro e he
      rcases List.mem_append.1 he with he | he
      · exact h.bound e he
      · rw [List.mem_singleton] at he
        subst he
        simp only [RState.upd]; omega
    · intro u hu'
      by_cases hu : u = t
      · subst hu
        have := h.order u (by rw [hp]; simp)
        rw [hp] at this
        simpa [RState.upd, RPhase.current] using this
      · simp only [RState.upd, if_neg hu] at hu' ⊢
        exact h.order u hu'
    · intro u
      by_cases hu : u = t
      · subst hu; simpa [RState.upd] using h.order' u
      · simpa [RState.upd, hu] using h.order' u
  | @unlock c res hp =>
    have hin : (s.threads t).phase.inside = true := by rw [hp]; rfl
    refine ⟨log, ?_, ?_, ?_, h.sorted, h.bound, ?_, ?_⟩
    · intro u
      by_cases hu : u = t
      · subst hu; simp [RState.upd, RPhase.inside]
      · simp only [RState.upd, if_neg hu]
        rw [excl hin hu]; simp
    · intro u c' buf' hr
      by_cases hu : u = t
      · subst hu; simp [RState.upd] at hr
      · simp only [RState.upd, if_neg hu] at hr
        exact (noread (excl hin hu) hr).elim
    · intro u
      by_cases hu : u = t
      · subst hu
        have := h.given u
        rw [hp] at this
        cases res <;> simpa [RState.upd, RPhase.pending] using this
      · simpa [RState.upd, hu] using h.given u
    · intro u hu'
      by_cases hu : u = t
      · subst hu
        have := h.order u (by rw [hp]; simp)
        rw [hp] at this
        simpa [RState.upd, RPhase.current] using this
      · simp only [RState.upd, if_neg hu] at hu' ⊢
        exact h.order u hu'
    · intro u
      by_cases hu : u = t
      · subst hu; simpa [RState.upd] using h.order' u
      · simpa [RState.upd, hu] using h.order' u
  | @ret c res hp hres =>
    have hord : (s.threads t).results.map Prod.fst ++ [c] ++ (s.threads t).todo = prog t := by
      have := h.order t (by rw [hp]; simp)
      rw [hp] at this
      simpa [RPhase.current] using this
    refine ⟨log, ?_, ?_, ?_, h.sorted, h.bound, ?_, ?_⟩
    · intro u
      by_cases hu : u = t
      · subst hu
        have := h.lock u
        rw [hp] at this
        simpa [RState.upd, RPhase.inside] using this
      · simpa [RState.upd, hu] using h.lock u
    · intro u c' buf' hr
      by_cases hu : u = t
      · subst hu; simp [RState.upd] at hr
      · simp only [RState.upd, if_neg hu] at hr
        exact h.reading u c' buf' hr
    · intro u
      by_cases hu : u = t
      · subst hu
        have := h.given u
        rw [hp] at this
        rw [this]
        simp only [RState.upd, if_true, okResults_append, RPhase.pending, List.append_nil]
        cases res <;> simp [okResults]
      · simpa [RState.upd, hu] using h.given u
    · intro u hu'
      by_cases hu : u = t
      · subst hu
        simpa [RState.upd, RPhase.current] using hord
      · simp only [RState.upd, if_neg hu] at hu' ⊢
        exact h.order u hu'
    · intro u
      by_cases hu : u = t
      · subst hu
        simp only [RState.upd, if_true, List.map_append]
        exact ⟨_, hord⟩
      · simpa [RState.upd, hu] using h.order' u
  | panic hp =>
    refine ⟨log, ?_, ?_, ?_, h.sorted, h.bound, ?_, ?_⟩
    · intro u
      by_cases hu : u = t
      · subst hu
        have := h.lock u
        rw [hp] at this
        simpa [RState.upd, RPhase.inside] using this
      · simpa [RState.upd, hu] using h.lock u
    · intro u c' buf' hr
      by_cases hu : u = t
      · subst hu; simp [RState.upd] at hr
      · simp only [RState.upd, if_neg hu] at hr
        exact h.reading u c' buf' hr
    · intro u
      by_cases hu : u = t
      · subst hu
        have := h.given u
        rw [hp] at this
        simpa [RState.upd, RPhase.pending] using this
      · simpa [RState.upd, hu] using h.given u
    · intro u hu'
      by_cases hu : u = t
      · subst hu; simp [RState.upd] at hu'
      · simp only [RState.upd, if_neg hu] at hu' ⊢
        exact h.order u hu'
    · intro u
      by_cases hu : u = t
      · subst hu; simpa [RState.upd] using h.order' u
      · simpa [RState.upd, hu] using h.order' u

theorem RReach.inv {stream : Nat → Nat} {prog : Nat → List RCall} {s : RState} (h : RReach stream prog s) : ∃ log, RInv stream prog s log := by
  induction h with
  | start => exact ⟨[], RInv.start stream prog⟩
  | step _ hs ih =>
    obtain ⟨log, hi⟩ := ih
    exact hi.step hs

end K431
