import Verif.PromptLemmas

/-!
# C98: interrupting a password prompt ends the program and leaves the terminal as it was

`promptStart t`: `AskForPassword` is called while the terminal is in the state `t`.  `promptRun quiet (promptStart t) as = some s`: after the actions `as` of the goroutines and signals from outside, in any
order, the state is `s`.
-/

namespace K431

variable {T : Type}

/-- The full statement: however the program ends, the terminal is as it was at the call. -/
def C98_statement : Prop :=
  ∀ (T : Type) (quiet : T → T) (t : T) (as : List Act) (s : Prompt T), promptRun quiet (promptStart t) as = some s → s.fate ≠ .alive → s.term = t

/-- **C98** is violated: after the goroutine has restored the terminal, a too short entry makes the caller switch echo off again, before the program ends. -/
theorem C98_violated : ¬ C98_statement := by
  intro h
  have := h Bool (fun _ => false) true [.main .enough, .main .enough, .main .enough, .main .enough, .main .enough, .signal, .main .tooShort, .handler, .handler, .main .enough, .main .enough, .handler]
    ⟨false, some true, .reading true, .restored, true, false, false, .exited⟩ (by decide) (by decide)
  revert this; decide

/-- **C98**, what holds: signals never crash the program; when the function has returned, the terminal is as it was; also if the program is ended by a signal that nothing handles, or by a failing
`term.GetState`.  The goroutine ends the program only after a signal has arrived, and the terminal is as it was unless the caller is reading, having switched echo off after the goroutine restored the terminal. -/
theorem C98_partial (quiet : T → T) (t : T) (as : List Act) (s : Prompt T) (h : promptRun quiet (promptStart t) as = some s) :
    s.fate ≠ .panicked ∧
    (s.main = .returned → s.term = t) ∧
    (s.fate = .killed → s.term = t ∧ .signal ∈ as) ∧
    (s.fate = .fatal → s.term = t) ∧
    (s.fate = .exited → .signal ∈ as ∧ (s.term = t ∨ ∃ x, s.main = .reading x)) := by
  have hi := promptInv_run h
  have hm : as.contains Act.signal = true → .signal ∈ as := fun e => by simpa using e
  have ht : (∀ x, s.main ≠ .reading x) → s.term = t := fun hn => hi.term.resolve_right (fun c => by obtain ⟨⟨x, hx⟩, -⟩ := c; exact hn x hx)
  refine ⟨hi.fate.1, fun e => ht (by simp [e]), fun e => ?_, fun e => ht (by simp [hi.fate.2.2.2 e]), fun e => ⟨hm (hi.fate.2.1 e).1, hi.term.imp_right (·.1)⟩⟩
  have := hi.fate.2.2.1 e
  exact ⟨ht (fun x => ((hi.during this.1).2.2.2 x).2), hm this.2⟩

/-- **C98**: if the goroutine ends the program as soon as it has restored the terminal, the terminal is as it was, also in the middle of an entry. -/
theorem C98_at_once (quiet : T → T) (t : T) (as : List Act) (s : Prompt T) (h : promptRun quiet (promptStart t) (as ++ [.handler, .handler]) = some s) (he : s.fate = .exited) : s.term = t := by
  rw [promptRun_append] at h
  cases h1 : promptRun quiet (promptStart t) as with
  | none => rw [h1] at h; cases h
  | some s1 =>
    rw [h1] at h
    have hi := promptInv_run h1
    simp only [Option.bind_some, promptRun] at h
    have hf : s1.fate = .alive := by
      by_cases e : s1.fate = .alive
      · exact e
      · simp [promptStep, e] at h
    have hb : s1.handler ≠ .absent → s1.main ≠ .start := fun e c => e (hi.before (.inl c)).1
    cases hh : s1.handler with
    | absent => simp [promptStep, hf, handlerStep, hh] at h
    | gone => simp [promptStep, hf, handlerStep, hh] at h
    | restored => simp [promptStep, hf, handlerStep, hh] at h
    | waiting =>
      by_cases hfull : s1.full = true
      · simp [promptStep, hf, handlerStep, hh, hfull] at h
        subst h; simp [hf] at he
      · by_cases hc : s1.closed = true
        · simp [promptStep, hf, handlerStep, hh, hfull, hc] at h
        · simp [promptStep, hf, handlerStep, hh, hfull, hc] at h
    | caught =>
      simp [promptStep, hf, handlerStep, hh] at h
      subst h
      simp [hi.old (hb (by simp [hh]))]

/-- **C98**: no interrupt is lost.  If a signal has arrived since `signal.Notify`, and the goroutine has been started, its next at most three steps end the program. -/
theorem C98_ends (quiet : T → T) (t : T) (as : List Act) (s : Prompt T) (h : promptRun quiet (promptStart t) as = some s) (ha : s.fate = .alive) (hs : .signal ∈ as) (hg : s.handler ≠ .absent) :
    ∃ n ≤ 3, ∃ s', promptRun quiet s (List.replicate n .handler) = some s' ∧ s'.fate = .exited := by
  have hi := promptInv_run h
  have := (hi.arrived ha).1 (by simpa using hs)
  cases hh : s.handler with
  | absent => exact absurd hh hg
  | gone => simp [hh, (hi.gone hh).2.1] at this
  | waiting =>
    have hfull : s.full = true := by simpa [hh] using this
    exact ⟨3, by omega, _, by simp [List.replicate, promptRun, promptStep, handlerStep, ha, hh, hfull]; rfl, rfl⟩
  | caught => exact ⟨2, by omega, _, by simp [List.replicate, promptRun, promptStep, handlerStep, ha, hh]; rfl, rfl⟩
  | restored => exact ⟨1, by omega, _, by simp [List.replicate, promptRun, promptStep, handlerStep, ha, hh]; rfl, rfl⟩

/-- **C98**: the goroutine does not outlive the call.  Without a signal, once the function has returned, its next step ends it. -/
theorem C98_gone (quiet : T → T) (t : T) (as : List Act) (s : Prompt T) (h : promptRun quiet (promptStart t) as = some s) (ha : s.fate = .alive) (hs : .signal ∉ as) (hr : s.main = .returned) :
    s.handler = .gone ∨ ∃ s', promptStep quiet s .handler = some s' ∧ s'.handler = .gone ∧ s'.fate = .alive := by
  have hi := promptInv_run h
  have hn : ¬ (s.full = true ∨ s.handler = .caught ∨ s.handler = .restored) := fun c => hs (by simpa using (hi.arrived ha).2 c)
  have hc : s.closed = true := hi.closed.2 (.inr hr)
  cases hh : s.handler with
  | absent => exact absurd hh (hi.after (by simp [hr]) (by simp [hr]) (by simp [hr]))
  | gone => exact .inl rfl
  | waiting =>
    have hfull : s.full = false := by
      cases e : s.full with
      | false => rfl
      | true => exact absurd (.inl e) hn
    exact .inr ⟨{ s with handler := .gone }, by simp [promptStep, handlerStep, ha, hh, hfull, hc], rfl, ha⟩
  | caught => exact absurd (.inr (.inl hh)) hn
  | restored => exact absurd (.inr (.inr hh)) hn

/-- **C98**: the prompt comes to an end.  Wherever the call is, if no signal arrives and no further entry is too short, it returns after at most nine steps of its own, and then the terminal is as it was. -/
theorem C98_returns (quiet : T → T) (t : T) (as : List Act) (s : Prompt T) (h : promptRun quiet (promptStart t) as = some s) (ha : s.fate = .alive) (rs : List Reading) (hl : 9 ≤ rs.length)
    (hr : ∀ r ∈ rs, r ≠ .tooShort) (h0 : s.main = .start → rs.head? ≠ some .fails) :
    ∃ n ≤ rs.length, ∃ s', promptRun quiet s ((rs.take n).map Act.main) = some s' ∧ s'.main = .returned ∧ s'.fate = .alive ∧ s'.term = t := by
  obtain ⟨n, hn, s', e, hm, hf⟩ := promptRun_returns quiet rs s ha hr h0 (Nat.le_trans (by cases s.main <;> simp [stepsLeft]) hl)
  refine ⟨n, hn, s', e, hm, hf, ?_⟩
  have hrun : promptRun quiet (promptStart t) (as ++ (rs.take n).map Act.main) = some s' := by rw [promptRun_append, h]; exact e
  exact (C98_partial quiet t _ s' hrun).2.1 hm

/-- non-vacuity: nine entries, from the start -/
example : (promptRun (fun _ => false) (promptStart true) ((List.replicate 9 .enough).map Act.main)).map (·.main) = some .returned ∧
    (promptRun (fun _ => false) (promptStart true) (((List.replicate 9 .enough).take 9).map Act.main)).map (·.main) = some .returned := by decide

/-- non-vacuity: after two entries, one too short, the function returns; an interrupt in the middle of an entry ends the program and echo is on again -/
example : (promptRun (fun _ => false) (promptStart true) ((List.replicate 5 (.main .enough)) ++ [.main .tooShort] ++ List.replicate 6 (.main .enough))).map (fun s => (s.main, s.term)) = some (.returned, true) ∧
    (promptRun (fun _ => false) (promptStart true) ((List.replicate 5 (.main .enough)))).map (·.term) = some false ∧
    (promptRun (fun _ => false) (promptStart true) ((List.replicate 5 (.main .enough)) ++ [.signal, .signal, .handler, .handler, .handler])).map (fun s => (s.fate, s.term)) = some (.exited, true) ∧
    (promptRun (fun _ => false) (promptStart true) ((List.replicate 7 (.main .enough)) ++ [.signal])).map (fun s => (s.fate, s.term)) = some (.killed, true) := by decide

end K431
