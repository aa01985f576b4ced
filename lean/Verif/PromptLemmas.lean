import Verif.Prompt

/-! # Helper lemmas: the invariant of `AskForPassword` -/

namespace K431

variable {T : Type}

theorem promptRun_append (quiet : T → T) (s : Prompt T) (as bs : List Act) : promptRun quiet s (as ++ bs) = (promptRun quiet s as).bind (fun s' => promptRun quiet s' bs) := by
  induction as generalizing s with
  | nil => rfl
  | cons a as ih =>
    simp only [List.cons_append, promptRun]
    cases promptStep quiet s a with
    | none => rfl
    | some s' => exact ih s'

/-- What holds at every moment; `t` is the terminal at the call, `n` whether a signal has arrived. -/
structure PromptInv (quiet : T → T) (t : T) (n : Bool) (s : Prompt T) : Prop where
  old : s.main ≠ .start → s.old = some t
  notified : s.notified = true → s.closed = false
  during : s.notified = false → s.main ≠ .asking ∧ s.main ≠ .listening ∧ s.main ≠ .leaving ∧ ∀ x, s.main ≠ .looked x ∧ s.main ≠ .reading x
  before : s.main = .start ∨ s.main = .saved ∨ s.main = .listening → s.handler = .absent ∧ s.closed = false
  after : s.main ≠ .start → s.main ≠ .saved → s.main ≠ .listening → s.handler ≠ .absent
  closed : s.closed = true ↔ s.main = .shut ∨ s.main = .returned
  gone : s.handler = .gone → s.closed = true ∧ s.full = false ∧ (s.fate = .alive → n = false)
  term : s.term = t ∨ (∃ x, s.main = .reading x) ∧ s.term = quiet t
  looked : ∀ x, s.main = .looked x → x = t
  reading : ∀ x, s.main = .reading x → x = t
  quietly : s.main = .start ∨ s.main = .saved ∨ s.main = .stopped ∨ s.main = .shut ∨ s.main = .returned → s.notified = false
  arrived : s.fate = .alive → (n = true ↔ s.full = true ∨ s.handler = .caught ∨ s.handler = .restored)
  fate : s.fate ≠ .panicked ∧ (s.fate = .exited → n = true ∧ s.handler = .restored) ∧ (s.fate = .killed → s.notified = false ∧ n = true) ∧ (s.fate = .fatal → s.main = .start)

theorem promptInv_start (quiet : T → T) (t : T) : PromptInv quiet t false (promptStart t) := by
  constructor <;> simp [promptStart]

theorem promptInv_main {quiet : T → T} {t : T} {n : Bool} {s s' : Prompt T} {r : Reading} (h : PromptInv quiet t n s) (hf : s.fate = .alive) (hs : mainStep quiet r s = some s') :
    PromptInv quiet t n s' := by
  obtain ⟨term, old, main, handler, notified, full, closed, fate⟩ := s
  obtain ⟨h1, h2, h3, h4, h5, h6, h7, h8, h9, h9', h10, h11, h12⟩ := h
  simp only at h1 h2 h3 h4 h5 h6 h7 h8 h9 h9' h10 h11 h12 hf
  subst hf
  cases main <;> cases r <;> simp [mainStep] at hs h1 h2 h3 h4 h5 h6 h7 h8 h9 h9' h10 h11 h12 <;> subst hs <;> constructor <;> simp_all

theorem promptInv_handler {quiet : T → T} {t : T} {n : Bool} {s s' : Prompt T} (h : PromptInv quiet t n s) (hf : s.fate = .alive) (hs : handlerStep s = some s') :
    PromptInv quiet t n s' := by
  obtain ⟨h1, h2, h3, h4, h5, h6, h7, h8, h9, h9', h10, h11, h12⟩ := h
  have h11 := h11 hf
  have hb : s.handler ≠ .absent → ¬ (s.main = .start ∨ s.main = .saved ∨ s.main = .listening) := fun e c => e (h4 c).1
  unfold handlerStep at hs
  cases hh : s.handler with
  | absent => rw [hh] at hs; cases hs
  | gone => rw [hh] at hs; cases hs
  | waiting =>
    rw [hh] at hs
    dsimp only at hs
    have hb := hb (by rw [hh]; simp)
    by_cases hfull : s.full = true
    · rw [if_pos hfull, Option.some.injEq] at hs
      subst hs
      exact ⟨h1, h2, h3, fun c => absurd c hb, fun _ _ _ => by simp, h6, by simp, h8, h9, h9', h10, fun _ => by simp [h11, hfull], by simp [hf]⟩
    · rw [if_neg hfull] at hs
      by_cases hc : s.closed = true
      · rw [if_pos hc, Option.some.injEq] at hs
        subst hs
        exact ⟨h1, h2, h3, fun c => absurd c hb, fun _ _ _ => by simp, h6, fun _ => ⟨hc, by simpa using hfull, fun _ => by simpa [hfull, hh] using h11⟩, h8, h9, h9', h10,
          fun _ => by simpa [hh] using h11, by simp [hf]⟩
      · rw [if_neg hc] at hs; cases hs
  | caught =>
    rw [hh] at hs
    simp only [Option.some.injEq] at hs
    have hb := hb (by rw [hh]; simp)
    subst hs
    have ho : s.old.getD s.term = t := by rw [h1 (fun e => hb (.inl e))]; rfl
    exact ⟨h1, h2, h3, fun c => absurd c hb, fun _ _ _ => by simp, h6, by simp, .inl ho, h9, h9', h10, fun _ => by simp [h11, hh], by simp [hf]⟩
  | restored =>
    rw [hh] at hs
    simp only [Option.some.injEq] at hs
    have hb := hb (by rw [hh]; simp)
    subst hs
    exact ⟨h1, h2, h3, fun c => absurd c hb, fun _ _ _ => by simp, h6, by simp, h8, h9, h9', h10, by simp, by simp [h11, hh]⟩

theorem promptInv_signal {quiet : T → T} {t : T} {n : Bool} {s : Prompt T} (h : PromptInv quiet t n s) (hf : s.fate = .alive) :
    PromptInv quiet t true (signalStep s) := by
  obtain ⟨h1, h2, h3, h4, h5, h6, h7, h8, h9, h9', h10, h11, h12⟩ := h
  unfold signalStep
  by_cases hn : s.notified = true
  · rw [if_pos hn, if_neg (by simp [h2 hn])]
    exact ⟨h1, h2, h3, h4, h5, h6, fun e => by have := (h7 e).1; simp [h2 hn] at this, h8, h9, h9', h10, by simp, by simp [hf]⟩
  · rw [if_neg hn]
    exact ⟨h1, h2, h3, h4, h5, h6, fun e => ⟨(h7 e).1, (h7 e).2.1, by simp⟩, h8, h9, h9', h10, by simp, by simpa using hn⟩

theorem promptInv_step {quiet : T → T} {t : T} {n : Bool} {s s' : Prompt T} {a : Act} (h : PromptInv quiet t n s) (hs : promptStep quiet s a = some s') :
    PromptInv quiet t (n || (a = .signal : Bool)) s' := by
  unfold promptStep at hs
  by_cases hf : s.fate = .alive
  · rw [if_neg (by simp [hf])] at hs
    cases a with
    | main r => simpa using promptInv_main h hf hs
    | handler => simpa using promptInv_handler h hf hs
    | signal =>
      simp only [Option.some.injEq] at hs
      subst hs
      simpa using promptInv_signal h hf
  · rw [if_pos hf] at hs
    cases hs

theorem promptInv_run {quiet : T → T} {t : T} {as : List Act} {s : Prompt T} (h : promptRun quiet (promptStart t) as = some s) :
    PromptInv quiet t (as.contains .signal) s := by
  have key : ∀ (as : List Act) (n : Bool) (s0 : Prompt T), PromptInv quiet t n s0 → promptRun quiet s0 as = some s → PromptInv quiet t (n || as.contains .signal) s := by
    intro as
    induction as with
    | nil => intro n s0 h0 h; simp only [promptRun, Option.some.injEq] at h; subst h; simpa using h0
    | cons a as ih =>
      intro n s0 h0 h
      simp only [promptRun] at h
      cases hs : promptStep quiet s0 a with
      | none => rw [hs] at h; cases h
      | some s1 =>
        rw [hs] at h
        have := ih _ s1 (promptInv_step h0 hs) h
        rw [show (n || (a :: as).contains Act.signal) = ((n || (a = .signal : Bool)) || as.contains .signal) by
          rw [List.contains_cons, Bool.or_assoc]; congr 2; cases a <;> simp [BEq.beq]]
        exact this
  have := key as false _ (promptInv_start quiet t) h
  simpa using this

/-- how many steps of its own the calling goroutine is away from returning, at most, if the entry is accepted -/
def stepsLeft : Asking T → Nat
  | .start => 9 | .saved => 8 | .listening => 7 | .asking => 6 | .looked _ => 5 | .reading _ => 4 | .leaving => 3 | .stopped => 2 | .shut => 1 | .returned => 0

theorem promptRun_returns (quiet : T → T) : ∀ (rs : List Reading) (s : Prompt T), s.fate = .alive → (∀ r ∈ rs, r ≠ .tooShort) → (s.main = .start → rs.head? ≠ some .fails) →
    stepsLeft s.main ≤ rs.length → ∃ n ≤ rs.length, ∃ s', promptRun quiet s ((rs.take n).map Act.main) = some s' ∧ s'.main = .returned ∧ s'.fate = .alive
  | rs, s, hf, hr, h0, hn => by
    by_cases hret : s.main = .returned
    · exact ⟨0, by omega, s, rfl, hret, hf⟩
    cases rs with
    | nil => cases hm : s.main <;> simp [hm, stepsLeft] at hn hret
    | cons r rs =>
      have hr1 : r ≠ .tooShort := hr r (by simp)
      have : ∃ s1, mainStep quiet r s = some s1 ∧ s1.fate = .alive ∧ s1.main ≠ .start ∧ stepsLeft s1.main < stepsLeft s.main := by
        cases hm : s.main with
        | start =>
          have hr2 : r ≠ .fails := by simpa using h0 hm
          exact ⟨_, by rw [mainStep, hm], by simp [hr2, hf], by simp [hr2], by simp [hr2, stepsLeft]⟩
        | returned => exact absurd hm hret
        | asking => exact ⟨_, by rw [mainStep, hm], by split <;> simp [hf], by split <;> simp, by split <;> simp [stepsLeft]⟩
        | looked t => exact ⟨_, by rw [mainStep, hm], by split <;> simp [hf], by split <;> simp, by split <;> simp [stepsLeft]⟩
        | reading t => exact ⟨_, by rw [mainStep, hm], by simp [hf], by simp [hr1], by simp [hr1, stepsLeft]⟩
        | saved => exact ⟨_, by rw [mainStep, hm], by simp [hf], by simp, by simp [stepsLeft]⟩
        | listening => exact ⟨_, by rw [mainStep, hm], by simp [hf], by simp, by simp [stepsLeft]⟩
        | leaving => exact ⟨_, by rw [mainStep, hm], by simp [hf], by simp, by simp [stepsLeft]⟩
        | stopped => exact ⟨_, by rw [mainStep, hm], by simp [hf], by simp, by simp [stepsLeft]⟩
        | shut => exact ⟨_, by rw [mainStep, hm], by simp [hf], by simp, by simp [stepsLeft]⟩
      obtain ⟨s1, e1, f1, m1, l1⟩ := this
      obtain ⟨n, n1, s2, e2, m2, f2⟩ := promptRun_returns quiet rs s1 f1 (fun x hx => hr x (by simp [hx])) (fun c => absurd c m1) (by simp at hn; omega)
      refine ⟨n + 1, by simpa using n1, s2, ?_, m2, f2⟩
      simp only [List.take_succ_cons, List.map_cons, promptRun, promptStep, hf, e1, ne_eq, not_true_eq_false, if_false, e2]

end K431
