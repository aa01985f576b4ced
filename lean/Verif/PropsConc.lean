import Verif.ConcLemmas
import Verif.PropsHistory

/-!
# C47: concurrent Enciphers and key reuse
-/

namespace K431
open Spec

/-- **C47**, full statement: several goroutines call `Encipher`, each with its own message without key id, on one instance with
pairwise different key ids.  Whatever the schedule, two of them that return successfully have no key in common. -/
def C47_Statement (U : Unicode) (Step : EState → EState → Prop) : Prop :=
  ∀ (s0 s : EState), s0.inst.groupSize ≠ 0 → WellFormed s0.inst.keys → StoreOk U s0.inst →
    (∀ t ∈ s0.threads, t.ph = .start ∧ t.msg.keyId.val = []) →
    Relation.ReflTransGen Step s0 s →
    ∀ (i j : Nat) (t u : EThread) (c d : List Chunk), i ≠ j → s.threads[i]? = some t → s.threads[j]? = some u →
      t.ph = .done c → u.ph = .done d → ∀ x ∈ c, ∀ y ∈ d, x.key ≠ y.key

/-- any goroutine takes a step -/
def AnyStep (U : Unicode) (s s' : EState) : Prop := ∃ i, EStep U i s s'

/-- the state after a schedule: the list tells whose turn it is -/
def runSched (U : Unicode) : List Nat → EState → EState
  | [], s => s
  | i :: is, s =>
    match s.threads[i]? with
    | none => runSched U is s
    | some t =>
      match eStep U s.inst t with
      | none => runSched U is s
      | some (inst', t') => runSched U is ⟨inst', s.threads.set i t'⟩

theorem runSched_steps (U : Unicode) : ∀ (is : List Nat) (s : EState), Relation.ReflTransGen (AnyStep U) s (runSched U is s) := by
  intro is
  induction is with
  | nil => intro s; exact .refl
  | cons i is ih =>
    intro s
    simp only [runSched]
    rcases ht : s.threads[i]? with _ | t
    · exact ih s
    · simp only
      rcases he : eStep U s.inst t with _ | ⟨inst', t'⟩
      · exact ih s
      · exact .head ⟨i, .step ht he⟩ (ih _)

/-- two goroutines, two keys -/
def exTwo : EState :=
  ⟨exInst [exKey 1 "A" "QWERTYUIOP", exKey 2 "B" "ASDFGHJKLZ"],
   [⟨exMsg "HEJ", lit "X", fun _ => 0, .start⟩, ⟨exMsg "HOPP", lit "Y", fun _ => 0, .start⟩]⟩

/-- what a goroutine has returned: ciphertext and keys -/
def EThread.result (t : EThread) : Option (Runes × List Nat) :=
  match t.ph with
  | .done c => some (t.msg.cipherText, keysOf c)
  | _ => none

/-- both look for a key before either marks it -/
def exRace : List Nat := [0, 1] ++ List.replicate 10 0 ++ List.replicate 10 1

/-- The statement is false: nothing is locked, so two goroutines can both be given the same unused key by `FindKey` before
either of them marks it.  Both succeed, with the same key letters. -/
theorem C47_violated : ¬ ∀ U : Unicode, U.Lawful → C47_Statement U (AnyStep U) := by
  intro h
  have hr : ((runSched unicode15 exRace exTwo).threads.map EThread.result).map (fun r => r.map Prod.snd) = [some [0], some [0]] := by
    decide +kernel
  have hg := runSched_steps unicode15 exRace exTwo
  generalize runSched unicode15 exRace exTwo = s at hr hg
  rcases hth : s.threads with _ | ⟨t, _ | ⟨u, rest⟩⟩ <;> rw [hth] at hr
  · simp at hr
  · simp at hr
  · simp only [List.map_cons, List.cons.injEq] at hr
    obtain ⟨h1, h2, _⟩ := hr
    have res : ∀ t : EThread, t.result.map Prod.snd = some [0] → ∃ c, t.ph = .done c ∧ keysOf c = [0] := by
      intro t ht
      unfold EThread.result at ht
      split at ht
      · rename_i c hc
        exact ⟨c, hc, by simpa using ht⟩
      · cases ht
    obtain ⟨c, hc, hcc⟩ := res t h1
    obtain ⟨d, hd, hdd⟩ := res u h2
    have hmem : ∀ c, keysOf c = [0] → ∃ x ∈ c, x.key = 0 := by
      intro c hc
      have : 0 ∈ keysOf c := by rw [hc]; simp
      obtain ⟨x, hx, hx0⟩ := List.mem_map.1 this
      exact ⟨x, hx, hx0⟩
    obtain ⟨x, hx, hx0⟩ := hmem c hcc
    obtain ⟨y, hy, hy0⟩ := hmem d hdd
    exact h unicode15 unicode15_lawful exTwo s (by decide) (by decide) (by decide) (by
        intro t ht
        simp only [exTwo, List.mem_cons, List.not_mem_nil, or_false] at ht
        rcases ht with rfl | rfl <;> exact ⟨rfl, by decide⟩) hg 0 1 t u c d (by decide) (by rw [hth]; rfl) (by rw [hth]; rfl)
      hc hd x hx y hy (by rw [hx0, hy0])

/-- one after the other, the same two goroutines use different keys -/
example : ((runSched unicode15 (List.replicate 10 0 ++ List.replicate 10 1) exTwo).threads.map EThread.result).map
    (fun r => r.map Prod.snd) = [some [0], some [1]] := by decide +kernel

/-- **C47**, the step model and `Encipher` agree: a goroutine that nobody disturbs runs to the end and computes what `Encipher` computes,
and nothing else. -/
theorem C47_sequential (U : Unicode) (inst : Inst) (t : EThread) (ht : t.ph = .start) :
    ∃ (inst' : Inst) (t' : EThread), Relation.ReflTransGen (Alone U) (inst, t) (inst', t') ∧
      (∀ y, ¬ Alone U (inst', t') y) ∧
      encipher U t.noise t.fresh inst t.msg =
        ((match t'.ph with | .done _ => .ok () | .failed o => o | _ => .panic), inst', t'.msg) ∧
      (∀ c, t'.ph = .done c ↔ (encipherT U t.noise t.fresh inst t.msg).1 = .ok c) := by
  refine ⟨_, _, alone_encipher U inst t ht, fun y => Alone.over (finished_over _ _), ?_, ?_⟩
  · unfold encipher
    rcases encipherT U t.noise t.fresh inst t.msg with ⟨c | e | _, i, m⟩ <;> rfl
  · intro c
    rcases encipherT U t.noise t.fresh inst t.msg with ⟨c' | e | _, i, m⟩ <;> simp

/-- A goroutine takes a step while no other is inside `Encipher`, as if a lock were held; when it enters, the key ids are still
pairwise different strings. -/
def SerialStep (U : Unicode) (s s' : EState) : Prop :=
  ∃ i, EStep U i s s' ∧ (∀ (j : Nat) (u : EThread), j ≠ i → s.threads[j]? = some u → u.active = false) ∧
    (∀ t, s.threads[i]? = some t → t.ph = .start → Distinguishable U s.inst.keys)

/-- The invariant of serial executions. -/
structure SInv (U : Unicode) (s : EState) (inst0 : Inst) : Prop where
  group : inst0.groupSize ≠ 0
  marked : ∀ (i : Nat) (t : EThread) (c : List Chunk), s.threads[i]? = some t → t.ph = .done c → ∀ j ∈ keysOf c, usedAt inst0.keys j = true
  apart : ∀ (i j : Nat) (t u : EThread) (c d : List Chunk), i ≠ j → s.threads[i]? = some t → s.threads[j]? = some u →
    t.ph = .done c → u.ph = .done d → ∀ x ∈ keysOf c, x ∉ keysOf d
  auto : ∀ (i : Nat) (t : EThread), s.threads[i]? = some t → t.ph = .start → t.msg.keyId.val = []
  running : (s.inst = inst0 ∧ ∀ (i : Nat) (t : EThread), s.threads[i]? = some t → t.active = false) ∨
    ∃ (i : Nat) (t t0 : EThread), s.threads[i]? = some t ∧ t.active = true ∧
      (∀ (j : Nat) (u : EThread), j ≠ i → s.threads[j]? = some u → u.active = false) ∧
      t0.ph = .start ∧ t0.msg.keyId.val = [] ∧ Distinguishable U inst0.keys ∧
      Relation.ReflTransGen (Alone U) (inst0, t0) (s.inst, t)

/-- no step leads back to the start -/
theorem eStep_not_start {U : Unicode} {inst inst' : Inst} {t t' : EThread} (h : eStep U inst t = some (inst', t')) :
    t'.ph ≠ .start := by
  unfold eStep eFail at h
  simp only at h
  repeat' split at h
  all_goals first
    | (cases h; done)
    | (simp only [Option.some.injEq, Prod.mk.injEq] at h
       obtain ⟨_, rfl⟩ := h
       simp)

theorem SInv.step {U : Unicode} (hU : U.Lawful) {s s' : EState} {inst0 : Inst} (h : SInv U s inst0) (hs : SerialStep U s s') :
    ∃ inst1, SInv U s' inst1 := by
  obtain ⟨i, ⟨ht, he⟩, hoth, hdist⟩ := hs
  rename_i t t' inst'
  have hns := eStep_not_start he
  -- the run of this goroutine
  have hrun : ∃ t0 : EThread, t0.ph = .start ∧ t0.msg.keyId.val = [] ∧ Distinguishable U inst0.keys ∧
      Relation.ReflTransGen (Alone U) (inst0, t0) (inst', t') := by
    rcases h.running with ⟨hi, hq⟩ | ⟨i', t1, t0, h1, h2, h3, h4, h5, h6, h7⟩
    · have hst : t.ph = .start := by
        have := hq i t ht
        rcases hp : t.ph with _ | _ | _ | _ | _ | _ | _
        · rfl
        · simp [EThread.active, hp] at this
        · simp [EThread.active, hp] at this
        · simp [EThread.active, hp] at this
        · simp [EThread.active, hp] at this
        · simp [eStep, hp] at he
        · simp [eStep, hp] at he
      refine ⟨t, hst, h.auto i t ht hst, hi ▸ hdist t ht hst, .single ?_⟩
      rw [← hi]; exact he
    · have hii : i' = i := by
        by_cases hii : i' = i
        · exact hii
        · have := hoth i' t1 hii h1; rw [h2] at this; cases this
      subst hii
      rw [ht] at h1; cases h1
      exact ⟨t0, h4, h5, h6, h7.tail he⟩
  obtain ⟨t0, h4, h5, h6, h7⟩ := hrun
  have hi : i < s.threads.length := (List.getElem?_eq_some_iff.1 ht).1
  have hget : ∀ (j : Nat) (u : EThread), (s.threads.set i t')[j]? = some u → (j = i ∧ u = t') ∨ (j ≠ i ∧ s.threads[j]? = some u) := by
    intro j u hj
    by_cases hji : j = i
    · subst hji
      rw [List.getElem?_set_self hi] at hj
      cases hj; exact .inl ⟨rfl, rfl⟩
    · rw [List.getElem?_set_ne (fun h => hji h.symm)] at hj
      exact .inr ⟨hji, hj⟩
  have hauto : ∀ (j : Nat) (u : EThread), (s.threads.set i t')[j]? = some u → u.ph = .start → u.msg.keyId.val = [] := by
    intro j u hj hu
    rcases hget j u hj with ⟨rfl, rfl⟩ | ⟨_, hj⟩
    · exact absurd hu hns
    · exact h.auto j u hj hu
  by_cases hact : t'.active = true
  · -- still inside
    have hnd : ∀ c, t'.ph ≠ .done c := by
      intro c hc; simp [EThread.active, hc] at hact
    refine ⟨inst0, h.group, ?_, ?_, hauto, .inr ⟨i, t', t0, List.getElem?_set_self hi, hact, ?_, h4, h5, h6, h7⟩⟩
    · intro j u c hj hc
      rcases hget j u hj with ⟨rfl, rfl⟩ | ⟨_, hj⟩
      · exact absurd hc (hnd c)
      · exact h.marked j u c hj hc
    · intro j k u v c d hjk hj hk hc hd
      rcases hget j u hj with ⟨rfl, rfl⟩ | ⟨_, hj⟩
      · exact absurd hc (hnd c)
      · rcases hget k v hk with ⟨rfl, rfl⟩ | ⟨_, hk⟩
        · exact absurd hd (hnd d)
        · exact h.apart j k u v c d hjk hj hk hc hd
    · intro j u hji hj
      rcases hget j u hj with ⟨hj', _⟩ | ⟨_, hj⟩
      · exact absurd hj' hji
      · exact hoth j u hji hj
  · -- returned
    have hover : t'.over := by
      rcases hp : t'.ph with _ | _ | _ | _ | _ | c | o
      · exact absurd hp hns
      · simp [EThread.active, hp] at hact
      · simp [EThread.active, hp] at hact
      · simp [EThread.active, hp] at hact
      · simp [EThread.active, hp] at hact
      · exact .inl ⟨c, hp⟩
      · exact .inr ⟨o, hp⟩
    have hfin := alone_unique h7 (alone_encipher U inst0 t0 h4) hover (finished_over _ _)
    obtain ⟨o, inst2, m2, hE⟩ : ∃ o inst2 m2, encipherT U t0.noise t0.fresh inst0 t0.msg = (o, inst2, m2) := ⟨_, _, _, rfl⟩
    rw [hE] at hfin
    simp only [finished, Prod.mk.injEq] at hfin
    obtain ⟨rfl, hfin⟩ := hfin
    have hkeep := Keeps.encipherT hU h.group hE h5 h6
    have hmono : ∀ j, usedAt inst0.keys j = true → usedAt inst'.keys j = true := by
      intro j hj
      unfold usedAt at hj
      split at hj
      · rename_i k hk
        obtain ⟨k', hk', _, hu⟩ := hkeep.point j k hk
        simp only [usedAt, hk', hu hj]
      · cases hj
    have hnew : ∀ c, t'.ph = .done c → ∀ j ∈ keysOf c, usedAt inst0.keys j = false ∧ usedAt inst'.keys j = true := by
      intro c hc j hj
      rw [hfin] at hc
      rcases o with chunks | e | _
      · simp only [EPhase.done.injEq] at hc
        subst hc
        obtain ⟨inst1, m1, i, s, out, e⟩ := encipherT_ok hE
        obtain ⟨f1, _, f3⟩ := e.auto_flags hU h5 h6
        obtain ⟨k, hk, hel⟩ := f3 j hj
        refine ⟨?_, by rw [f1]; simp [hj]⟩
        simp only [usedAt, hk]
        have := hel.1
        simpa using this
      · cases hc
      · cases hc
    refine ⟨inst', by rw [hkeep.group]; exact h.group, ?_, ?_, hauto, .inl ⟨rfl, ?_⟩⟩
    · intro j u c hj hc x hx
      rcases hget j u hj with ⟨rfl, rfl⟩ | ⟨_, hj⟩
      · exact (hnew c hc x hx).2
      · exact hmono x (h.marked j u c hj hc x hx)
    · intro j k u v c d hjk hj hk hc hd x hx hx'
      rcases hget j u hj with ⟨rfl, rfl⟩ | ⟨_, hj⟩
      · rcases hget k v hk with ⟨rfl, rfl⟩ | ⟨_, hk⟩
        · exact hjk rfl
        · have a := h.marked k v d hk hd x hx'
          have b := (hnew c hc x hx).1
          rw [a] at b; cases b
      · rcases hget k v hk with ⟨rfl, rfl⟩ | ⟨_, hk⟩
        · have hj : s.threads[j]? = some u := by assumption
          have a := h.marked j u c hj hc x hx
          have b := (hnew d hd x hx').1
          rw [a] at b; cases b
        · exact h.apart j k u v c d hjk hj hk hc hd x hx hx'
    · intro j u hj
      rcases hget j u hj with ⟨rfl, rfl⟩ | ⟨hji, hj⟩
      · simpa using hact
      · exact hoth j u hji hj

/-- **C47**, what holds: if the goroutines enter `Encipher` one at a time (which the caller must ensure; the program's own mutex
does not), and the key ids are pairwise different strings whenever one enters, any two that succeed have no key in common --
for any number of goroutines, in any order, also when some of them fail. -/
theorem C47_partial {U : Unicode} (hU : U.Lawful) : C47_Statement U (SerialStep U) := by
  intro s0 s hg _ _ hstart hrun i j t u c d hij ht hu hc hd x hx y hy hxy
  have h0 : SInv U s0 s0.inst := by
    have hget : ∀ (i : Nat) (t : EThread), s0.threads[i]? = some t → t.ph = .start ∧ t.msg.keyId.val = [] :=
      fun i t h => hstart t (List.mem_of_getElem? h)
    refine ⟨hg, ?_, ?_, fun i t h _ => (hget i t h).2, .inl ⟨rfl, ?_⟩⟩
    · intro i t c h hc; rw [(hget i t h).1] at hc; cases hc
    · intro i _ t _ c _ _ h _ hc; rw [(hget i t h).1] at hc; cases hc
    · intro i t h; simp [EThread.active, (hget i t h).1]
  have : ∃ inst0, SInv U s inst0 := by
    clear ht hu
    induction hrun with
    | refl => exact ⟨_, h0⟩
    | tail _ hs ih => obtain ⟨inst0, h⟩ := ih; exact h.step hU hs
  obtain ⟨inst0, h⟩ := this
  exact h.apart i j t u c d hij ht hu hc hd x.key (List.mem_map_of_mem hx) (by rw [hxy]; exact List.mem_map_of_mem hy)

/-- the schedule is serial -/
def serialOk (U : Unicode) : List Nat → EState → Bool
  | [], _ => true
  | i :: is, s =>
    decide (∀ j < s.threads.length, j ≠ i → (s.threads[j]?).all (fun u => !u.active)) && decide (Distinguishable U s.inst.keys) &&
    match s.threads[i]? with
    | none => serialOk U is s
    | some t =>
      match eStep U s.inst t with
      | none => serialOk U is s
      | some (inst', t') => serialOk U is ⟨inst', s.threads.set i t'⟩

theorem serialOk_steps (U : Unicode) : ∀ (is : List Nat) (s : EState), serialOk U is s = true →
    Relation.ReflTransGen (SerialStep U) s (runSched U is s) := by
  intro is
  induction is with
  | nil => intro s _; exact .refl
  | cons i is ih =>
    intro s h
    simp only [serialOk, Bool.and_eq_true, decide_eq_true_eq] at h
    obtain ⟨⟨h1, h2⟩, h3⟩ := h
    simp only [runSched]
    rcases ht : s.threads[i]? with _ | t
    · rw [ht] at h3; exact ih s h3
    · rw [ht] at h3
      simp only at h3 ⊢
      rcases he : eStep U s.inst t with _ | ⟨inst', t'⟩
      · rw [he] at h3; exact ih s h3
      · rw [he] at h3
        refine .head ⟨i, .step ht he, ?_, fun _ _ _ => h2⟩ (ih _ h3)
        intro j u hj hu
        have := h1 j (List.getElem?_eq_some_iff.1 hu).1 hj
        rw [hu] at this
        simpa using this

/-- a serial execution in which both goroutines succeed -/
example : ∃ s, Relation.ReflTransGen (SerialStep unicode15) exTwo s ∧
    s.threads.map (fun t => t.result.map Prod.snd) = [some [0], some [1]] :=
  ⟨_, serialOk_steps unicode15 (List.replicate 10 0 ++ List.replicate 10 1) exTwo (by decide +kernel), by decide +kernel⟩

/-- the racing schedule is not serial -/
example : serialOk unicode15 exRace exTwo = false := by decide +kernel

end K431
