import Verif.SpecOverlap
import Verif.PropsRuns

/-! # C100: two programs that work on the same file at the same time do not use the same pad -/

namespace K431
open Spec

/-- **C100**, full statement (with `alone := false`): start with a file whose keys have different ids.  Whatever runs of `messages` are made on it, also at the same time, no pad is used twice for what they print. -/
def C100_Statement (alone : Bool) : Prop :=
  ∀ (C : Codec), C.Lawful → ∀ (E : PwEnv) (U : Unicode), U.Lawful → ∀ (file : List Nat) (disk disk' : Disk) (running : List Disk) (used : List Runes), StartFile C file disk →
    Relation.ReflTransGen (OverlapStep C E U file alone) (disk, [], []) (disk', running, used) → used.Nodup

/-- **C100**, what holds: it is enough that a run is started only when no other is under way. -/
theorem C100_partial : C100_Statement true := by
  intro C hC E U hU file disk disk' running used hs h
  have main : ∀ s : Busy, Relation.ReflTransGen (OverlapStep C E U file true) (disk, [], []) s → FileOk C s.1 file s.2.2 ∧ s.2.2.Nodup ∧ (s.2.1 = [] ∨ s.2.1 = [s.1]) := by
    intro s h
    induction h with
    | refl => exact ⟨hs.ok, List.nodup_nil, .inl rfl⟩
    | tail _ st ih =>
      cases st with
      | starts hr =>
        have := hr rfl
        subst this
        exact ⟨ih.1, ih.2.1, .inr rfl⟩
      | ends hf hd ho hr hP =>
        rename_i V o disk start xs ys used r _
        subst hf
        obtain ⟨i1, i2, i3⟩ := ih
        dsimp only at i1 i2 i3
        have e : xs = [] ∧ start = disk ∧ ys = [] := by
          rcases i3 with i3 | i3
          · simp at i3
          · rcases xs with _ | ⟨x, xs⟩
            · simpa using i3
            · simp at i3
        obtain ⟨rfl, rfl, rfl⟩ := e
        have := i1.run hC hU hd hs.absolute ho i2 hr .returns hP
        refine ⟨?_, this.2, .inl rfl⟩
        by_cases ht : ∃ t ∈ r.state.touched, t.path = o.file ∧ t.contents ≠ []
        · unfold FileOk
          dsimp only
          rw [show afterRun start r o.file = r.state.disk o.file from if_pos ht]
          exact this.1
        · have hn : printedPads C E U V o start = [] := by
            by_cases hn : printedPads C E U V o start = []
            · exact hn
            · obtain ⟨t, c, h1, h2, h3, -⟩ := hP hn
              exact absurd ⟨t, List.mem_of_mem_head? h1, h2, List.ne_nil_of_mem h3⟩ ht
          unfold FileOk
          dsimp only
          rw [hn, List.append_nil, show afterRun start r o.file = start o.file from if_neg ht]
          exact i1
  exact (main _ h).2.1

/-- The full statement is false: of two runs started at the same time both use the first free key.  Nothing fails and both files are saved. -/
theorem C100_violated : ¬ C100_Statement false := by
  intro h
  obtain ⟨C, hC⟩ := exists_lawful
  let E : PwEnv := ⟨fun _ _ => [], fun _ => true⟩
  obtain ⟨r, _, _, hr, -, -, h1⟩ := exRun_command hC E true
  obtain ⟨-, -, hw⟩ := h1 rfl
  have ends : ∀ disk xs used, OverlapStep C E unicode15 [1] false (disk, exRunDisk C :: xs, used) (afterRun disk r, xs, used ++ [lit "A"]) := by
    intro disk xs used
    have := OverlapStep.ends (C := C) (E := E) (U := unicode15) (file := [1]) (alone := false) (V := exRunEnv "OP DE SM = HEJ" true) (o := exNewCmd) (disk := disk)
      (start := exRunDisk C) (xs := []) (ys := xs) (used := used) (r := r) rfl rfl (by simp [exNewCmd]) hr (fun _ => hw)
    rwa [exRun_pads hC E true] at this
  have run : Relation.ReflTransGen (OverlapStep C E unicode15 [1] false) (exRunDisk C, [], []) (afterRun (afterRun (exRunDisk C) r) r, [], [lit "A", lit "A"]) :=
    (((Relation.ReflTransGen.single (.starts (by simp))).tail (.starts (by simp))).tail (ends _ _ _)).tail (ends _ _ _)
  have := h C hC E unicode15 unicode15_lawful [1] _ _ _ _ (exRun_start hC) run
  revert this
  decide

/-- the conditions of `C100_partial` can be met by a run that prints -/
example : ∃ (C : Codec) (E : PwEnv) (disk disk' : Disk), C.Lawful ∧ StartFile C [1] disk ∧
    Relation.ReflTransGen (OverlapStep C E unicode15 [1] true) (disk, [], []) (disk', [], [lit "A"]) := by
  obtain ⟨C, hC⟩ := exists_lawful
  let E : PwEnv := ⟨fun _ _ => [], fun _ => true⟩
  obtain ⟨r, _, _, hr, -, -, h1⟩ := exRun_command hC E true
  obtain ⟨-, -, hw⟩ := h1 rfl
  refine ⟨C, E, exRunDisk C, afterRun (exRunDisk C) r, hC, exRun_start hC, (Relation.ReflTransGen.single (.starts (fun _ => rfl))).tail ?_⟩
  have := OverlapStep.ends (C := C) (E := E) (U := unicode15) (file := [1]) (alone := true) (V := exRunEnv "OP DE SM = HEJ" true) (o := exNewCmd) (disk := exRunDisk C)
    (start := exRunDisk C) (xs := []) (ys := []) (used := []) (r := r) rfl rfl (by simp [exNewCmd]) hr (fun _ => hw)
  rwa [exRun_pads hC E true] at this

end K431
