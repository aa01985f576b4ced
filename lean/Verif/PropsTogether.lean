import Verif.TogetherLemmas
import Verif.PropsHandCmd
import Verif.PropsRuns

/-!
# C127: options given together
-/

namespace K431
open Spec

/-- how many times `keys` has to go to a file for what is asked for: new keys and imported keys are saved, exported keys are written -/
def KeysCmd.writes (o : KeysCmd) : Nat :=
  (if ∃ n, o.newKeys = some n ∧ 0 < n then 1 else 0) + (if o.importFile.isSome then 1 else 0) + (if o.exportFile.isSome then 1 else 0)

/-- The statement of C127: `keys`, if it reports no error, has gone to the files for every operation asked for; `messages` has saved the new message asked for. -/
def C127_Statement (P : KeysCmd → Krypto → Prop) (Q : MsgsCmd → Krypto → Prop) : Prop :=
  ∀ (C : Codec) (E : PwEnv) (U : Unicode) (disk : Disk) (r : Course) (k : Krypto),
    (∀ (V : KeysEnv) (o : KeysCmd), load C E V.loadW disk (prepared E o.access o.file).2 = some (.ok (), k) → P o k → keysCommand C E U V o disk = some r →
      r.outcome = .ok () → o.writes ≤ r.state.touched.length) ∧
    (∀ (V : MsgsEnv) (o : MsgsCmd), load C E V.loadW disk (prepared E o.access o.file).2 = some (.ok (), k) → Q o k → messagesCommand C E U V o disk = some r →
      r.outcome = .ok () → o.new = true → 1 ≤ r.state.touched.length)

/-- **C127**, what holds: without `--delete`, and with `--delete --yes` if there is something in the store. -/
theorem C127_partial : C127_Statement (fun o k => o.delete = true → o.yes = true ∧ k.inst.keys ≠ []) (fun o k => o.delete = true → o.yes = true ∧ k.inst.messages ≠ []) := by
  intro C E U disk r k
  constructor
  · intro V o hl hP h hok
    unfold keysCommand at h
    split at h
    · rename_i ha
      unfold KeysCmd.writes
      simp only [KeysCmd.any, Bool.not_eq_true', Bool.or_eq_false_iff] at ha
      obtain ⟨⟨⟨⟨⟨⟨-, h1⟩, h2⟩, h3⟩, -⟩, -⟩, -⟩ := ha
      rw [if_neg, h2, h3]
      · simp
      · rintro ⟨n, hn, -⟩
        rw [hn] at h1
        simp at h1
    refine tail_touched (m := o.writes) (W := V.outputW) (type := o.type) (render := V.render) (file := o.output)
      (items := fun s => s.k.inst.keys.filter (keyFilter U V.now o.filter)) (g := keysList U V o) (fun s => (keysList_state U V o s).2) (fun s => rfl) h hok ?_
    intro r1 e1 ok1
    refine (keysExport_goes C E U V o).after e1 ok1 (m := _ + _) ?_
    intro r2 e2 ok2
    refine (keysImport_goes C E U V o).after e2 ok2 ?_
    intro r3 e3 ok3
    have := (keysNew_goes C E U V o).after e3 ok3 (m := 0) ?_
    · simpa using this
    intro r4 e4 ok4
    rcases hop : openStore C E V.loadW o.access o.file disk with _ | c
    · rw [hop] at e4; cases e4
    rw [hop] at e4
    rcases openStore_cases hop with ⟨oc, k', hoc, rfl⟩ | ⟨k', -, hk', -, rfl⟩
    · rw [andThen_stop, Option.some.injEq] at e4
      subst e4
      exact absurd ok4 hoc
    rw [hl] at hk'
    cases hk'
    rw [andThen_go] at e4
    unfold keysDelete at e4
    split at e4
    · rename_i hd
      obtain ⟨hy, hne⟩ := hP hd
      rw [if_neg (by simpa using hne)] at e4
      rw [hy] at e4
      simp only [Bool.not_true, Bool.false_eq_true, if_false] at e4
      split at e4
      · obtain ⟨s', e, -⟩ := saveStep_goes C E V.deleteW _ r4 e4 ok4
        exact ⟨s', e, Nat.zero_le _⟩
      · cases e4; exact ⟨_, rfl, Nat.zero_le _⟩
    · cases e4; exact ⟨_, rfl, Nat.zero_le _⟩
  · intro V o hl hQ h hok hnew
    unfold messagesCommand at h
    rw [if_neg (by simp [MsgsCmd.any, hnew])] at h
    refine tail_touched (m := 1) (W := V.outputW) (type := o.type) (render := V.render) (file := o.output)
      (items := fun s => s.k.inst.messages.filter (msgFilter U o.filter)) (g := messagesList U V o) (fun s => (messagesList_state U V o s).2) (fun s => rfl) h hok ?_
    intro r1 e1 ok1
    have := (messagesNew_goes C E U V o hnew).after e1 ok1 (m := 0) ?_
    · simpa using this
    intro r4 e4 ok4
    rcases hop : openStore C E V.loadW o.access o.file disk with _ | c
    · rw [hop] at e4; cases e4
    rw [hop] at e4
    rcases openStore_cases hop with ⟨oc, k', hoc, rfl⟩ | ⟨k', -, hk', -, rfl⟩
    · rw [andThen_stop, Option.some.injEq] at e4
      subst e4
      exact absurd ok4 hoc
    rw [hl] at hk'
    cases hk'
    rw [andThen_go] at e4
    unfold messagesDelete at e4
    split at e4
    · rename_i hd
      obtain ⟨hy, hne⟩ := hQ hd
      rw [if_neg (by simpa using hne)] at e4
      rw [hy] at e4
      simp only [Bool.not_true, Bool.false_eq_true, if_false] at e4
      split at e4
      · obtain ⟨s', e, -⟩ := saveStep_goes C E V.deleteW _ r4 e4 ok4
        exact ⟨s', e, Nat.zero_le _⟩
      · cases e4; exact ⟨_, rfl, Nat.zero_le _⟩
    · cases e4; exact ⟨_, rfl, Nat.zero_le _⟩

/-- `C127_partial` is not vacuous: `keys --export` and `messages --new` end without an error on the example stores. -/
example : ∃ (C : Codec) (E : PwEnv) (r r' : Course) (k : Krypto), load C E exKeysEnv.loadW (exStoreDisk C) (prepared E (exExport [2] false).access (exExport [2] false).file).2 = some (.ok (), k) ∧
    keysCommand C E unicode15 exKeysEnv (exExport [2] false) (exStoreDisk C) = some r ∧ r.outcome = .ok () ∧ (exExport [2] false).writes = 1 ∧ (exExport [2] false).delete = false ∧
    messagesCommand C E unicode15 (exRunEnv "OP DE SM = HEJ" true) exNewCmd (exRunDisk C) = some r' ∧ r'.outcome = .ok () ∧ exNewCmd.new = true ∧ exNewCmd.delete = false := by
  obtain ⟨C, hC⟩ := exists_lawful
  let E : PwEnv := ⟨fun _ _ => [], fun _ => true⟩
  obtain ⟨r, k, hr, hx, hm, -, -⟩ := exExport_runs hC E [2] false (.inr rfl)
  obtain ⟨r', _, _, hr', _, _, h'⟩ := exRun_command hC E true
  refine ⟨C, E, r, r', k, hx.loads, hr, ((C78_export hC hr hx).1 hm (by simp [exExport])).1 rfl, ?_, rfl, hr', (h' rfl).1, rfl, rfl⟩
  unfold KeysCmd.writes
  rw [if_neg (by rintro ⟨n, hn, -⟩; cases hn)]
  rfl

/-- **C127** is violated: `messages --delete --yes --new` on a store without messages, and `keys --delete --yes --new 5` on one without keys, end without an error, without asking for the
message or making the keys. -/
theorem C127_violated : ¬ C127_Statement (fun _ _ => True) (fun _ _ => False) ∧ ¬ C127_Statement (fun _ _ => False) (fun _ _ => True) := by
  obtain ⟨C, hC⟩ := exists_lawful
  let E : PwEnv := ⟨fun _ _ => [], fun _ => true⟩
  constructor
  · intro h
    obtain ⟨k, hl, hs, -, -⟩ := load_exStore hC E ⟨5, 350, 110, 30, [], [], lit "SA", 1⟩ 0 (by decide) (by decide) (by decide) (by decide)
    have hnil : k.inst.keys = [] := by
      have := hs.keys
      rwa [List.forall₂_nil_right_iff] at this
    let o : KeysCmd := { access := exAccess, file := [1], delete := true, yes := true, newKeys := some 5 }
    have hop := openStore_ok (C := C) (E := E) (W := exKeysEnv.loadW) (a := o.access) (file := o.file) (by
      show (prepared E exAccess [1]).1 = _
      rw [prepared_example]) hl
    have hrun : keysCommand C E unicode15 exKeysEnv o (exDisk.set [1] (C.enc exPFK 0 (gobInst ⟨5, 350, 110, 30, [], [], lit "SA", 1⟩))) = some (.stop (.ok ()) ⟨exDisk.set [1] (C.enc exPFK 0 (gobInst ⟨5, 350, 110, 30, [], [], lit "SA", 1⟩)), k, [], []⟩) := by
      unfold keysCommand
      rw [if_neg (by simp [KeysCmd.any, o]), hop, andThen_go]
      unfold keysDelete
      rw [if_pos rfl, if_pos (by rw [hnil]; rfl)]
      rfl
    have := (h C E unicode15 _ _ k).1 exKeysEnv o hl trivial hrun rfl
    revert this
    show ¬ (o.writes ≤ 0)
    have : o.writes = 1 := by
      unfold KeysCmd.writes
      rw [if_pos ⟨5, rfl, by decide⟩]; rfl
    omega
  · intro h
    obtain ⟨k, hl, hs, -, -⟩ := load_exStore hC E exStore 0 (by decide) (by decide) (by decide) (by decide)
    have hnil : k.inst.messages = [] := by
      have := hs.messages
      rwa [show exStore.messages = [] from rfl, List.forall₂_nil_right_iff] at this
    let o : MsgsCmd := { access := exAccess, file := [1], delete := true, yes := true, new := true }
    have hop := openStore_ok (C := C) (E := E) (W := exMsgsEnv.loadW) (a := o.access) (file := o.file) (by
      show (prepared E exAccess [1]).1 = _
      rw [prepared_example]) hl
    have hrun : messagesCommand C E unicode15 exMsgsEnv o (exDisk.set [1] (C.enc exPFK 0 (gobInst exStore))) = some (.stop (.ok ()) ⟨exDisk.set [1] (C.enc exPFK 0 (gobInst exStore)), k, [], []⟩) := by
      unfold messagesCommand
      rw [if_neg (by simp [MsgsCmd.any, o]), hop, andThen_go]
      unfold messagesDelete
      rw [if_pos rfl, if_pos (by rw [hnil]; rfl)]
      rfl
    have := (h C E unicode15 _ _ k).2 exMsgsEnv o hl trivial hrun rfl rfl
    exact absurd this (Nat.not_succ_le_zero 0)

end K431
