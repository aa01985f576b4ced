import Verif.YesLemmas
import Verif.PropsHandCmd
import Verif.PropsRekey

/-!
# C132: with --yes nothing is asked but passwords

The help says: "Force option, answer yes and/or do not prompt except of PFK" (`keys`, `messages`), "answer yes on all questions" (`pfk`) and "overwrite without asking" (`initialize`).  A command that asks nothing does the
same whatever would be answered.
-/

namespace K431
open Spec

/-- **C132**, `keys`: with `--yes` the course of the command does not depend on any answer. -/
def C132_Keys (P : KeysEnv → KeysCmd → Prop) : Prop := ∀ (C : Codec) (E : PwEnv) (U : Unicode) (V : KeysEnv) (o : KeysCmd) (disk : Disk) (a : Answers), C.Lawful → U.Lawful → P V o → o.yes = true →
  keysCommand C E U (keysAnswered a V) o disk = keysCommand C E U V o disk

/-- **C132**, `keys`, what holds: without `--import`, or where nobody can be asked (see also `C132_import_partial`).  Missing: `keys --import --yes` at a terminal, if a key is in the
store already. -/
theorem C132_keys_partial : C132_Keys (fun V o => o.importFile = none ∨ V.readW.terminal = false) := by
  intro C E U V o disk a _ _ hi hy
  unfold keysCommand
  split
  · rfl
  · have e0 : openStore C E (keysAnswered a V).loadW o.access o.file disk = openStore C E V.loadW o.access o.file disk := rfl
    rw [e0]
    have hov : ∀ s, openStore C E V.loadW o.access o.file disk = some (.go s) → s.k.overwrite = true := fun s hs => openStore_overwrite hs
    generalize openStore C E V.loadW o.access o.file disk = x at hov
    have e1 : andThen x (keysDelete C E U (keysAnswered a V) o) = andThen x (keysDelete C E U V o) := andThen_congr fun s hs => keysDelete_answered a hy (hov s hs)
    rw [e1]
    have h1 : ∀ s, andThen x (keysDelete C E U V o) = some (.go s) → s.k.overwrite = true := by
      intro s hs
      obtain ⟨t, ht, hs⟩ := andThen_goes hs
      rw [keysDelete_overwrite hy hs]
      exact hov t ht
    generalize andThen x (keysDelete C E U V o) = x1 at h1
    have e2 : andThen x1 (keysNew C E U (keysAnswered a V) o) = andThen x1 (keysNew C E U V o) := andThen_congr fun s hs => keysNew_answered a (h1 s hs)
    rw [e2]
    have h2 : ∀ s, andThen x1 (keysNew C E U V o) = some (.go s) → s.k.overwrite = true := by
      intro s hs
      obtain ⟨t, ht, hs⟩ := andThen_goes hs
      rw [keysNew_overwrite hs]
      exact h1 t ht
    generalize andThen x1 (keysNew C E U V o) = x2 at h2
    have e3 : andThen x2 (keysImport C E U (keysAnswered a V) o) = andThen x2 (keysImport C E U V o) := andThen_congr fun s hs => keysImport_answered a (hi.imp_right .inl) (h2 s hs)
    rw [e3]
    generalize andThen x2 (keysImport C E U V o) = x3
    have e4 : andThen x3 (keysExport C E U (keysAnswered a V) o) = andThen x3 (keysExport C E U V o) := andThen_congr fun s _ => keysExport_answered a hy
    rw [e4]
    rfl

/-- **C132**, `keys --import --yes` (without `--delete` and `--new`), also at a terminal: nothing is asked if the ids in the file differ and none of the keys that are to be imported is in the store already. -/
theorem C132_import_partial {C : Codec} {E : PwEnv} {U : Unicode} {V : KeysEnv} {o : KeysCmd} {disk : Disk} {k j : Krypto} {f : List Nat} (a : Answers) (hy : o.yes = true) (hdel : o.delete = false)
    (hnew : o.newKeys = none) (himp : o.importFile = some f) (hp : (prepared E o.access o.file).1 = .ok ()) (hl : load C E V.loadW disk (prepared E o.access o.file).2 = some (.ok (), k))
    (hj : load C E V.readW disk (incomingFor f) = some (.ok (), j)) (hd : DistinctNames U (j.inst.keys.map (fun x => x.id.val)))
    (hn : ∀ x ∈ j.inst.keys, x.id.val.length = k.inst.groupSize → keyFilter U V.now o.filter x = true → ¬ InFold U x.id.val (k.inst.keys.map (fun x => x.id.val))) :
    keysCommand C E U (keysAnswered a V) o disk = keysCommand C E U V o disk := by
  unfold keysCommand
  split
  · rfl
  · have e0 : openStore C E (keysAnswered a V).loadW o.access o.file disk = openStore C E V.loadW o.access o.file disk := rfl
    rw [e0, openStore_ok hp hl, andThen_skip (f := keysDelete C E U _ o) (fun s => by unfold keysDelete; rw [hdel]; rfl),
      andThen_skip (f := keysNew C E U _ o) (fun s => by unfold keysNew; rw [hnew]),
      andThen_skip (f := keysDelete C E U V o) (fun s => by unfold keysDelete; rw [hdel]; rfl),
      andThen_skip (f := keysNew C E U V o) (fun s => by unfold keysNew; rw [hnew]), andThen_go, andThen_go]
    rw [keysImport_answered a (.inr (.inr fun f' j' hf' hj' => by
      rw [himp] at hf'
      cases hf'
      dsimp only at hj'
      rw [hj] at hj'
      cases hj'
      exact ⟨hd, hn⟩)) (prepared_opened hl).overwrite]
    generalize keysImport C E U V o _ = x3
    have e4 : andThen x3 (keysExport C E U (keysAnswered a V) o) = andThen x3 (keysExport C E U V o) := andThen_congr fun s _ => keysExport_answered a hy
    rw [e4]
    rfl

/-- **C132**, `messages`: with `--yes` the course of the command does not depend on any answer (but on the text of a new message and the passwords). -/
theorem C132_messages (C : Codec) (E : PwEnv) (U : Unicode) (V : MsgsEnv) (o : MsgsCmd) (disk : Disk) (a : Answers) (hy : o.yes = true) :
    messagesCommand C E U (messagesAnswered a V) o disk = messagesCommand C E U V o disk := by
  unfold messagesCommand
  split
  · rfl
  · have e0 : openStore C E (messagesAnswered a V).loadW o.access o.file disk = openStore C E V.loadW o.access o.file disk := rfl
    rw [e0]
    have hov : ∀ s, openStore C E V.loadW o.access o.file disk = some (.go s) → s.k.overwrite = true := fun s hs => openStore_overwrite hs
    generalize openStore C E V.loadW o.access o.file disk = x at hov
    have e1 : andThen x (messagesDelete C E U (messagesAnswered a V) o) = andThen x (messagesDelete C E U V o) := andThen_congr fun s hs => messagesDelete_answered a hy (hov s hs)
    rw [e1]
    have h1 : ∀ s, andThen x (messagesDelete C E U V o) = some (.go s) → s.k.overwrite = true := by
      intro s hs
      obtain ⟨t, ht, hs⟩ := andThen_goes hs
      rw [messagesDelete_overwrite hy hs]
      exact hov t ht
    generalize andThen x (messagesDelete C E U V o) = x1 at h1
    have e2 : andThen x1 (messagesNew C E U (messagesAnswered a V) o) = andThen x1 (messagesNew C E U V o) := andThen_congr fun s hs => messagesNew_answered a (h1 s hs)
    rw [e2]
    rfl

/-- **C132**, `pfk`: with `--yes` the course of the command does not depend on any answer (but on the passwords entered). -/
theorem C132_pfk (C : Codec) (E : PwEnv) (V : PfkEnv) (o : PfkCmd) (disk : Disk) (a : Answers) (hy : o.yes = true) :
    pfkCommand C E (pfkAnswered a V) o disk = pfkCommand C E V o disk := by
  unfold pfkCommand
  dsimp only
  split
  · rfl
  · split
    · rfl
    · split
      · rfl
      · rcases o.change with _ | file
        · rfl
        · dsimp only
          have e0 : loadStep C E (pfkAnswered a V).loadW = loadStep C E V.loadW := rfl
          rw [e0]
          refine andThen_congr fun s hs => changeFileKey_answered a hy ?_
          obtain ⟨t, -, h2⟩ := andThen_goes hs
          unfold loadStep at h2
          rcases hl : load C E V.loadW t.disk t.k with _ | ⟨r, k⟩
          · rw [hl] at h2; cases h2
          · rw [hl] at h2
            simp only [Option.map_some, Option.some.injEq] at h2
            obtain ⟨e, rfl⟩ := check_goes h2
            subst e
            obtain ⟨path, key, c, w, -, -, -, -, rfl, -⟩ := load_ok hl
            rfl

/-- **C132**, `pfk`, "answer yes": with `--yes` the command does what it does without it if every question is answered with yes. -/
theorem C132_pfk_yes (C : Codec) (E : PwEnv) (V : PfkEnv) (o : PfkCmd) (disk : Disk) (hy : o.yes = true) :
    pfkCommand C E V o disk = pfkCommand C E { V with confirm := some true } { o with yes := false } disk := by
  have e : ∀ s, changeFileKey C E V o s = changeFileKey C E { V with confirm := some true } { o with yes := false } s := by
    intro s
    unfold changeFileKey unlessDeclined
    simp only [hy, if_true, Bool.false_eq_true, if_false]
    rfl
  unfold pfkCommand
  simp only [funext e]
  rfl

/-- **C132**, `initialize`: with `--yes` the course of the command does not depend on any answer (but on the passwords entered); in particular an existing file is replaced. -/
theorem C132_initialize (C : Codec) (E : PwEnv) (U : Unicode) (V : InitEnv) (o : InitCmd) (disk : Disk) (a : Answers) (call : Runes) (more : Option InitAnswers) (hy : o.yes = some true) :
    initCommand C E U (initAnswered a call more V) o disk = initCommand C E U V o disk := by
  unfold initCommand
  simp only [hy, Option.getD_some, if_true, Option.isNone_some, Bool.false_and, Bool.false_eq_true, if_false]
  rcases o.call with _ | c
  · rfl
  · exact initStore_answered a call more

/-- **C132** is violated: `keys --import --yes` asks whether a key is to be replaced that is in the store already; if that question fails, so does the import. -/
theorem C132_violated : ¬ C132_Keys (fun _ _ => True) := by
  intro hall
  obtain ⟨C, hC⟩ := exists_lawful
  let o : KeysCmd := { exImport with yes := true }
  let disk := (exDisk.set [1] (C.enc exPFK 0 (gobInst exTaker))).set [2] (C.enc exPFK 0 (gobInst exGiver))
  have h1 : Stored C disk [1] exPFK exTaker :=
    stored_of_dec (by decide) (by show (Disk.set _ [2] _) [1] = _; rw [set_other _ _ (by decide), set_same]) (hC.right _ _ _ (by decide)) (by decide) (by decide) (by decide) (by decide)
  have h2 : Stored C disk [2] exPFK exGiver :=
    stored_of_dec (by decide) (set_same _ _ _) (hC.right _ _ _ (by decide)) (by decide) (by decide) (by decide) (by decide)
  obtain ⟨r0, k, j, -, hp, hl, hj, hs, hs', hr, hkey, e1, e2⟩ := exImport_runs hC h1 h2 (by decide) (by decide) (by decide)
  obtain ⟨r, hrun⟩ := keysImport_runs (o := o) hC rfl rfl rfl rfl hp hl e1 (by rw [hs.groupSize]; decide) hj e2 (fun _ _ => by simp [exImportEnv]) hr rfl hkey (by decide)
  obtain ⟨-, H⟩ := C77_import (o := o) hC hrun rfl rfl rfl rfl hp hl e1 (by rw [hs.groupSize]; decide)
  obtain ⟨hok, -⟩ := H j [1] exPFK hj e2 (fun _ _ => by simp [exImportEnv]) hr rfl hkey (by decide) (by rw [hs.keyLength]; decide) (by rw [hs.columns]; decide)
    (by rw [hs.keyColumns]; decide) (by simp [o, exImport])
  have hok := hok rfl
  have hq := hall C exKdf unicode15 exImportEnv o disk ⟨fun _ => none, fun _ => none, none⟩ hC unicode15_lawful trivial rfl
  rw [hrun] at hq
  -- the run with the failing question
  obtain ⟨ha1, ha2⟩ := load_asks hl
  unfold keysCommand at hq
  rw [if_neg (by simp [KeysCmd.any, o, exImport])] at hq
  have e0 : openStore C exKdf (keysAnswered ⟨fun _ => none, fun _ => none, none⟩ exImportEnv).loadW o.access o.file disk = _ := openStore_ok hp hl
  rw [e0, andThen_skip (f := keysDelete C exKdf unicode15 _ o) (fun s => rfl), andThen_skip (f := keysNew C exKdf unicode15 _ o) (fun s => rfl), andThen_go,
    andThen_skip (f := keysExport C exKdf unicode15 _ o) (fun s => rfl)] at hq
  have hinc : (newIncoming unicode15 k [.persistence [2], .interactive true]) = ⟨incomingFor [2], false, false⟩ := rfl
  have hf : ∃ n i, importFrom C exKdf exImportEnv.readW unicode15 exImportEnv.noise (fun _ => none) (keyFilter unicode15 exImportEnv.now o.filter) [.persistence [2], .interactive true] disk k =
      some ((importKeys unicode15 exImportEnv.noise ⟨false, true, fun _ => none⟩ (keyFilter unicode15 exImportEnv.now o.filter) (.ok (j.inst.keys, j.inst.callSign)) k.inst).1, n, i) := by
    unfold importFrom
    rw [hinc]
    dsimp only
    rw [hj]
    dsimp only
    rw [ha1, ha2]
    exact ⟨_, _, rfl⟩
  obtain ⟨n, i, hf⟩ := hf
  have hk : keysImport C exKdf unicode15 (keysAnswered ⟨fun _ => none, fun _ => none, none⟩ exImportEnv) o ⟨disk, k, [], []⟩ =
      andThen (some (check (importKeys unicode15 exImportEnv.noise ⟨false, true, fun _ => none⟩ (keyFilter unicode15 exImportEnv.now o.filter) (.ok (j.inst.keys, j.inst.callSign)) k.inst).1
        ⟨disk, i, [], []⟩)) (saveStep C exKdf (otherWorld none exImportEnv.importW)) := by
    unfold keysImport
    show (if ([2] : List Nat).length = 0 then _ else match importFrom C exKdf exImportEnv.readW unicode15 exImportEnv.noise (fun _ => none) (keyFilter unicode15 exImportEnv.now o.filter)
      [.persistence [2], .interactive true] disk k with | none => none | some (r, _, k) => _) = _
    rw [if_neg (by decide), hf]
    rfl
  rw [hk] at hq
  have hbad : (importKeys unicode15 exImportEnv.noise ⟨false, true, fun _ => none⟩ (keyFilter unicode15 exImportEnv.now o.filter) (.ok (j.inst.keys, j.inst.callSign)) k.inst).1 ≠ .ok () := by
    intro hgood
    have hmem : lit "B" ∈ j.inst.keys.map (fun x => x.id.val) := by rw [sameKeys_ids hs'.keys]; decide
    obtain ⟨b, hb, hbid⟩ := List.mem_map.1 hmem
    refine importLoop_asks _ _ _ _ hgood b hb ?_ rfl ?_
    · rw [hbid, hs.groupSize]; decide
    · rw [hbid, sameKeys_ids hs.keys]; decide
  rcases hv : (importKeys unicode15 exImportEnv.noise ⟨false, true, fun _ => none⟩ (keyFilter unicode15 exImportEnv.now o.filter) (.ok (j.inst.keys, j.inst.callSign)) k.inst).1 with ⟨⟨⟩⟩ | e | _
  · exact hbad hv
  · rw [hv] at hq
    cases hq
    cases hok
  · rw [hv] at hq
    cases hq
    cases hok

/-- non-vacuity: `pfk --change … --random --yes` changes the file key whatever would be answered; without `--yes` the answers matter -/
example : ∃ (C : Codec) (E : PwEnv) (o : PfkCmd) (disk : Disk) (r : Course), C.Lawful ∧ o.yes = true ∧ (∀ a, pfkCommand C E (pfkAnswered a exPfkEnv) o disk = some r) ∧ ¬ r.Untouched disk ∧
    pfkCommand C E { exPfkEnv with confirm := some true } { o with yes := false } disk ≠ pfkCommand C E { exPfkEnv with confirm := none } { o with yes := false } disk := by
  obtain ⟨C, hC⟩ := exists_lawful
  let E : PwEnv := ⟨fun _ _ => [], fun _ => true⟩
  obtain ⟨k, r, hl, hr, hro, ht⟩ := rekey_example hC E { exTwoKeys with newPFK := none } rfl rfl rfl rfl rfl rfl exBytes (.random rfl rfl rfl (by decide)) (by decide) (Or.inl rfl)
  refine ⟨C, E, _, _, r, hC, rfl, fun a => (C132_pfk C E exPfkEnv _ _ a rfl).trans hr, ht, ?_⟩
  intro he
  rw [← C132_pfk_yes C E exPfkEnv { exTwoKeys with newPFK := none } _ rfl, hr] at he
  obtain ⟨-, -, -, -, ha, -⟩ := C57_partial he.symm ht
  rcases ha with ha | ha | ⟨ha, -⟩ <;> cases ha

/-- non-vacuity of `C132_import_partial`: the station has A and B, the file key C -/
example : ∃ (C : Codec) (disk : Disk) (k j : Krypto), C.Lawful ∧ load C exKdf exImportEnv.loadW disk (prepared exKdf exImport.access exImport.file).2 = some (.ok (), k) ∧
    load C exKdf exImportEnv.readW disk (incomingFor [2]) = some (.ok (), j) ∧ exImportEnv.readW.terminal = true ∧ j.inst.keys.length = 1 ∧ DistinctNames unicode15 (j.inst.keys.map (fun x => x.id.val)) ∧
    ∀ x ∈ j.inst.keys, ¬ InFold unicode15 x.id.val (k.inst.keys.map (fun x => x.id.val)) := by
  obtain ⟨C, hC⟩ := exists_lawful
  let other : Inst := { exGiver with keys := [exKey 1 "C" "QQQ"] }
  let disk := (exDisk.set [1] (C.enc exPFK 0 (gobInst exGiver))).set [2] (C.enc exPFK 0 (gobInst other))
  have h1 : Stored C disk [1] exPFK exGiver :=
    stored_of_dec (by decide) (by show (Disk.set _ [2] _) [1] = _; rw [set_other _ _ (by decide), set_same]) (hC.right _ _ _ (by decide)) (by decide) (by decide) (by decide) (by decide)
  have h2 : Stored C disk [2] exPFK other :=
    stored_of_dec (by decide) (set_same _ _ _) (hC.right _ _ _ (by decide)) (by decide) (by decide) (by decide) (by decide)
  obtain ⟨r, k, j, -, -, hl, hj, hs, hs', -, -, -, e2⟩ := exImport_runs hC h1 h2 (by decide) (by decide) (by decide)
  refine ⟨C, disk, k, j, hC, hl, hj, rfl, hs'.keys.length_eq, e2, ?_⟩
  intro x hx
  have : x.id.val ∈ j.inst.keys.map (fun x => x.id.val) := List.mem_map.2 ⟨x, hx, rfl⟩
  rw [sameKeys_ids hs'.keys] at this
  rw [sameKeys_ids hs.keys]
  revert this
  generalize x.id.val = i
  have hall : ∀ i ∈ other.keys.map (fun x => x.id.val), ¬ InFold unicode15 i (exGiver.keys.map (fun x => x.id.val)) := by decide
  exact hall i

end K431
