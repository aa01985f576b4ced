import Verif.RunLemmas
import Mathlib.Logic.Relation

/-!
# C73: no pad is used twice over successive runs of the program
-/

namespace K431
open Spec

/-- **C73**, full statement.  Start with a file whose keys have different ids.  After any number of runs of the command `messages` on it, with any options but `--delete` and
`--output` to the file itself -- runs that return, with or without an error, and runs that are killed -- no pad has been used twice for what was printed.  `P` is
required of every run that prints a message it has enciphered. -/
def C73_Statement (P : List Nat → Course → Disk → Prop) : Prop :=
  ∀ (C : Codec), C.Lawful → ∀ (E : PwEnv) (U : Unicode), U.Lawful → ∀ (file : List Nat) (disk disk' : Disk) (used : List Runes), StartFile C file disk →
    Relation.ReflTransGen (RunStep C E U file (P file)) (disk, []) (disk', used) → used.Nodup

/-- **C73**, what holds: it is enough that each time a message is printed the file gets written to, however incompletely. -/
theorem C73_partial : C73_Statement Rewritten := by
  intro C hC E U hU file disk disk' used hs h
  have main : ∀ s : Disk × List Runes, Relation.ReflTransGen (RunStep C E U file (Rewritten file)) (disk, []) s → FileOk C s.1 file s.2 ∧ s.2.Nodup := by
    intro s h
    induction h with
    | refl => exact ⟨hs.ok, List.nodup_nil⟩
    | tail _ st ih =>
      cases st with
      | run hf hd ho hr hl hP =>
        subst hf
        exact ih.1.run hC hU hd hs.absolute ho ih.2 hr hl hP
  exact (main _ h).2

/-! ## An example -/

/-- the file `[1]`, holding the example station -/
def exRunDisk (C : Codec) : Disk := exDisk.set [1] (C.enc exPFK 0 (gobInst exStation))

/-- the example station, loaded -/
def exLoaded : Inst :=
  { exStation with keys := (mergeKeys 1 [] (exStation.keys.map gobKey)).1, nextAddr := (mergeKeys 1 [] (exStation.keys.map gobKey)).2 }

theorem mergeKeys_cells : ∀ (ws : List WireKey) (a : Nat) (cells : List Key), (∀ x ∈ cells, x = Key.zero) → mergeKeys a cells ws = mergeKeys a [] ws
  | [], _, _, _ => rfl
  | w :: ws, a, cells, h => by
    simp only [mergeKeys, headD_zero h, mergeKeys_cells ws _ cells.tail (tail_all h), List.tail_nil, List.headD_nil]

/-- the instance that opens the example file -/
def exOpen : Krypto := { newBase with persistence := [1], interactive := true, pfk := some exPFK }

theorem exOpen_blank : K431.Blank exOpen :=
  ⟨newBase_blank.keys, newBase_blank.messages, newBase_blank.callSign, newBase_blank.spareKeys, newBase_blank.spareMsgs⟩

theorem exLoaded_eq : (gobDecode (gobInst exStation) exOpen).inst = exLoaded := by
  obtain ⟨cells, hz, e1, mcells, hmz, e2, e3⟩ := gobDecode_normal exOpen_blank (gobInst exStation)
  have e0 : (gobInst exStation).keys.getD [] = exStation.keys.map gobKey := by decide
  have em : (gobInst exStation).messages.getD [] = [] := by decide
  rw [e0, mergeKeys_cells _ _ _ hz, show exOpen.inst.nextAddr = 1 from rfl] at e1
  rw [em] at e2
  rw [em, e0, mergeKeys_cells _ _ _ hz, show exOpen.inst.nextAddr = 1 from rfl] at e3
  have h : ∀ i j : Inst, i.groupSize = j.groupSize → i.keyLength = j.keyLength → i.columns = j.columns → i.keyColumns = j.keyColumns → i.keys = j.keys →
      i.messages = j.messages → i.callSign = j.callSign → i.nextAddr = j.nextAddr → i = j := by
    rintro ⟨⟩ ⟨⟩ rfl rfl rfl rfl rfl rfl rfl rfl; rfl
  exact h _ _ (by decide) (by decide) (by decide) (by decide) e1 e2 (by decide) e3

/-- what a run meets: the radiogram entered, and whether the file can be opened for writing -/
def exRunEnv (text : String) (writable : Bool) : MsgsEnv :=
  { exMsgsEnv with radio := exRadio, radiogram := some (lit text), tape := exIdTape ++ [0, 0, 0, 2 ^ 32], newW := { exWorld with openFails := !writable } }

/-- `messages --new` on this file -/
def exNewCmd : MsgsCmd := { file := [1], access := exAccess, new := true }

/-- a message can be made and is enciphered with key A -/
theorem exRun_new (b : Bool) : newPads unicode15 (exRunEnv "OP DE SM = HEJ" b) exLoaded = [lit "A"] ∧
    ∃ m i t, newTextMessageRun unicode15 (fun _ => 0) exRadio [] exLoaded [lit "OP DE SM = HEJ"] (exIdTape ++ [0, 0, 0, 2 ^ 32]) = some ((.ok m, i), t) := by
  constructor
  · cases b <;> decide +kernel
  · have h : (match newTextMessageRun unicode15 (fun _ => 0) exRadio [] exLoaded [lit "OP DE SM = HEJ"] (exIdTape ++ [0, 0, 0, 2 ^ 32]) with
        | some ((.ok _, _), _) => true | _ => false) = true := by decide +kernel
    split at h
    · exact ⟨_, _, _, by assumption⟩
    · cases h

theorem exRun_open {C : Codec} (hC : C.Lawful) (E : PwEnv) (text : String) (b : Bool) :
    ∃ k, openStore C E (exRunEnv text b).loadW exNewCmd.access exNewCmd.file (exRunDisk C) = some (.go ⟨exRunDisk C, k, [], []⟩) ∧
      k.inst = exLoaded ∧ k.persistence = [1] ∧ k.overwrite = true ∧ k.pfk = some exPFK := by
  refine ⟨{ gobDecode (gobInst exStation) exOpen with overwrite := true }, ?_, exLoaded_eq, rfl, rfl, rfl⟩
  apply openStore_ok
  · show (prepared E exAccess [1]).1 = .ok (); rw [prepared_example]
  · show load C E exWorld (exRunDisk C) (prepared E exAccess [1]).2 = _
    rw [prepared_example]
    exact load_complete hC E rfl rfl (set_same _ _ _)

theorem exRun_pads {C : Codec} (hC : C.Lawful) (E : PwEnv) (b : Bool) : printedPads C E unicode15 (exRunEnv "OP DE SM = HEJ" b) exNewCmd (exRunDisk C) = [lit "A"] := by
  obtain ⟨k, h, e, -⟩ := exRun_open hC E "OP DE SM = HEJ" b
  unfold printedPads
  rw [h]
  show newPads unicode15 (exRunEnv "OP DE SM = HEJ" b) k.inst = _
  rw [e]
  exact (exRun_new b).1

theorem take_range_last (c : List Nat) : ((List.range (c.length + 1)).map c.take).getLast? = some c := by
  rw [List.range_succ]; simp

/-- the run: a message is printed; then the file is written completely, or can not be opened for writing -/
theorem exRun_text {C : Codec} (hC : C.Lawful) (E : PwEnv) (b : Bool) {text : String} {m : Msg} {i : Inst} {t : Tape}
    (hn : newTextMessageRun unicode15 (fun _ => 0) exRadio [] exLoaded [lit text] (exIdTape ++ [0, 0, 0, 2 ^ 32]) = some ((.ok m, i), t)) :
    ∃ r, messagesCommand C E unicode15 (exRunEnv text b) exNewCmd (exRunDisk C) = some r ∧ r.sent = [m] ∧
      (b = false → r.outcome = .err .other ∧ r.state.disk = exRunDisk C) ∧
      (b = true → r.outcome = .ok () ∧ r.state.disk [1] = some (C.enc exPFK 0 (gobInst i)) ∧ Rewritten [1] r r.state.disk) := by
  obtain ⟨k, h, e, p1, p2, p3⟩ := exRun_open hC E text b
  have hsave : save C E (exRunEnv text b).newW (exRunDisk C) { k with inst := i } =
      some (saveWrite C (exRunEnv text b).newW exPFK { k with inst := i }) := by
    have hk : saveKey C E (exRunEnv text b).newW { k with inst := i } = some (saveWrite C (exRunEnv text b).newW exPFK { k with inst := i }) := by
      unfold saveKey; dsimp only; rw [p3]
    obtain ⟨a1, a2, a3, a4, a5, a6, a7, a8, a9⟩ := k
    dsimp only at p1 p2 p3
    subst p1 p2 p3
    unfold save
    dsimp only
    rw [if_neg (by simp), show resolvePath (exRunEnv text b).newW [1] = some [1] from rfl]
    dsimp only
    rw [if_neg (by simp [exRunEnv, exMsgsEnv, exWorld]), show exRunDisk C [1] = some _ from set_same _ _ _]
    exact hk
  have hnew : messagesNew C E unicode15 (exRunEnv text b) exNewCmd ⟨exRunDisk C, k, [], []⟩ =
      some (check (saveWrite C (exRunEnv text b).newW exPFK { k with inst := i }).outcome
        (Cmd.saved ⟨exRunDisk C, { k with inst := i }, [], [.message m]⟩ (saveWrite C (exRunEnv text b).newW exPFK { k with inst := i }))) := by
    unfold messagesNew
    rw [if_pos (show exNewCmd.new = true from rfl)]
    dsimp only
    rw [show (exRunEnv text b).radiogram = some (lit text) from rfl]
    dsimp only
    have hn' : newTextMessageRun unicode15 (exRunEnv text b).wipeNoise (exRunEnv text b).radio (exRunEnv text b).freshId k.inst
        [lit text] (exRunEnv text b).tape = some ((.ok m, i), t) := by rw [e]; exact hn
    rw [hn']
    dsimp only
    unfold saveStep
    dsimp only
    rw [hsave]
    rfl
  have hrest : ∀ c : Course, andThen (andThen (some c) (fun s => some (messagesList unicode15 (exRunEnv text b) exNewCmd s)))
      (fun s => some (outputStep (exRunEnv text b).outputW exNewCmd.type (exRunEnv text b).render exNewCmd.output
        (s.k.inst.messages.filter (msgFilter unicode15 exNewCmd.filter)) s)) = some c := by
    intro c; cases c <;> rfl
  have hcmd : messagesCommand C E unicode15 (exRunEnv text b) exNewCmd (exRunDisk C) =
      some (check (saveWrite C (exRunEnv text b).newW exPFK { k with inst := i }).outcome
        (Cmd.saved ⟨exRunDisk C, { k with inst := i }, [], [.message m]⟩ (saveWrite C (exRunEnv text b).newW exPFK { k with inst := i }))) := by
    unfold messagesCommand
    rw [if_neg (by decide), h, andThen_go, show messagesDelete C E unicode15 (exRunEnv text b) exNewCmd ⟨exRunDisk C, k, [], []⟩ = some (.go ⟨exRunDisk C, k, [], []⟩) from rfl,
      andThen_go, hnew]
    exact hrest _
  refine ⟨_, hcmd, sent_of (by rw [check_state]; rfl), ?_, ?_⟩
  · rintro rfl
    rw [check_outcome, check_state]
    exact ⟨rfl, rfl⟩
  · rintro rfl
    have hw : saveWrite C (exRunEnv text true).newW exPFK { k with inst := i } =
        ⟨.ok (), { k with inst := i }, (List.range ((C.enc exPFK 0 (gobInst i)).length + 1)).map (C.enc exPFK 0 (gobInst i)).take⟩ := by
      unfold saveWrite
      rw [if_neg (by simp [exRunEnv]), if_neg (by decide)]
      rfl
    rw [check_outcome, check_state, hw]
    have hlast := take_range_last (C.enc exPFK 0 (gobInst i))
    have hd : SaveRun.disk ⟨.ok (), { k with inst := i }, (List.range ((C.enc exPFK 0 (gobInst i)).length + 1)).map (C.enc exPFK 0 (gobInst i)).take⟩ (exRunDisk C) [1] =
        some (C.enc exPFK 0 (gobInst i)) := by
      unfold SaveRun.disk
      dsimp only
      rw [hlast, p1]
      exact set_same _ _ _
    refine ⟨rfl, hd, ⟨k.persistence, _⟩, C.enc exPFK 0 (gobInst i), rfl, p1, List.mem_of_getLast? hlast, hd⟩

theorem exRun_command {C : Codec} (hC : C.Lawful) (E : PwEnv) (b : Bool) :
    ∃ r inst' m, messagesCommand C E unicode15 (exRunEnv "OP DE SM = HEJ" b) exNewCmd (exRunDisk C) = some r ∧ r.sent = [m] ∧
      (b = false → r.outcome = .err .other ∧ r.state.disk = exRunDisk C) ∧
      (b = true → r.outcome = .ok () ∧ r.state.disk [1] = some (C.enc exPFK 0 (gobInst inst')) ∧ Rewritten [1] r r.state.disk) := by
  obtain ⟨m, i, t, hn⟩ := (exRun_new b).2
  obtain ⟨r, h⟩ := exRun_text hC E b hn
  exact ⟨r, i, m, h⟩

theorem exRun_start {C : Codec} (hC : C.Lawful) : StartFile C [1] (exRunDisk C) := by
  refine ⟨by decide, by decide, ?_⟩
  intro E W k k' hb hp h
  obtain ⟨path, key, c, w, h1, h2, h3, h4, h5, -⟩ := load_ok h
  have e : path = [1] := by rw [hp] at h1; exact (Option.some.inj h1).symm
  subst e
  rw [show exRunDisk C [1] = some _ from set_same _ _ _] at h2
  cases h2
  have hw : w = gobInst exStation := by
    by_cases ek : exPFK = key.take 32
    · rw [← ek, hC.right _ _ _ (by decide)] at h4; exact (Option.some.inj h4).symm
    · have := hC.wrong exPFK (key.take 32) 0 (gobInst exStation) (C.enc exPFK 0 (gobInst exStation)).length (by decide) (by simp; omega) ek
      rw [List.take_length] at this
      rw [this] at h4; cases h4
  subst hw h5
  have hb' : K431.Blank { k with persistence := [1], pfk := some key } := ⟨hb.keys, hb.messages, hb.callSign, hb.spareKeys, hb.spareMsgs⟩
  constructor
  · have hg : Good (idFlags (gobDecode (gobInst exStation) { k with persistence := [1], pfk := some key }).inst.keys) [] := by
      rw [decoded_flags hb', gobInst_flags]
      exact Good.ofWellFormed (by decide) (by simp)
    exact hg.wellFormed
  · show ((gobInst exStation).groupSize.getD k.inst.groupSize) ≠ 0
    rw [show (gobInst exStation).groupSize = some 1 from by decide]
    simp

/-- The statement is false, even if no run is killed: the message is printed before the file is saved; if that fails, the next run uses the same pad. -/
theorem C73_violated : ¬ C73_Statement (fun _ r disk' => disk' = r.state.disk) := by
  intro h
  obtain ⟨C, hC⟩ := exists_lawful
  let E : PwEnv := ⟨fun _ _ => [], fun _ => true⟩
  obtain ⟨r, _, _, hr, -, h0, -⟩ := exRun_command hC E false
  obtain ⟨-, hd⟩ := h0 rfl
  have step : ∀ used, RunStep C E unicode15 [1] (fun r disk' => disk' = r.state.disk) (exRunDisk C, used) (exRunDisk C, used ++ [lit "A"]) := by
    intro used
    have := RunStep.run (C := C) (E := E) (U := unicode15) (file := [1]) (P := fun r disk' => disk' = r.state.disk) (V := exRunEnv "OP DE SM = HEJ" false) (o := exNewCmd)
      (disk := exRunDisk C) (disk' := r.state.disk) (used := used) (r := r) rfl rfl (by simp [exNewCmd]) hr .returns (fun _ => rfl)
    rwa [exRun_pads hC E false, hd] at this
  have := h C hC E unicode15 unicode15_lawful [1] _ _ _ (exRun_start hC) ((Relation.ReflTransGen.single (step [])).tail (step _))
  revert this
  decide

/-- It is false, too, if saving would always succeed, but the program may be killed. -/
theorem C73_violated_killed : ¬ C73_Statement (fun _ r _ => r.outcome = .ok ()) := by
  intro h
  obtain ⟨C, hC⟩ := exists_lawful
  let E : PwEnv := ⟨fun _ _ => [], fun _ => true⟩
  obtain ⟨r, _, _, hr, -, -, h1⟩ := exRun_command hC E true
  obtain ⟨ho, -⟩ := h1 rfl
  have step : ∀ used, RunStep C E unicode15 [1] (fun r _ => r.outcome = .ok ()) (exRunDisk C, used) (exRunDisk C, used ++ [lit "A"]) := by
    intro used
    have := RunStep.run (C := C) (E := E) (U := unicode15) (file := [1]) (P := fun r _ => r.outcome = .ok ()) (V := exRunEnv "OP DE SM = HEJ" true) (o := exNewCmd)
      (disk := exRunDisk C) (disk' := exRunDisk C) (used := used) (r := r) rfl rfl (by simp [exNewCmd]) hr .killed (fun _ => ho)
    rwa [exRun_pads hC E true] at this
  have := h C hC E unicode15 unicode15_lawful [1] _ _ _ (exRun_start hC) ((Relation.ReflTransGen.single (step [])).tail (step _))
  revert this
  decide

/-- the conditions of `C73_partial` can be met by a run that prints -/
example : ∃ (C : Codec) (E : PwEnv) (disk disk' : Disk), C.Lawful ∧ StartFile C [1] disk ∧
    Relation.ReflTransGen (RunStep C E unicode15 [1] (Rewritten [1])) (disk, []) (disk', [lit "A"]) := by
  obtain ⟨C, hC⟩ := exists_lawful
  let E : PwEnv := ⟨fun _ _ => [], fun _ => true⟩
  obtain ⟨r, _, _, hr, -, -, h1⟩ := exRun_command hC E true
  obtain ⟨-, -, hw⟩ := h1 rfl
  refine ⟨C, E, exRunDisk C, r.state.disk, hC, exRun_start hC, .single ?_⟩
  have := RunStep.run (C := C) (E := E) (U := unicode15) (file := [1]) (P := Rewritten [1]) (V := exRunEnv "OP DE SM = HEJ" true) (o := exNewCmd)
    (disk := exRunDisk C) (disk' := r.state.disk) (used := []) (r := r) rfl rfl (by simp [exNewCmd]) hr .returns (fun _ => hw)
  rwa [exRun_pads hC E true] at this

end K431
