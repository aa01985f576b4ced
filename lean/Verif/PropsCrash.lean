import Verif.CrashLemmas
import Verif.PropsOrder
import Verif.PropsRuns

/-!
# No command crashes: C88
-/

namespace K431
open Spec

/-- Whatever can be loaded from this file system is a store in order (C80: so it is after anything that may have happened). -/
def AllInOrder (C : Codec) (U : Unicode) (disk : Disk) : Prop :=
  ∀ (E : PwEnv) (W : World) (k k' : Krypto), K431.Blank k → load C E W disk k = some (.ok (), k') → InOrder U k'.inst

/-- What the message entered must satisfy: `P` of every character of its text, if it is from the own station. -/
def OwnText (U : Unicode) (V : MsgsEnv) (P : Int → Prop) : Prop :=
  ∀ rad, V.radiogram = some rad → ∀ (i : Inst) p t, parseRadiogram U V.radio i.messages rad V.tape = some (.ok p, t) → isMyCall U i p = true → ∀ c ∈ p.plainText, P c

/-- **C88**, full statement: no command panics, whatever the options, answers, failures and files, if key derivation gives 32 bytes, the system's random source works, and the libraries that
read dates do not panic.  `P` is required of the characters of a message to be enciphered. -/
def C88_Statement (P : Int → Prop) : Prop :=
  ∀ (C : Codec) (U : Unicode), U.Lawful → ∀ E : PwEnv, (∀ p s, (E.kdf p s).length = 32) → ∀ disk : Disk, AllInOrder C U disk →
    (∀ (V : InitEnv) (o : InitCmd) (r : Course), (∀ s, V.parse s ≠ .panic) → initCommand C E U V o disk = some r → r.outcome ≠ .panic) ∧
    (∀ (V : KeysEnv) (o : KeysCmd) (r : Course), o.expire ≠ some .panic → keysCommand C E U V o disk = some r → r.outcome ≠ .panic) ∧
    (∀ (V : MsgsEnv) (o : MsgsCmd) (r : Course), (∀ s, V.radio.dtgParse s ≠ .panic) → OwnText U V P → messagesCommand C E U V o disk = some r → r.outcome ≠ .panic) ∧
    (∀ (V : PfkEnv) (o : PfkCmd) (r : Course), V.draw ≠ none → pfkCommand C E V o disk = some r → r.outcome ≠ .panic)

/-- **C88**, what holds: no command panics, if `messages --new` is only given text over the legend.  Missing: other characters (`C88_violated`). -/
theorem C88_partial : C88_Statement (· ∈ alphabet) := by
  intro C U hU E hE disk hd
  refine ⟨?_, ?_, ?_, ?_⟩
  · intro V o r hp h
    have : Calm (fun _ => True) (initCommand C E U V o disk) := initCommand_calm hE hp
    rw [h] at this
    exact this.outcome
  · intro V o r hp h
    have : Calm (fun _ => True) (keysCommand C E U V o disk) := keysCommand_calm hE hp
    rw [h] at this
    exact this.outcome
  · intro V o r hp ht h
    have : Calm (fun _ => True) (messagesCommand C E U V o disk) :=
      messagesCommand_calm hE hU hp (fun k hl => hd _ _ _ _ (prepared_blank _ _ _) hl) (fun _ rad hr i p t hq hm => ht rad hr i p t hq hm)
    rw [h] at this
    exact this.outcome
  · intro V o r hp h
    have : Calm (fun _ => True) (pfkCommand C E V o disk) := pfkCommand_calm hE hp
    rw [h] at this
    exact this.outcome

/-- ... so it is at any time in the life of any stations, starting with no files of keys. -/
theorem C88_history_partial {C : Codec} (hC : C.Lawful) {U : Unicode} (hU : U.Lawful) {E : PwEnv} (hE : ∀ p s, (E.kdf p s).length = 32) {start disk : Disk}
    (h0 : ∀ p c, start p = some c → Opaque C c) {tapes : List (List Nat)} (h : History C U start tapes disk) {V : MsgsEnv} {o : MsgsCmd} {r : Course} (hp : ∀ s, V.radio.dtgParse s ≠ .panic)
    (ht : OwnText U V (· ∈ alphabet)) (hr : messagesCommand C E U V o disk = some r) : r.outcome ≠ .panic :=
  (C88_partial C U hU E hE disk (fun _ _ _ _ hb hl => C80_order hC h0 h hb hl)).2.2.1 V o r hp ht hr

/-! ## The violation -/

/-- a station with two keys -/
def exCrash : Inst := { exStation with keyLength := 20, columns := 85, keyColumns := 85, messages := [] }

/-- the station, loaded -/
def exCrashLoaded : Inst :=
  { exCrash with keys := (mergeKeys 1 [] (exCrash.keys.map gobKey)).1, nextAddr := (mergeKeys 1 [] (exCrash.keys.map gobKey)).2 }

/-- its file -/
def exCrashDisk (C : Codec) : Disk := exDisk.set [1] (C.enc exPFK 0 (gobInst exCrash))

theorem exCrash_loaded : (gobDecode (gobInst exCrash) exOpen).inst = exCrashLoaded := by
  obtain ⟨cells, hz, e1, mcells, hmz, e2, e3⟩ := gobDecode_normal exOpen_blank (gobInst exCrash)
  have e0 : (gobInst exCrash).keys.getD [] = exCrash.keys.map gobKey := by decide
  have em : (gobInst exCrash).messages.getD [] = [] := by decide
  rw [e0, mergeKeys_cells _ _ _ hz, show exOpen.inst.nextAddr = 1 from rfl] at e1
  rw [em] at e2
  rw [em, e0, mergeKeys_cells _ _ _ hz, show exOpen.inst.nextAddr = 1 from rfl] at e3
  have h : ∀ i j : Inst, i.groupSize = j.groupSize → i.keyLength = j.keyLength → i.columns = j.columns → i.keyColumns = j.keyColumns → i.keys = j.keys →
      i.messages = j.messages → i.callSign = j.callSign → i.nextAddr = j.nextAddr → i = j := by
    rintro ⟨⟩ ⟨⟩ rfl rfl rfl rfl rfl rfl rfl rfl; rfl
  exact h _ _ (by decide) (by decide) (by decide) (by decide) e1 e2 (by decide) e3

theorem exCrash_inOrder : InOrder unicode15 exCrash where
  settings := ⟨by decide, by decide, by decide, by decide⟩
  names := by decide
  keys := by
    intro k hk
    simp only [exCrash, exStation, List.mem_cons, List.not_mem_nil, or_false] at hk
    rcases hk with rfl | rfl
    · exact ⟨by decide, by decide, by decide, by decide, 10, by decide⟩
    · exact ⟨by decide, by decide, by decide, by decide, 10, by decide⟩
  messageIds := by decide
  messages := by intro m hm; cases hm
  callSign := by decide

theorem exCrash_all {C : Codec} (hC : C.Lawful) : AllInOrder C unicode15 (exCrashDisk C) := by
  have hd : DiskOk C unicode15 (fun _ _ => True) (exCrashDisk C) := by
    intro p c hp
    unfold exCrashDisk Disk.set at hp
    split at hp
    · simp only [Option.some.injEq] at hp
      have := sound_enc hC (n := 0) (show exPFK.length = 32 by decide) exCrash_inOrder.kept (C.enc exPFK 0 (gobInst exCrash)).length
      rw [List.take_length, hp] at this
      exact this
    · cases hp
  intro E W k k' hb hl
  exact (load_kept hd hb hl).inOrder

theorem exCrash_open {C : Codec} (hC : C.Lawful) (E : PwEnv) (V : MsgsEnv) (hV : V.loadW = exWorld) :
    ∃ k, openStore C E V.loadW exNewCmd.access exNewCmd.file (exCrashDisk C) = some (.go ⟨exCrashDisk C, k, [], []⟩) ∧ k.inst = exCrashLoaded ∧
      k.pfk = some exPFK ∧ k.overwrite = true := by
  refine ⟨{ gobDecode (gobInst exCrash) exOpen with overwrite := true }, ?_, exCrash_loaded, rfl, rfl⟩
  apply openStore_ok
  · show (prepared E exAccess [1]).1 = .ok (); rw [prepared_example]
  · rw [hV]
    show load C E exWorld (exCrashDisk C) (prepared E exAccess [1]).2 = _
    rw [prepared_example]
    exact load_complete hC E rfl rfl (set_same _ _ _)

/-- a run of `messages --new` on this file with the text given -/
theorem exCrash_run {C : Codec} (hC : C.Lawful) (E : PwEnv) (text : String) : ∃ k : Krypto, (k.inst = exCrashLoaded ∧ k.pfk = some exPFK ∧ k.overwrite = true) ∧
    messagesCommand C E unicode15 (exRunEnv text true) exNewCmd (exCrashDisk C) =
      andThen (andThen (messagesNew C E unicode15 (exRunEnv text true) exNewCmd ⟨exCrashDisk C, k, [], []⟩)
        (fun s => some (messagesList unicode15 (exRunEnv text true) exNewCmd s)))
        (fun s => some (outputStep (exRunEnv text true).outputW exNewCmd.type (exRunEnv text true).render exNewCmd.output (s.k.inst.messages.filter (msgFilter unicode15 exNewCmd.filter)) s)) := by
  obtain ⟨k, h, e⟩ := exCrash_open hC E (exRunEnv text true) rfl
  refine ⟨k, e, ?_⟩
  unfold messagesCommand
  rw [if_neg (by decide), h, andThen_go, show messagesDelete C E unicode15 (exRunEnv text true) exNewCmd ⟨exCrashDisk C, k, [], []⟩ = some (.go ⟨exCrashDisk C, k, [], []⟩) from rfl, andThen_go]

/-- The full statement does not hold: an exclamation mark in the text makes `messages --new` panic. -/
theorem C88_violated : ¬ C88_Statement (fun _ => True) := by
  intro h
  obtain ⟨C, hC⟩ := exists_lawful
  have hrun : ∃ i t, newTextMessageRun unicode15 (fun _ => 0) exRadio [] exCrashLoaded [lit "OP DE SM = HEJ!"] (exIdTape ++ [0, 0, 0, 2 ^ 32]) = some ((.panic, i), t) := by
    have h : (match newTextMessageRun unicode15 (fun _ => 0) exRadio [] exCrashLoaded [lit "OP DE SM = HEJ!"] (exIdTape ++ [0, 0, 0, 2 ^ 32]) with
        | some ((.panic, _), _) => true | _ => false) = true := by decide +kernel
    split at h
    · exact ⟨_, _, by assumption⟩
    · cases h
  obtain ⟨i, t, hrun⟩ := hrun
  obtain ⟨k, ⟨e, -⟩, hk⟩ := exCrash_run hC ⟨fun _ _ => List.replicate 32 0, fun _ => true⟩ "OP DE SM = HEJ!"
  have hn : messagesNew C ⟨fun _ _ => List.replicate 32 0, fun _ => true⟩ unicode15 (exRunEnv "OP DE SM = HEJ!" true) exNewCmd ⟨exCrashDisk C, k, [], []⟩ =
      some (.stop .panic ⟨exCrashDisk C, { k with inst := i }, [], []⟩) := by
    unfold messagesNew
    rw [if_pos (show exNewCmd.new = true from rfl)]
    rw [show (exRunEnv "OP DE SM = HEJ!" true).radiogram = some (lit "OP DE SM = HEJ!") from rfl]
    dsimp only
    have hn' : newTextMessageRun unicode15 (exRunEnv "OP DE SM = HEJ!" true).wipeNoise (exRunEnv "OP DE SM = HEJ!" true).radio (exRunEnv "OP DE SM = HEJ!" true).freshId k.inst
        [lit "OP DE SM = HEJ!"] (exRunEnv "OP DE SM = HEJ!" true).tape = some ((.panic, i), t) := by rw [e]; exact hrun
    rw [hn']
  rw [hn] at hk
  exact (h C unicode15 unicode15_lawful ⟨fun _ _ => List.replicate 32 0, fun _ => true⟩ (by intro p s; exact List.length_replicate) (exCrashDisk C) (exCrash_all hC)).2.2.1 _ _ _
    (fun s => (nofun : (Outcome.ok 7 : Outcome Int) ≠ .panic)) (fun _ _ _ _ _ _ _ _ _ => trivial) hk rfl

/-- non-vacuity: with text over the legend the same command runs, and it does not panic -/
example : ∃ (C : Codec) (E : PwEnv) (r : Course), C.Lawful ∧ (∀ p s, (E.kdf p s).length = 32) ∧ AllInOrder C unicode15 (exCrashDisk C) ∧ OwnText unicode15 (exRunEnv "OP DE SM = HEJ" true) (· ∈ alphabet) ∧
    (∀ s, (exRunEnv "OP DE SM = HEJ" true).radio.dtgParse s ≠ .panic) ∧ messagesCommand C E unicode15 (exRunEnv "OP DE SM = HEJ" true) exNewCmd (exCrashDisk C) = some r := by
  obtain ⟨C, hC⟩ := exists_lawful
  let E : PwEnv := ⟨fun _ _ => List.replicate 32 0, fun _ => true⟩
  have hrun : ∃ m i t, newTextMessageRun unicode15 (fun _ => 0) exRadio [] exCrashLoaded [lit "OP DE SM = HEJ"] (exIdTape ++ [0, 0, 0, 2 ^ 32]) = some ((.ok m, i), t) := by
    have h : (match newTextMessageRun unicode15 (fun _ => 0) exRadio [] exCrashLoaded [lit "OP DE SM = HEJ"] (exIdTape ++ [0, 0, 0, 2 ^ 32]) with
        | some ((.ok _, _), _) => true | _ => false) = true := by decide +kernel
    split at h
    · exact ⟨_, _, _, by assumption⟩
    · cases h
  obtain ⟨m, i, t, hrun⟩ := hrun
  have htext : OwnText unicode15 (exRunEnv "OP DE SM = HEJ" true) (· ∈ alphabet) := by
    intro rad hr i p t hq _
    cases hr
    have hf : ((firstMatch (lit "OP DE SM = HEJ") [regexpFull, regexpSemi, regexpShort, regexpMini]).map
        (fun caps => trimRight (fun r => unicode15.isSpace r || r == 43 || r == 61) (trimSpace unicode15 (withoutTrail (capture caps 4))))) = some (lit "HEJ") := by decide +kernel
    have hp : p.plainText = lit "HEJ" := by
      unfold parseRadiogram at hq
      dsimp only at hq
      rw [show (exRunEnv "OP DE SM = HEJ" true).radio.unbreak (lit "OP DE SM = HEJ") = lit "OP DE SM = HEJ" from rfl] at hq
      generalize firstMatch (lit "OP DE SM = HEJ") [regexpFull, regexpSemi, regexpShort, regexpMini] = F at hf hq
      rcases F with _ | caps
      · cases hf
      · simp only [Option.map_some, Option.some.injEq] at hf
        split at hq
        · cases hq
        dsimp only at hq
        split at hq
        · cases hq
        · cases hq
        · cases hq
          exact hf
    rw [hp]
    decide
  obtain ⟨k, ⟨e, hpfk, hov⟩, hk⟩ := exCrash_run hC E "OP DE SM = HEJ"
  obtain ⟨c, hc⟩ := saveStep_total (C := C) (E := E) (W := (exRunEnv "OP DE SM = HEJ" true).newW) (s := ⟨exCrashDisk C, { k with inst := i }, [], [.message m]⟩) (key := exPFK) hpfk hov
  have hn : messagesNew C E unicode15 (exRunEnv "OP DE SM = HEJ" true) exNewCmd ⟨exCrashDisk C, k, [], []⟩ = some c := by
    rw [← hc]
    unfold messagesNew
    rw [if_pos (show exNewCmd.new = true from rfl)]
    rw [show (exRunEnv "OP DE SM = HEJ" true).radiogram = some (lit "OP DE SM = HEJ") from rfl]
    dsimp only
    have hn' : newTextMessageRun unicode15 (exRunEnv "OP DE SM = HEJ" true).wipeNoise (exRunEnv "OP DE SM = HEJ" true).radio (exRunEnv "OP DE SM = HEJ" true).freshId k.inst
        [lit "OP DE SM = HEJ"] (exRunEnv "OP DE SM = HEJ" true).tape = some ((.ok m, i), t) := by rw [e]; exact hrun
    rw [hn']
    rfl
  rw [hn] at hk
  have : ∃ r, messagesCommand C E unicode15 (exRunEnv "OP DE SM = HEJ" true) exNewCmd (exCrashDisk C) = some r := by
    rw [hk]
    cases c with
    | go s => exact ⟨_, rfl⟩
    | stop o s => exact ⟨_, rfl⟩
  obtain ⟨r, hr⟩ := this
  exact ⟨C, E, r, hC, fun _ _ => List.length_replicate, exCrash_all hC, htext, fun s => (nofun : (Outcome.ok 7 : Outcome Int) ≠ .panic), hr⟩

/-- non-vacuity of the other parts: `initialize` and `pfk --gen-salt` run -/
example {C : Codec} (hC : C.Lawful) (E : PwEnv) : (∃ r, initCommand C E unicode15 exInitEnv (exInit "SA6MWA") exDisk = some r) ∧
    (∃ r, pfkCommand C E ⟨exWorld, exWorld, none, some (List.replicate 32 0), [], none⟩ { genSalt := true } exDisk = some r) := by
  obtain ⟨r, i, hr, -⟩ := init_stored hC E "SA6MWA"
  exact ⟨⟨r, hr⟩, _, rfl⟩

end K431
