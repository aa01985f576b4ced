import Verif.TalkLemmas
import Verif.PropsOrder
import Verif.FilterLemmas

/-!
# Two stations that talk to each other: C83
-/

namespace K431
open Spec

/-- **C83.**  Two stations, each with all pads that the other may choose for messages to it, make keys, hand them over and send messages to each other with the program, as often and in
whatever order they like.  Then no pad is used for two messages; afterwards both files hold, behind the messages they held before, all messages that were sent, with the texts that were entered, in
the order in which they were sent; no pad is lost; and again each station has all pads that the other may choose. -/
theorem C83_conversation {C : Codec} (hC : C.Lawful) {U : Unicode} (hU : U.Lawful) {groupSize : Nat} {a b : Side} {disk disk' : Disk} {i j : Inst}
    (h : Linked C U groupSize a b disk disk' i j) {texts pads : List Runes} {e e' : Disk} (ht : Talk C U groupSize a b disk disk' texts pads e e') :
    pads.Nodup ∧ ∃ i' j', Linked C U groupSize a b e e' i' j' ∧
      i'.messages.map Msg.plainText = i.messages.map Msg.plainText ++ texts ∧ j'.messages.map Msg.plainText = j.messages.map Msg.plainText ++ texts ∧
      (∀ id pad, Holds i.keys id pad → Holds i'.keys id pad) ∧ (∀ id pad, Holds j.keys id pad → Holds j'.keys id pad) := by
  suffices hall : pads.Nodup ∧ ∃ i' j', Linked C U groupSize a b e e' i' j' ∧ Spent i' pads ∧ Spent j' pads ∧
      i'.messages.map Msg.plainText = i.messages.map Msg.plainText ++ texts ∧ j'.messages.map Msg.plainText = j.messages.map Msg.plainText ++ texts ∧
      HasAll i.keys i'.keys ∧ HasAll j.keys j'.keys by
    obtain ⟨h1, i', j', h2, -, -, h3⟩ := hall
    exact ⟨h1, i', j', h2, h3⟩
  induction ht with
  | start => exact ⟨List.nodup_nil, i, j, h, (fun _ hp => by cases hp), (fun _ hp => by cases hp), by simp, by simp, HasAll.refl _, HasAll.refl _⟩
  | there _ hs ih =>
    obtain ⟨n, i1, j1, l, s1, s2, m1, m2, k1, k2⟩ := ih
    obtain ⟨n', i2, j2, l', s1', s2', k1', k2', m1', m2'⟩ := sends_step hC hU l hs s1 s2 n
    exact ⟨n', i2, j2, l', s1', s2', by rw [m1', m1, List.append_assoc], by rw [m2', m2, List.append_assoc], k1.trans k1', k2.trans k2'⟩
  | back _ hs ih =>
    obtain ⟨n, i1, j1, l, s1, s2, m1, m2, k1, k2⟩ := ih
    obtain ⟨n', j2, i2, l', s2', s1', k2', k1', m2', m1'⟩ := sends_step hC hU l.symm hs s2 s1 n
    exact ⟨n', i2, j2, l'.symm, s1', s2', by rw [m1', m1, List.append_assoc], by rw [m2', m2, List.append_assoc], k1.trans k1', k2.trans k2'⟩
  | supply _ hs ih =>
    obtain ⟨n, i1, j1, l, s1, s2, m1, m2, k1, k2⟩ := ih
    obtain ⟨i2, j2, l', s1', s2', k1', k2', m1', m2'⟩ := supplies_step hC hU l hs s1 s2
    exact ⟨n, i2, j2, l', s1', s2', by rw [m1', m1], by rw [m2', m2], k1.trans k1', k2.trans k2'⟩
  | supplyBack _ hs ih =>
    obtain ⟨n, i1, j1, l, s1, s2, m1, m2, k1, k2⟩ := ih
    obtain ⟨j2, i2, l', s2', s1', k2', k1', m2', m1'⟩ := supplies_step hC hU l.symm hs s2 s1
    exact ⟨n, i2, j2, l'.symm, s1', s2', by rw [m1', m1], by rw [m2', m2], k1.trans k1', k2.trans k2'⟩
  | other _ he he' ih =>
    obtain ⟨n, i1, j1, l, s1, s2, m1, m2, k1, k2⟩ := ih
    exact ⟨n, i1, j1, ⟨stored_congr he l.stored, stored_congr he' l.stored', l.ok, l.ok', l.calls, l.pads, l.pads'⟩, s1, s2, m1, m2, k1, k2⟩

/-- **C83**, how to begin: two files without keys, of stations with different call-signs and the same group size, are linked. -/
theorem C83_begin {C : Codec} {U : Unicode} {a b : Side} {disk disk' : Disk} {i j : Inst} (h : Stored C disk a.path a.key i) (h' : Stored C disk' b.path b.key j)
    (hk : a.key.length = 32) (hk' : b.key.length = 32) (hs : SettingsOk i) (hs' : SettingsOk j) (hg : i.groupSize = j.groupSize) (hc : i.callSign = a.call) (hc' : j.callSign = b.call)
    (hne : ¬ SameFold U a.call b.call) (hi : i.keys = []) (hj : j.keys = []) : Linked C U i.groupSize a b disk disk' i j := by
  have e1 := hs.groupSize
  have e2 := hs.keyLength
  have e3 := hs.columns
  have e4 := hs.keyColumns
  have f1 := hs'.groupSize
  have f2 := hs'.keyLength
  have f3 := hs'.columns
  have f4 := hs'.keyColumns
  refine ⟨h, h', ⟨rfl, hc, hk, ⟨by omega, by omega, by omega, by omega⟩, by rw [hi]; exact ⟨by simp, by simp⟩, by rw [hi]; simp⟩,
    ⟨hg.symm, hc', hk', ⟨by omega, by omega, by omega, by omega⟩, by rw [hj]; exact ⟨by simp, by simp⟩, by rw [hj]; simp⟩, hne, by rw [hi]; simp, by rw [hj]; simp⟩

/-- **C83**, the filter: `keys --export` without options that select keys, and `keys --export -k` with the call-sign of the other station, select all keys that may be chosen for messages to it. -/
theorem C83_filter {U : Unicode} (now : Int) {groupSize : Nat} {call : Runes} {o : KeyOpts} (ho : o = {} ∨ ∃ w, o = { keepers := [w] } ∧ vettedKeepers U [w] = [call]) (x : Key)
    (hx : Selectable groupSize [call] x) : keyFilter U now o x = true := by
  rcases ho with rfl | ⟨w, rfl, hw⟩
  · rfl
  rw [keyFilter_iff U now _ x (by intro n hn; cases hn)]
  right; right
  refine ⟨by rfl, ?_, by simp, by simp, by simp, by simp, by simp, by simp⟩
  intro _
  simp only [Bool.false_eq_true, if_false]
  intro n hn
  rw [hw, List.mem_singleton] at hn
  subst hn
  have := hx.2.2
  unfold KeptBy at this
  rw [if_neg (by simp)] at this
  obtain ⟨s, hs, e⟩ := this n (by simp)
  exact List.mem_map.2 ⟨s, hs, e⟩

/-- not vacuous: `-k op` -/
example : vettedKeepers unicode15 [lit "op"] = [lit "OP"] := by decide

/-! ## Examples -/

/-- `keys --export` returns if the file may be written -/
theorem keysExport_runs {C : Codec} {E : PwEnv} {U : Unicode} {V : KeysEnv} {o : KeysCmd} {disk : Disk} {k : Krypto} {f path key : List Nat}
    (hx : Exports C E V o disk k f key) (hm : MayExport V o disk f path) : ∃ r, keysCommand C E U V o disk = some r := by
  unfold keysCommand
  rw [if_neg (by simp [KeysCmd.any, hx.file]), openStore_ok hx.access hx.loads,
    andThen_skip (f := keysDelete C E U V o) (fun s => by unfold keysDelete; rw [hx.keep]; rfl),
    andThen_skip (f := keysNew C E U V o) (fun s => by unfold keysNew; rw [hx.old]),
    andThen_skip (f := keysImport C E U V o) (fun s => by unfold keysImport; rw [hx.own]), andThen_go]
  unfold keysExport
  rw [hx.file]
  dsimp only
  rw [if_neg (by simpa using hm.named)]
  have hsave : save C E V.exportW disk (exportKeys (keyFilter U V.now o.filter) [withPersistence f, withOverwrite o.yes] k) =
      some (saveWrite C V.exportW key { exportKeys (keyFilter U V.now o.filter) [withPersistence f, withOverwrite o.yes] k with persistence := path }) := by
    refine save_permitted ⟨hm.named, hm.resolved, hm.stat, hm.opens⟩ ?_ ?_
    · simp [exportKeys, withPersistence, withOverwrite, hx.opens]
    · rcases hm.allowed with e | e | ⟨e1, e2⟩
      · exact .inl e
      · exact .inr (.inl e)
      · exact .inr (.inr ⟨by simp [exportKeys, withPersistence, withOverwrite, (load_asks hx.loads).2], e1, e2⟩)
  rw [hsave, Option.map_some]
  generalize check _ _ = c
  cases c with
  | stop oc s => exact ⟨_, rfl⟩
  | go s =>
    rw [andThen_go]
    generalize keysList U V o s = c
    cases c with
    | stop oc s => exact ⟨_, rfl⟩
    | go s => exact ⟨_, rfl⟩

/-- the stations of the examples -/
def exSM : Side := ⟨[1], exPFK, lit "SM"⟩
def exOP : Side := ⟨[1], exPFK, lit "OP"⟩

/-- `keys --export [2] --yes` -/
def exExportAll : KeysCmd := { access := exAccess, file := [1], exportFile := some [2], yes := true }

theorem exOpens {W : World} (hW : W.statFails = false) (hW' : W.openFails = false) (hp : resolvePath W [1] = some [1]) (E : PwEnv) (call : Runes) : Opens E W exAccess [1] ⟨[1], exPFK, call⟩ := by
  have h := prepared_example E
  exact ⟨by rw [h], ⟨by rw [h]; simp, by rw [h]; exact hp, hW, hW'⟩, by rw [h]; exact .inl rfl⟩

theorem stored_unique {C : Codec} {disk : Disk} {i j : Inst} (h : Stored C disk [1] exPFK i) (h' : Stored C disk [1] exPFK j) : SameStore i j := by
  obtain ⟨k, hl, hs, -⟩ := opens_load (s := ⟨[1], exPFK, []⟩) (exOpens (W := exWorld) rfl rfl rfl ⟨fun _ _ => [], fun _ => true⟩ []) h
  obtain ⟨k', hl', hs', -⟩ := opens_load (s := ⟨[1], exPFK, []⟩) (exOpens (W := exWorld) rfl rfl rfl ⟨fun _ _ => [], fun _ => true⟩ []) h'
  rw [hl] at hl'
  simp only [Option.some.injEq, Prod.mk.injEq, true_and] at hl'
  subst hl'
  exact hs.symm.trans hs'

/-- all keys of a station can be handed over to another that has the same pad under the same id -/
theorem exHandsOver {C : Codec} (hC : C.Lawful) (g : Nat) {call call' : Runes} {d d' : Disk} {i j : Inst} (hi : SideOk g ⟨[1], exPFK, call⟩ i) (hj : SideOk g ⟨[1], exPFK, call'⟩ j)
    (h : Stored C d [1] exPFK i) (h' : Stored C d' [1] exPFK j) (hag : ∀ x ∈ i.keys, ∀ y ∈ j.keys, x.id.val = y.id.val → x.runes = y.runes) :
    ∃ e e', HandsOver C unicode15 g ⟨[1], exPFK, call⟩ ⟨[1], exPFK, call'⟩ d d' e e' ∧ e [1] = d [1] := by
  obtain ⟨k, hl, hk1, hk2, hk3⟩ := opens_load (s := ⟨[1], exPFK, call⟩) (exOpens (W := exWorld) rfl rfl rfl exKdf call) h
  have hki := hi.same hk1
  have hx : Exports C exKdf exKeysEnv exExportAll d k [2] exPFK :=
    ⟨rfl, rfl, rfl, rfl, (exOpens (W := exWorld) rfl rfl rfl exKdf call).access, hl, hk3, by decide, hki.settings⟩
  have hm : MayExport exKeysEnv exExportAll d [2] [2] := ⟨by simp, rfl, rfl, rfl, rfl, .inr (.inl rfl)⟩
  obtain ⟨r, hr⟩ := keysExport_runs (U := unicode15) hx hm
  obtain ⟨-, hoth, c, hc, hdec, -⟩ := export_file hC hr hx hm (by simp [exExportAll])
  let copied := d'.set [2] c
  have hcop : copied [1] = d' [1] := set_other _ _ (by decide)
  have hst : Stored C copied [2] exPFK { k.inst with keys := k.inst.keys.filter (keyFilter unicode15 exKeysEnv.now exExportAll.filter), messages := [] } :=
    stored_of_dec (by decide) (set_same _ _ _) hdec hki.settings.1 hki.settings.2.1 hki.settings.2.2.1 hki.settings.2.2.2
  have hd2 : DistinctNames unicode15 ((k.inst.keys.filter (keyFilter unicode15 exKeysEnv.now exExportAll.filter)).map (fun x => x.id.val)) :=
    List.Pairwise.sublist (List.Sublist.map _ List.filter_sublist) (wellFormed_distinct unicode15_lawful hki.keys)
  obtain ⟨r', k', q, hr', -, hl', hq, -⟩ := exImport_runs hC (stored_congr hcop h') hst (wellFormed_distinct unicode15_lawful hj.keys) hd2 hj.settings.1
  obtain ⟨salt, hs1, hs2⟩ := defaultSalt_decodes
  refine ⟨r.state.disk, r'.state.disk, .mk (o := exExportAll) (V := exKeysEnv) (o' := exImport) (V' := exImportEnv) (f := [2]) (f' := [2]) (path := [2]) (path' := [2]) (copied := copied)
    hr rfl rfl rfl rfl (fun _ _ => rfl) (exOpens (W := exWorld) rfl rfl rfl exKdf call) hm (by simp) (by simp [exExportAll]) (by simp [exExportAll])
    ((set_same _ _ _).trans hc.symm) hcop hr' rfl rfl rfl rfl (fun _ => rfl) (fun _ => by simp [exImportEnv]) (exOpens (W := exWorld) rfl rfl rfl exKdf call') ⟨by simp, rfl, rfl, rfl⟩
    (.inr ⟨rfl, rfl, rfl, [1], [], salt, rfl, hs1, hs2, rfl⟩) ⟨by simp, rfl, rfl, rfl, rfl⟩ (by simp [exImport]) ?_, hoth [1] (by simp) (by simp [exExportAll])⟩
  intro a b ha hb x hx y hy he
  obtain ⟨x', hx', e⟩ := forall₂_left (stored_unique ha h).keys x hx
  obtain ⟨y', hy', e'⟩ := forall₂_left (stored_unique hb h').keys y hy
  rw [e.runes, e'.runes]
  exact hag x' hx' y' hy' (by rw [← e.id, ← e'.id, he])

/-- the printed line consists of words -/
theorem exLine_words : ∃ ws, InWords (· = 32) ws (lit "OP DE SM 012345ZJAN23 4 = A C Z M = K") := by
  have e : lit "OP DE SM 012345ZJAN23 4 = A C Z M = K" = lit "OP" ++ [32] ++ (lit "DE" ++ [32] ++ (lit "SM" ++ [32] ++ (lit "012345ZJAN23" ++ [32] ++ (lit "4" ++ [32] ++ (lit "=" ++ [32] ++ (lit "A" ++ [32] ++ (lit "C" ++ [32] ++ (lit "Z" ++ [32] ++ (lit "M" ++ [32] ++ (lit "=" ++ [32] ++ (lit "K" ++ [] ++ []))))))))))) := by decide
  rw [e]
  exact ⟨_, [], _, (List.nil_append _).symm, by simp, .cons (by decide) (by decide) (by simp) (by simp) (.cons (by decide) (by decide) (by simp) (by simp) (.cons (by decide) (by decide) (by simp) (by simp) (.cons (by decide) (by decide) (by simp) (by simp) (.cons (by decide) (by decide) (by simp) (by simp) (.cons (by decide) (by decide) (by simp) (by simp) (.cons (by decide) (by decide) (by simp) (by simp) (.cons (by decide) (by decide) (by simp) (by simp) (.cons (by decide) (by decide) (by simp) (by simp) (.cons (by decide) (by decide) (by simp) (by simp) (.cons (by decide) (by decide) (by simp) (by simp) (.cons (by decide) (by decide) (by simp) (by simp) .nil)))))))))))⟩

/-- SM sends HEJ to OP -/
theorem exSends {C : Codec} (hC : C.Lawful) {d d' : Disk} {i j : Inst} (h : Linked C unicode15 1 exSM exOP d d' i j) (hd : d [1] = some (C.enc exPFK 0 (gobInst exStation)))
    (hj : j.messages = []) : ∃ e e', Sends C unicode15 1 exSM exOP d d' (lit "HEJ") [lit "A"] e e' := by
  let E : PwEnv := ⟨fun _ _ => [], fun _ => true⟩
  obtain ⟨k, m, hsent, e1, e2, e3, hlong, hline⟩ := exHej_sent hC E hd
  have hop : Opens E exHejEnv.loadW exNewCmd.access exNewCmd.file exSM := exOpens (W := exWorld) rfl rfl rfl E _
  obtain ⟨k0, hl0, hk0, -⟩ := opens_load hop h.stored
  have hl := hsent.loads
  rw [hl0] at hl
  simp only [Option.some.injEq, Prod.mk.injEq, true_and] at hl
  subst hl
  obtain ⟨r, hr, hpr⟩ := hsent.prints
  have hop' : Opens E (exRunEnv "OP DE SM 012345ZJAN23 4 = A C Z M = K" true).loadW exNewCmd.access exNewCmd.file exOP := exOpens (W := exWorld) rfl rfl rfl E _
  obtain ⟨k', hl', hs', hpath', hkey'⟩ := opens_load hop' h.stored'
  replace h := h.same hk0 hs'
  have hmsgs : k'.inst.messages = [] := by
    have := hs'.messages.length_eq
    rw [hj] at this
    exact List.length_eq_zero_iff.1 this
  obtain ⟨ws, hws⟩ := exLine_words
  have hone : k0.inst.groupSize = 1 := h.ok.size
  have htime : PrintedTime (exPrint.date m.dtg) := ⟨⟨_, _, _, _, exDate_word, by decide⟩, (by decide : ∀ c ∈ exDate, CapitalCallChar c)⟩
  have hwrap : ∀ ws l, InWords (· = 32) ws l → InWords Spec.Blank ws (exPrint.wrap l) := fun ws s h => h.mono (fun c hc => .inr (.inr (.inr (.inr hc))))
  obtain ⟨-, r', msg, keys', hr', -⟩ := C76_delivered hC unicode15_lawful (V' := exRunEnv "OP DE SM 012345ZJAN23 4 = A C Z M = K" true) (o' := exNewCmd) (E' := E)
    (disk' := d') (k' := k') (P := exPrint) (time := 7) (id := lit "AAAA") (t' := [0, 0, 0, 2 ^ 32]) (path := [1]) (key := exPFK)
    hsent (rad := lit "OP DE SM = HEJ = K") rfl exHej_shortForm exHej_ended (by simp) (by rw [e1]; decide) (by decide) (by rw [e1]; exact hlong)
    htime hwrap rfl rfl hop'.access hl' (by rw [h.ok'.size, hone]) h.ok'.keys (.inr ⟨h.ok.keys, rfl, by rw [hone, show [lit "OP"].map (fun n => n.map unicode15.toUpper) = [exOP.call] by decide +kernel]; exact h.pads⟩) (by rw [h.ok'.call]; decide) rfl
    ⟨ws, by rw [e1, hline]; exact hws, hws⟩ rfl
    (by rw [hmsgs]; decide) ⟨by rw [hpath']; simp [exOP], by rw [hpath']; rfl, rfl, rfl⟩ rfl hkey' (by decide) h.ok'.settings.2.1 h.ok'.settings.2.2.1
    h.ok'.settings.2.2.2 (by simp [exNewCmd])
  have hpads : printedPads C E unicode15 exHejEnv exNewCmd d = [lit "A"] := by
    unfold printedPads
    rw [if_pos (show exNewCmd.new = true from rfl), openStore_ok hop.access hl0]
    dsimp only
    rw [e1]
    decide +kernel
  refine ⟨r.state.disk, r'.state.disk, ?_⟩
  rw [← hpads]
  exact .mk (P := exPrint) (time := 7) ⟨hr, rfl, rfl, hop, ⟨by simp [exSM], rfl, rfl, rfl, rfl⟩, by simp [exNewCmd], rfl⟩
    ⟨_, _, _, _, _, _, exHej_shortForm, exHej_ended, by simp, by decide, by decide⟩ (by decide) hpr (by rw [← hone, e1]; exact hlong) htime hwrap
    ⟨hr', rfl, rfl, hop', ⟨by simp [exOP], rfl, rfl, rfl, rfl⟩, by simp [exNewCmd], rfl⟩ ⟨ws, by rw [← hone, e1, hline]; exact hws, hws⟩ rfl

/-- `C83_conversation` is not vacuous: SM hands over its keys to OP, which has them already, and sends HEJ. -/
example : ∃ (C : Codec) (d d' e e' : Disk), C.Lawful ∧ Linked C unicode15 1 exSM exOP d d' exStation exOther ∧ Talk C unicode15 1 exSM exOP d d' [lit "HEJ"] [lit "A"] e e' := by
  obtain ⟨C, hC⟩ := exists_lawful
  have s1 : Stored C (exRunDisk C) [1] exPFK exStation := stored_of_dec (by decide) (set_same _ _ _) (hC.right _ _ _ (by decide)) (by decide) (by decide) (by decide) (by decide)
  have s2 : Stored C (exDisk.set [1] (C.enc exPFK 0 (gobInst exOther))) [1] exPFK exOther :=
    stored_of_dec (by decide) (set_same _ _ _) (hC.right _ _ _ (by decide)) (by decide) (by decide) (by decide) (by decide)
  have hok : SideOk 1 exSM exStation := ⟨rfl, rfl, by decide, by decide, by decide, by decide⟩
  have hok' : SideOk 1 exOP exOther := ⟨rfl, rfl, by decide, by decide, by decide, by decide⟩
  have hl : Linked C unicode15 1 exSM exOP (exRunDisk C) (exDisk.set [1] (C.enc exPFK 0 (gobInst exOther))) exStation exOther := by
    refine ⟨s1, s2, hok, hok', by decide, ?_, ?_⟩
    · intro x hx _
      exact ⟨x, hx, rfl, rfl⟩
    · intro x hx _
      exact ⟨x, hx, rfl, rfl⟩
  obtain ⟨e, e', hh, he⟩ := exHandsOver hC 1 hok hok' s1 s2 (by decide)
  have ht : Talk C unicode15 1 exSM exOP _ _ [] [] e e' := .supply .start ⟨_, .inl rfl, hh⟩
  obtain ⟨-, i', j', hl', -, hm, -⟩ := C83_conversation hC unicode15_lawful hl ht
  obtain ⟨f, f', hs⟩ := exSends hC hl' (by rw [he]; exact set_same _ _ _) (List.map_eq_nil_iff.1 hm)
  exact ⟨C, _, _, f, f', hC, hl, .there ht hs⟩

/-- a file without keys -/
def exNoKeys (call : String) : Inst := ⟨5, 20, 85, 85, [], [], lit call, 1⟩

/-- not vacuous either: two files without keys; SM makes a key for OP and hands it over -/
example : ∃ (C : Codec) (d d' e e' : Disk) (i' j' : Inst), C.Lawful ∧ Linked C unicode15 5 exSM exOP d d' (exNoKeys "SM") (exNoKeys "OP") ∧ Talk C unicode15 5 exSM exOP d d' [] [] e e' ∧
    Linked C unicode15 5 exSM exOP e e' i' j' ∧ i'.keys.length = 1 := by
  obtain ⟨C, hC⟩ := exists_lawful
  let d := exDisk.set [1] (C.enc exPFK 0 (gobInst (exNoKeys "SM")))
  let d' := exDisk.set [1] (C.enc exPFK 0 (gobInst (exNoKeys "OP")))
  have s1 : Stored C d [1] exPFK (exNoKeys "SM") := stored_of_dec (by decide) (set_same _ _ _) (hC.right _ _ _ (by decide)) (by decide) (by decide) (by decide) (by decide)
  have s2 : Stored C d' [1] exPFK (exNoKeys "OP") := stored_of_dec (by decide) (set_same _ _ _) (hC.right _ _ _ (by decide)) (by decide) (by decide) (by decide) (by decide)
  have hl : Linked C unicode15 5 exSM exOP d d' (exNoKeys "SM") (exNoKeys "OP") :=
    C83_begin (a := exSM) (b := exOP) s1 s2 (by decide) (by decide) ⟨by decide, by decide, by decide, by decide⟩ ⟨by decide, by decide, by decide, by decide⟩ rfl rfl rfl (by decide) rfl rfl
  let E : PwEnv := ⟨fun _ _ => [], fun _ => true⟩
  have hop := exOpens (W := exWorld) rfl rfl rfl E (lit "SM")
  obtain ⟨k, hk, hs, hpath, hkey⟩ := opens_load hop s1
  have hk0 : k.inst.keys.length = 0 := by rw [hs.keys.length_eq]; rfl
  obtain ⟨tape, r, hr⟩ := keysNew_runs hk hkey (by rw [hs.groupSize]; decide) (by rw [hs.groupSize, hk0]; decide)
  have hmake : Makes C unicode15 exSM d r.state.disk :=
    .mk hr rfl rfl (by decide) rfl rfl (by simp [exKeysNew]) hop ⟨by simp [exSM], rfl, rfl, rfl, rfl⟩ (by simp [exKeysNew])
  obtain ⟨-, H⟩ := C75_new_keys hC hr rfl rfl (by decide) rfl rfl hop.access hk (by rw [hs.groupSize]; decide)
  obtain ⟨-, -, new, ex, hlen, -, -, hfresh, hdist, hst⟩ := H [1] exPFK ⟨by rw [hpath]; simp, by rw [hpath]; rfl, rfl, rfl⟩ rfl hkey (by decide) (by rw [hs.keyLength]; decide)
    (by rw [hs.columns]; decide) (by rw [hs.keyColumns]; decide) (by simp [exKeysNew]) (by simp [exKeysNew])
  rw [List.length_eq_zero_iff.1 hk0, List.nil_append] at hst
  have hnew : new.length = 1 := by rw [hlen]; rfl
  have hok : SideOk 5 exSM { k.inst with keys := new } := by
    refine ⟨by rw [← show (exNoKeys "SM").groupSize = 5 from rfl, ← hs.groupSize], by rw [← show (exNoKeys "SM").callSign = exSM.call from rfl, ← hs.callSign], by decide,
      ⟨by rw [hs.groupSize]; decide, by rw [hs.keyLength]; decide, by rw [hs.columns]; decide, by rw [hs.keyColumns]; decide⟩, ⟨?_, fun x hx => (hfresh x hx).1.idLetters⟩, ?_⟩
    · have := nodup_of_distinctNames (hdist (by rw [List.length_eq_zero_iff.1 hk0]; exact List.Pairwise.nil))
      rw [List.length_eq_zero_iff.1 hk0, List.nil_append] at this
      exact this
    · intro x hx
      rw [(hfresh x hx).1.idLength, hs.groupSize]
      rfl
  have hok' : SideOk 5 exOP (exNoKeys "OP") := ⟨rfl, rfl, by decide, by decide, by decide, by decide⟩
  obtain ⟨e, e', hh, he⟩ := exHandsOver hC 5 hok hok' hst s2 (by intro x _ y hy; cases hy)
  have ht : Talk C unicode15 5 exSM exOP d d' [] [] e e' := .supply .start ⟨_, .inr hmake, hh⟩
  obtain ⟨-, i', j', hl', -⟩ := C83_conversation hC unicode15_lawful hl ht
  refine ⟨C, d, d', e, e', i', j', hC, hl, ht, hl', ?_⟩
  rw [(stored_unique hl'.stored (stored_congr he hst)).keys.length_eq, hnew]

end K431
