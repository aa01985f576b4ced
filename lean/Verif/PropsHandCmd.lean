import Verif.HandCmdLemmas
import Verif.PropsRuns

/-!
# Handing keys over with the commands: C77, C78
-/

namespace K431
open Spec

/-! ## C77: `keys --import` -/

/-- **C77.**  `keys --import f`, with any filter, with `--list` and `--output` to another file or not, on a file that can be loaded and whose key ids differ up to case.  If the
file `f` can not be loaded, the command returns an error and writes nothing.  If it can, has no key id twice, and the user answers all questions, the own file holds afterwards, if it can be
written, everything it held before except the keys replaced, and the imported keys: those that match the filter, have an id of the right length and are
new or may, according to the user, replace an old key.  Nothing else is changed: not the file `f`, not the messages. -/
theorem C77_import {C : Codec} (hC : C.Lawful) {E : PwEnv} {U : Unicode} {V : KeysEnv} {o : KeysCmd} {disk : Disk} {r : Course} {k : Krypto} {f : List Nat}
    (h : keysCommand C E U V o disk = some r) (hdel : o.delete = false) (hnew : o.newKeys = none) (himp : o.importFile = some f) (hexp : o.exportFile = none)
    (hp : (prepared E o.access o.file).1 = .ok ()) (hl : load C E V.loadW disk (prepared E o.access o.file).2 = some (.ok (), k))
    (hd : DistinctNames U (k.inst.keys.map (fun x => x.id.val))) (hg : k.inst.groupSize ≠ 0) :
    (∀ oc j, load C E V.readW disk (incomingFor f) = some (oc, j) → oc ≠ .ok () → r.outcome ≠ .ok () ∧ r.state.disk = disk ∧ r.state.touched = []) ∧
    (∀ j path key, load C E V.readW disk (incomingFor f) = some (.ok (), j) → DistinctNames U (j.inst.keys.map (fun x => x.id.val)) → (∀ x ∈ j.inst.keys, V.answer x ≠ none) →
      Reads V.importW k path → V.importW.room = none → k.pfk = some key → key.length = 32 →
      k.inst.keyLength ≠ 0 → k.inst.columns ≠ 0 → k.inst.keyColumns ≠ 0 → o.output ≠ some path →
      (o.output = none → r.outcome = .ok ()) ∧ (∀ p, p ≠ path → o.output ≠ some p → r.state.disk p = disk p) ∧
      ∃ new keys', List.Forall₂ (Imported U k.inst.callSign j.inst.callSign)
          (j.inst.keys.filter (fun x => decide (Accepts U ⟨false, V.readW.terminal, V.answer⟩ (keyFilter U V.now o.filter) k.inst.groupSize (k.inst.keys.map (fun x => x.id.val)) x))) new ∧
        keys'.Perm (k.inst.keys.filter (fun x => !decide (InFold U x.id.val (new.map (fun x => x.id.val)))) ++ new) ∧
        Stored C r.state.disk path key { k.inst with keys := keys' }) := by
  have hop := prepared_opened hl
  obtain ⟨ha1, ha2⟩ := load_asks hl
  unfold keysCommand at h
  rw [if_neg (by simp [KeysCmd.any, himp]), openStore_ok hp hl,
    andThen_skip (f := keysDelete C E U V o) (fun s => by unfold keysDelete; rw [hdel]; rfl),
    andThen_skip (f := keysNew C E U V o) (fun s => by unfold keysNew; rw [hnew]), andThen_go,
    andThen_skip (f := keysExport C E U V o) (fun s => by unfold keysExport; rw [hexp])] at h
  unfold keysImport at h
  rw [himp] at h
  dsimp only at h
  have hinc : (newIncoming U k [.persistence f, .interactive true]) = ⟨incomingFor f, false, false⟩ := rfl
  constructor
  · intro oc j hj hoc
    by_cases h0 : f.length = 0
    · rw [if_pos h0] at h
      simp only [andThen, Option.some.injEq] at h
      subst h
      exact ⟨by simp [Course.outcome], rfl, rfl⟩
    rw [if_neg h0] at h
    have hf : importFrom C E V.readW U V.noise V.answer (keyFilter U V.now o.filter) [.persistence f, .interactive true] disk k = some (oc, 0, k) := by
      unfold importFrom
      rw [hinc]
      dsimp only
      rw [hj]
      rcases oc with u | e | _
      · exact absurd rfl hoc
      · rfl
      · rfl
    rw [hf] at h
    dsimp only at h
    rw [check_stop hoc] at h
    simp only [andThen, Option.some.injEq] at h
    subst h
    exact ⟨hoc, rfl, rfl⟩
  · intro j path key hj hdj hans hr hroom hkey hlen h1 h2 h3 hout
    have h0 : ¬ f.length = 0 := by
      intro h0
      unfold load at hj
      rw [if_pos h0] at hj
      simp at hj
    rw [if_neg h0] at h
    obtain ⟨new, keys, nx, e1, e2, e3⟩ := import_apart hop.apart (load_keepers hl) hd hg V.noise ⟨false, V.readW.terminal, V.answer⟩ (keyFilter U V.now o.filter)
      j.inst.keys j.inst.callSign hdj hans
    obtain ⟨n, e1⟩ : ∃ n, importKeys U V.noise ⟨false, V.readW.terminal, V.answer⟩ (keyFilter U V.now o.filter) (.ok (j.inst.keys, j.inst.callSign)) k.inst =
        (.ok (), n, { k.inst with keys := keys, nextAddr := nx }) := ⟨_, e1⟩
    have hf : importFrom C E V.readW U V.noise V.answer (keyFilter U V.now o.filter) [.persistence f, .interactive true] disk k =
        some (.ok (), n, { k with inst := { k.inst with keys := keys, nextAddr := nx } }) := by
      unfold importFrom
      rw [hinc]
      dsimp only
      rw [hj]
      dsimp only
      rw [ha1, ha2, Bool.true_and, e1]
      rfl
    rw [hf] at h
    dsimp only at h
    rw [check_ok rfl, andThen_go] at h
    obtain ⟨s', hd', -, -, -, hother, hs⟩ := saveStep_done hC (E := E) (W := V.importW) (s := ⟨disk, { k with inst := { k.inst with keys := keys, nextAddr := nx } }, [], []⟩)
      (path := path) (key := key) ⟨hr.named, hr.path, hr.stat, hr.opens⟩ hkey hlen hop.overwrite hroom
    rw [hd'] at h
    refine ⟨?_, ?_, new, keys, e3, ?_, ?_⟩
    · intro hno
      rw [andThen_go] at h
      unfold keysList outputStep at h
      rw [hno] at h
      have hlist : ∀ c : Course, c.outcome = .ok () → andThen (some c) (fun s => some (Course.go s)) = some r → r.outcome = .ok () := by
        intro c hc hr
        cases c with
        | go s => simp only [andThen, Option.some.injEq] at hr; subst hr; rfl
        | stop oc s => simp only [andThen, Option.some.injEq] at hr; subst hr; exact hc
      refine hlist _ ?_ h
      dsimp only
      repeat' split
      all_goals rfl
    · intro p hpp hop'
      rw [(keysTail hop' h).1]
      exact hother p hpp
    · have hids : new.map (fun x => x.id.val) = (j.inst.keys.filter (fun x => decide (Accepts U ⟨false, V.readW.terminal, V.answer⟩ (keyFilter U V.now o.filter) k.inst.groupSize
          (k.inst.keys.map (fun x => x.id.val)) x))).map (fun x => x.id.val) := by
        generalize j.inst.keys.filter _ = acc at e3
        clear e2
        induction e3 with
        | nil => rfl
        | cons a _ ih => simp only [List.map_cons, ih, a.id]
      rw [hids]
      exact e2
    · refine stored_congr (keysTail hout h).1 ?_
      have hst := hs hg h1 h2 h3
      intro E W k1 hb hr hk
      obtain ⟨k2, l2, ⟨a, b, c, d, e, f, g⟩⟩ := hst E W k1 hb hr hk
      exact ⟨k2, l2, ⟨a, b, c, d, e, f, g⟩⟩

/-! ## C78: `keys --export` -/

/-- the command is `keys --export f` with any filter, with `--list` and `--output` or not, and the file can be loaded -/
structure Exports (C : Codec) (E : PwEnv) (V : KeysEnv) (o : KeysCmd) (disk : Disk) (k : Krypto) (f key : List Nat) : Prop where
  keep : o.delete = false
  old : o.newKeys = none
  own : o.importFile = none
  file : o.exportFile = some f
  access : (prepared E o.access o.file).1 = .ok ()
  loads : load C E V.loadW disk (prepared E o.access o.file).2 = some (.ok (), k)
  opens : k.pfk = some key
  length : key.length = 32
  sizes : k.inst.groupSize ≠ 0 ∧ k.inst.keyLength ≠ 0 ∧ k.inst.columns ≠ 0 ∧ k.inst.keyColumns ≠ 0

/-- the file written by `keys --export` -/
theorem export_file {C : Codec} (hC : C.Lawful) {E : PwEnv} {U : Unicode} {V : KeysEnv} {o : KeysCmd} {disk : Disk} {r : Course} {k : Krypto} {f path key : List Nat}
    (h : keysCommand C E U V o disk = some r) (hx : Exports C E V o disk k f key) (hm : MayExport V o disk f path) (hout : o.output ≠ some path) :
    (o.output = none → r.outcome = .ok ()) ∧ (∀ p, p ≠ path → o.output ≠ some p → r.state.disk p = disk p) ∧
    ∃ c, r.state.disk path = some c ∧ C.dec key c = some (gobInst { k.inst with keys := k.inst.keys.filter (keyFilter U V.now o.filter), messages := [] }) ∧
      c = C.enc key V.exportW.nonce (gobInst { k.inst with keys := k.inst.keys.filter (keyFilter U V.now o.filter), messages := [] }) := by
  obtain ⟨ha1, ha2⟩ := load_asks hx.loads
  unfold keysCommand at h
  rw [if_neg (by simp [KeysCmd.any, hx.file]), openStore_ok hx.access hx.loads,
    andThen_skip (f := keysDelete C E U V o) (fun s => by unfold keysDelete; rw [hx.keep]; rfl),
    andThen_skip (f := keysNew C E U V o) (fun s => by unfold keysNew; rw [hx.old]),
    andThen_skip (f := keysImport C E U V o) (fun s => by unfold keysImport; rw [hx.own]), andThen_go] at h
  unfold keysExport at h
  rw [hx.file] at h
  dsimp only at h
  rw [if_neg (by simpa using hm.named)] at h
  have hsave : save C E V.exportW disk (exportKeys (keyFilter U V.now o.filter) [withPersistence f, withOverwrite o.yes] k) =
      some (saveWrite C V.exportW key { exportKeys (keyFilter U V.now o.filter) [withPersistence f, withOverwrite o.yes] k with persistence := path }) := by
    refine save_permitted ⟨hm.named, hm.resolved, hm.stat, hm.opens⟩ ?_ ?_
    · simp [exportKeys, withPersistence, withOverwrite, hx.opens]
    · rcases hm.allowed with e | e | ⟨e1, e2⟩
      · exact .inl e
      · exact .inr (.inl e)
      · exact .inr (.inr ⟨by simp [exportKeys, withPersistence, withOverwrite, ha2], e1, e2⟩)
  obtain ⟨b1, b2⟩ := saveWrite_done C V.exportW key { exportKeys (keyFilter U V.now o.filter) [withPersistence f, withOverwrite o.yes] k with persistence := path } hx.length hm.opens hm.room disk
  rw [hsave, Option.map_some, check_ok b1] at h
  refine ⟨?_, ?_, _, ?_, hC.right _ V.exportW.nonce _ hx.length, rfl⟩
  · intro hno
    rw [andThen_go] at h
    unfold keysList outputStep at h
    rw [hno] at h
    have hlist : ∀ c : Course, c.outcome = .ok () → andThen (some c) (fun s => some (Course.go s)) = some r → r.outcome = .ok () := by
      intro c hc hr
      cases c with
      | go s => simp only [andThen, Option.some.injEq] at hr; subst hr; rfl
      | stop oc s => simp only [andThen, Option.some.injEq] at hr; subst hr; exact hc
    refine hlist _ ?_ h
    dsimp only
    repeat' split
    all_goals rfl
  · intro p hp hop
    rw [(keysTail hop h).1]
    show (saveWrite C V.exportW key _).disk disk p = disk p
    rw [b2]
    exact set_other _ _ hp
  · rw [(keysTail hout h).1]
    show (saveWrite C V.exportW key _).disk disk path = _
    rw [b2]
    exact set_same _ _ _

/-- **C78**, the file: `keys --export f` writes, if it may, a file with exactly the selected keys, the settings and the call-sign, and no messages, which opens with the key of the own file; no other file but the
output file is changed.  If there is such a file already, `--yes` is not given and the user does not agree, no file but the output file is changed. -/
theorem C78_export {C : Codec} (hC : C.Lawful) {E : PwEnv} {U : Unicode} {V : KeysEnv} {o : KeysCmd} {disk : Disk} {r : Course} {k : Krypto} {f path key : List Nat}
    (h : keysCommand C E U V o disk = some r) (hx : Exports C E V o disk k f key) :
    (MayExport V o disk f path → o.output ≠ some path →
      (o.output = none → r.outcome = .ok ()) ∧ (∀ p, p ≠ path → o.output ≠ some p → r.state.disk p = disk p) ∧
      Stored C r.state.disk path key { k.inst with keys := k.inst.keys.filter (keyFilter U V.now o.filter), messages := [] }) ∧
    (resolvePath V.exportW f = some path → disk path ≠ none → o.yes = false → V.exportW.confirm ≠ some true → ∀ p, o.output ≠ some p → r.state.disk p = disk p) := by
  constructor
  · intro hm hout
    obtain ⟨a, b, c, hc, hd, -⟩ := export_file hC h hx hm hout
    exact ⟨a, b, stored_of_dec hx.length hc hd hx.sizes.1 hx.sizes.2.1 hx.sizes.2.2.1 hx.sizes.2.2.2⟩
  · intro hpath hd hy hconf p hop
    unfold keysCommand at h
    rw [if_neg (by simp [KeysCmd.any, hx.file]), openStore_ok hx.access hx.loads,
      andThen_skip (f := keysDelete C E U V o) (fun s => by unfold keysDelete; rw [hx.keep]; rfl),
      andThen_skip (f := keysNew C E U V o) (fun s => by unfold keysNew; rw [hx.old]),
      andThen_skip (f := keysImport C E U V o) (fun s => by unfold keysImport; rw [hx.own]), andThen_go] at h
    unfold keysExport at h
    rw [hx.file] at h
    dsimp only at h
    split at h
    · simp only [andThen, Option.some.injEq] at h
      subst h
      rfl
    rcases hs : save C E V.exportW disk (exportKeys (keyFilter U V.now o.filter) [withPersistence f, withOverwrite o.yes] k) with _ | q
    · rw [hs] at h; simp [andThen] at h
    have hq := save_refused (by simpa [exportKeys, withPersistence, withOverwrite] using hpath) hd (by
      rintro (e | ⟨-, -, e⟩)
      · simp [exportKeys, withPersistence, withOverwrite, hy] at e
      · exact hconf e) hs
    rw [hs, Option.map_some] at h
    have hdisk : (check q.outcome ({ (Cmd.saved ⟨disk, k, [], []⟩ q) with k := k } : Cmd)).state.disk = disk := by
      rw [check_state]
      show q.disk disk = disk
      unfold SaveRun.disk
      rw [hq]
      rfl
    rw [(keysTail hop h).1, hdisk]

/-- The full claim of C78: `keys --export` leaves the own file alone, and whoever has the file, under any name, can open it with `keys --import`, by entering what is right. -/
def C78_Statement : Prop :=
  ∀ (C : Codec) (E : PwEnv) (U : Unicode) (V : KeysEnv) (o : KeysCmd) (disk : Disk) (r : Course) (k : Krypto) (f path key : List Nat), C.Lawful → U.Lawful →
    keysCommand C E U V o disk = some r → Exports C E V o disk k f key → MayExport V o disk f path → o.output = none →
    r.state.disk k.persistence = disk k.persistence ∧
    ∀ (W : World) (f2 path2 : List Nat) (disk2 : Disk), disk2 path2 = r.state.disk path → Reads W (incomingFor f2) path2 → W.terminal = true →
      ∃ inputs j, load C E { W with inputs := inputs } disk2 (incomingFor f2) = some (.ok (), j)

/-- **C78**, within its range: if the exported file is not the own file, this is left alone; if the key of the own file is derived from a password with the default salt, another station can import
the keys with this password.  It runs `keys --import f2` on its own file, which holds none of the exported key ids and has the same length of ids; then its file, if it can be written, holds everything it held before and all
keys that both filters select, with the same letters, and the exporting station among their keepers. -/
theorem C78_partial {C : Codec} (hC : C.Lawful) {E : PwEnv} {U : Unicode} {V V' : KeysEnv} {o o' : KeysCmd} {disk disk2 : Disk} {r : Course} {k : Krypto}
    {f path key : List Nat}
    -- the exporting station
    (h : keysCommand C E U V o disk = some r) (hx : Exports C E V o disk k f key) (hm : MayExport V o disk f path) (hout : o.output ≠ some path)
    (hown : path ≠ k.persistence) (houtk : o.output ≠ some k.persistence) (hdk : DistinctNames U (k.inst.keys.map (fun x => x.id.val))) :
    r.state.disk k.persistence = disk k.persistence ∧
    ∀ {pw salt : List Nat} {f2 path2 : List Nat} {r' : Course} {k' : Krypto} {rest : List (Option (List Nat))} {path' key' : List Nat},
      hexDecode defaultSalt = some salt → E.kdf pw salt = key →
      -- the importing station
      disk2 path2 = r.state.disk path → Reads V'.readW (incomingFor f2) path2 → V'.readW.terminal = true → V'.readW.inputs = some pw :: rest →
      keysCommand C E U V' o' disk2 = some r' → o'.delete = false → o'.newKeys = none → o'.importFile = some f2 → o'.exportFile = none →
      (prepared E o'.access o'.file).1 = .ok () → load C E V'.loadW disk2 (prepared E o'.access o'.file).2 = some (.ok (), k') →
      DistinctNames U (k'.inst.keys.map (fun x => x.id.val)) → k'.inst.groupSize ≠ 0 → (∀ x, V'.answer x ≠ none) →
      (∀ x ∈ k.inst.keys.filter (keyFilter U V.now o.filter), x.id.val.length = k'.inst.groupSize ∧ ¬ InFold U x.id.val (k'.inst.keys.map (fun x => x.id.val))) →
      Reads V'.importW k' path' → V'.importW.room = none → k'.pfk = some key' → key'.length = 32 →
      k'.inst.keyLength ≠ 0 → k'.inst.columns ≠ 0 → k'.inst.keyColumns ≠ 0 → o'.output = none →
      r'.outcome = .ok () ∧ ∃ new keys', keys'.Perm (k'.inst.keys ++ new) ∧
        List.Forall₂ (HandedOver U k.inst.callSign) ((k.inst.keys.filter (keyFilter U V.now o.filter)).filter (keyFilter U V'.now o'.filter)) new ∧
        Stored C r'.state.disk path' key' { k'.inst with keys := keys' } := by
  obtain ⟨-, hoth, c, hc, hd, -⟩ := export_file hC h hx hm hout
  refine ⟨hoth _ hown.symm houtk, ?_⟩
  intro pw salt f2 path2 r' k' rest path' key' hsalt hpw hdisk hreads hterm hin h' hdel hnew himp hexp hp hl hd' hg hans hids hr hroom hkey hlen h1 h2 h3 hout'
  have hst : Stored C disk2 path2 key { k.inst with keys := k.inst.keys.filter (keyFilter U V.now o.filter), messages := [] } :=
    stored_of_dec hx.length (hdisk.trans hc) hd hx.sizes.1 hx.sizes.2.1 hx.sizes.2.2.1 hx.sizes.2.2.2
  have hs32 : 32 ≤ salt.length := by
    obtain ⟨s, e, h⟩ := defaultSalt_decodes
    rw [hsalt] at e
    cases e
    exact h
  obtain ⟨j, hj, hsame⟩ := hst E V'.readW (incomingFor f2) ⟨newBase_blank.keys, newBase_blank.messages, newBase_blank.callSign, newBase_blank.spareKeys, newBase_blank.spareMsgs⟩ hreads
    (.inr ⟨rfl, rfl, hterm, pw, rest, salt, hin, hsalt, hs32, hpw⟩)
  have hkeys : List.Forall₂ SameKey j.inst.keys (k.inst.keys.filter (keyFilter U V.now o.filter)) := hsame.keys
  have hcall : j.inst.callSign = k.inst.callSign := hsame.callSign
  have hdj : DistinctNames U (j.inst.keys.map (fun x => x.id.val)) := by
    rw [sameKeys_ids hkeys]
    exact List.Pairwise.sublist (List.Sublist.map _ List.filter_sublist) hdk
  obtain ⟨-, hmain⟩ := C77_import hC h' hdel hnew himp hexp hp hl hd' hg
  obtain ⟨hok, -, new, keys', e1, e2, e3⟩ := hmain j path' key' hj hdj (fun x _ => hans x) hr hroom hkey hlen h1 h2 h3 (by rw [hout']; simp)
  have hnot : ∀ x ∈ j.inst.keys, x.id.val.length = k'.inst.groupSize ∧ ¬ InFold U x.id.val (k'.inst.keys.map (fun x => x.id.val)) := by
    intro x hx
    obtain ⟨y, hy, hxy⟩ := forall₂_left hkeys x hx
    rw [hxy.id]
    exact hids y hy
  have hacc : j.inst.keys.filter (fun x => decide (Accepts U ⟨false, V'.readW.terminal, V'.answer⟩ (keyFilter U V'.now o'.filter) k'.inst.groupSize
      (k'.inst.keys.map (fun x => x.id.val)) x)) = j.inst.keys.filter (keyFilter U V'.now o'.filter) := by
    refine List.filter_congr (fun x hx => ?_)
    obtain ⟨a, b⟩ := hnot x hx
    rw [Bool.eq_iff_iff, decide_eq_true_iff]
    exact ⟨fun h => h.2.1, fun h => ⟨a, h, fun hin => absurd hin b⟩⟩
  rw [hacc] at e1
  have hnew' : List.Forall₂ (HandedOver U k.inst.callSign) ((k.inst.keys.filter (keyFilter U V.now o.filter)).filter (keyFilter U V'.now o'.filter)) new := by
    refine forall₂_trans ?_ (forall₂_filter (fun a b h => keyFilter_same h) hkeys) e1
    intro a b c h1 h2
    obtain ⟨q1, q2, q3, q4, q5, q6, q7⟩ := imported_of_same h1 h2
    rw [hcall] at q6 q7
    exact ⟨q1, q2, q3, q4, q5, q6, q7⟩
  refine ⟨hok hout', new, keys', ?_, hnew', e3⟩
  have : k'.inst.keys.filter (fun x => !decide (InFold U x.id.val (new.map (fun x => x.id.val)))) = k'.inst.keys := by
    rw [List.filter_eq_self]
    intro x hx
    simp only [Bool.not_eq_eq_eq_not, Bool.not_true, decide_eq_false_iff_not]
    rintro ⟨b, hb, hs⟩
    obtain ⟨y, hy, rfl⟩ := List.mem_map.1 hb
    obtain ⟨z, hz, hzy⟩ := forall₂_origin hnew' hy
    have hz' := (List.mem_filter.1 hz).1
    refine (hids z hz').2 ⟨x.id.val, List.mem_map.2 ⟨x, hx, rfl⟩, ?_⟩
    rw [← hzy.id]
    exact hs.symm
  rw [this] at e2
  exact e2

/-! ### Examples -/

/-- `keys --export f --id A`, with or without `--yes` -/
def exExport (f : List Nat) (yes : Bool) : KeysCmd := { access := exAccess, file := [1], exportFile := some f, yes := yes, filter := { ids := [lit "A"] } }

/-- the command runs on the example file -/
theorem exExport_runs {C : Codec} (hC : C.Lawful) (E : PwEnv) (f : List Nat) (yes : Bool) (hf : f = [1] ∧ yes = true ∨ f = [2]) :
    ∃ r k, keysCommand C E unicode15 exKeysEnv (exExport f yes) (exStoreDisk C) = some r ∧ Exports C E exKeysEnv (exExport f yes) (exStoreDisk C) k f exPFK ∧
      MayExport exKeysEnv (exExport f yes) (exStoreDisk C) f f ∧ SameStore k.inst exStore ∧ k.persistence = [1] := by
  obtain ⟨k, hl, hs, hkey, hpath⟩ := load_exStore hC E exStore 0 (by decide) (by decide) (by decide) (by decide)
  have hp : (prepared E (exExport f yes).access (exExport f yes).file).1 = .ok () := by
    show (prepared E exAccess [1]).1 = .ok (); rw [prepared_example]
  have hx : Exports C E exKeysEnv (exExport f yes) (exStoreDisk C) k f exPFK :=
    ⟨rfl, rfl, rfl, rfl, hp, hl, hkey, by decide, by rw [hs.groupSize]; decide, by rw [hs.keyLength]; decide, by rw [hs.columns]; decide, by rw [hs.keyColumns]; decide⟩
  have hm : MayExport exKeysEnv (exExport f yes) (exStoreDisk C) f f := by
    rcases hf with ⟨rfl, rfl⟩ | rfl
    · exact ⟨by decide, rfl, rfl, rfl, rfl, .inr (.inl rfl)⟩
    · refine ⟨by decide, rfl, rfl, rfl, rfl, .inl ?_⟩
      show exDisk.set [1] _ [2] = none
      rw [set_other _ _ (by decide)]
      rfl
  have hop : openStore C E exKeysEnv.loadW (exExport f yes).access (exExport f yes).file (exStoreDisk C) = some (.go ⟨exStoreDisk C, k, [], []⟩) := openStore_ok hp hl
  have hrun : ∃ r, keysCommand C E unicode15 exKeysEnv (exExport f yes) (exStoreDisk C) = some r := by
    unfold keysCommand
    rw [if_neg (by simp [KeysCmd.any, exExport]), hop, andThen_skip (f := keysDelete C E unicode15 exKeysEnv (exExport f yes)) (fun s => rfl),
      andThen_skip (f := keysNew C E unicode15 exKeysEnv (exExport f yes)) (fun s => rfl),
      andThen_skip (f := keysImport C E unicode15 exKeysEnv (exExport f yes)) (fun s => rfl), andThen_go]
    unfold keysExport
    rw [show (exExport f yes).exportFile = some f from rfl]
    dsimp only
    rw [if_neg (by simpa using hm.named)]
    have hsave := save_permitted (C := C) (E := E) (W := exKeysEnv.exportW) (disk := exStoreDisk C) (path := f) (key := exPFK)
      (k := exportKeys (keyFilter unicode15 exKeysEnv.now (exExport f yes).filter) [withPersistence f, withOverwrite (exExport f yes).yes] k)
      ⟨hm.named, hm.resolved, hm.stat, hm.opens⟩ (by simp [exportKeys, withPersistence, withOverwrite, hkey]) (by
        rcases hm.allowed with e | e | ⟨e1, e2⟩
        · exact .inl e
        · exact .inr (.inl e)
        · exact .inr (.inr ⟨by simp [exportKeys, withPersistence, withOverwrite, (load_asks hl).2], e1, e2⟩))
    rw [hsave, Option.map_some]
    generalize check _ _ = c
    cases c with
    | stop oc s => exact ⟨_, rfl⟩
    | go s =>
      rw [andThen_go]
      exact ⟨_, rfl⟩
  obtain ⟨r, hr⟩ := hrun
  exact ⟨r, k, hr, hx, hm, hs, hpath⟩

/-- C78 fails: `keys --export f --yes`, where `f` is the own file, replaces it: all keys that are not selected are gone. -/
theorem C78_violated : ¬ C78_Statement := by
  intro H
  obtain ⟨C, hC⟩ := exists_lawful
  let E : PwEnv := ⟨fun _ _ => [], fun _ => true⟩
  obtain ⟨r, k, hr, hx, hm, hs, hpath⟩ := exExport_runs hC E [1] true (.inl ⟨rfl, rfl⟩)
  obtain ⟨h, -⟩ := H C E unicode15 exKeysEnv (exExport [1] true) (exStoreDisk C) r k [1] [1] exPFK hC unicode15_lawful hr hx hm rfl
  obtain ⟨-, -, c, hc, hd, -⟩ := export_file hC hr hx hm (by simp [exExport])
  rw [hpath, hc, show exStoreDisk C [1] = some (C.enc exPFK 0 (gobInst exStore)) from set_same _ _ _, Option.some.injEq] at h
  rw [h, hC.right _ _ _ (by decide), Option.some.injEq] at hd
  have hkeys := (forall₂_filter (p := keyFilter unicode15 exKeysEnv.now (exExport [1] true).filter) (fun a b h => keyFilter_same h) hs.keys).length_eq
  rw [show (exStore.keys.filter (keyFilter unicode15 exKeysEnv.now (exExport [1] true).filter)).length = 1 by decide] at hkeys
  have h2 := congrArg (fun w => (w.keys.getD []).length) hd
  have h3 : ∀ i : Inst, ((gobInst i).keys.getD []).length = i.keys.length := by
    intro i
    unfold gobInst
    cases i.keys <;> simp [sent]
  simp only [h3] at h2
  rw [hkeys] at h2
  exact absurd h2 (by decide)

/-- C78 fails as well if the own file is opened with `--pfk` (or with another salt): no password opens the exported file then. -/
theorem C78_violated_key : ∃ (C : Codec) (E : PwEnv) (r : Course) (k : Krypto), C.Lawful ∧ keysCommand C E unicode15 exKeysEnv (exExport [2] false) (exStoreDisk C) = some r ∧
    Exports C E exKeysEnv (exExport [2] false) (exStoreDisk C) k [2] exPFK ∧ MayExport exKeysEnv (exExport [2] false) (exStoreDisk C) [2] [2] ∧
    ∀ (W : World) (f2 path2 : List Nat) (disk2 : Disk) (j : Krypto), disk2 path2 = r.state.disk [2] → Reads W (incomingFor f2) path2 →
      load C E W disk2 (incomingFor f2) ≠ some (.ok (), j) := by
  obtain ⟨C, hC⟩ := exists_lawful
  let E : PwEnv := ⟨fun _ _ => List.replicate 32 0, fun _ => true⟩
  obtain ⟨r, k, hr, hx, hm, hs, hpath⟩ := exExport_runs hC E [2] false (.inr rfl)
  refine ⟨C, E, r, k, hC, hr, hx, hm, ?_⟩
  intro W f2 path2 disk2 j hdisk hreads hl
  obtain ⟨-, -, c, hc, -, hc'⟩ := export_file hC hr hx hm (by simp [exExport])
  obtain ⟨p, key, c2, w, q1, q2, q3, q4, -, q5⟩ := load_ok hl
  rw [hreads.path] at q1
  cases q1
  rw [hdisk, hc, Option.some.injEq] at q2
  subst q2
  rcases q5 with q5 | ⟨-, -, -, pw, n, salt, -, -, -, q5⟩
  · cases q5
  · have hk : key = List.replicate 32 0 := q5
    subst hk
    have := hC.wrong exPFK (List.replicate 32 0) exKeysEnv.exportW.nonce
      (gobInst { k.inst with keys := k.inst.keys.filter (keyFilter unicode15 exKeysEnv.now (exExport [2] false).filter), messages := [] }) c.length (by decide) (by decide) (by decide)
    rw [← hc', List.take_length] at this
    rw [show (List.replicate 32 0 : List Nat).take 32 = List.replicate 32 0 by decide, this] at q4
    cases q4


/-- `keys --import` returns if both files can be loaded and all questions are answered -/
theorem keysImport_runs {C : Codec} (hC : C.Lawful) {E : PwEnv} {U : Unicode} {V : KeysEnv} {o : KeysCmd} {disk : Disk} {k j : Krypto} {f path key : List Nat}
    (hdel : o.delete = false) (hnew : o.newKeys = none) (himp : o.importFile = some f) (hexp : o.exportFile = none)
    (hp : (prepared E o.access o.file).1 = .ok ()) (hl : load C E V.loadW disk (prepared E o.access o.file).2 = some (.ok (), k))
    (hd : DistinctNames U (k.inst.keys.map (fun x => x.id.val))) (hg : k.inst.groupSize ≠ 0)
    (hj : load C E V.readW disk (incomingFor f) = some (.ok (), j)) (hdj : DistinctNames U (j.inst.keys.map (fun x => x.id.val))) (hans : ∀ x ∈ j.inst.keys, V.answer x ≠ none)
    (hr : Reads V.importW k path) (hroom : V.importW.room = none) (hkey : k.pfk = some key) (hlen : key.length = 32) :
    ∃ r, keysCommand C E U V o disk = some r := by
  have hop := prepared_opened hl
  obtain ⟨ha1, ha2⟩ := load_asks hl
  unfold keysCommand
  rw [if_neg (by simp [KeysCmd.any, himp]), openStore_ok hp hl,
    andThen_skip (f := keysDelete C E U V o) (fun s => by unfold keysDelete; rw [hdel]; rfl),
    andThen_skip (f := keysNew C E U V o) (fun s => by unfold keysNew; rw [hnew]), andThen_go,
    andThen_skip (f := keysExport C E U V o) (fun s => by unfold keysExport; rw [hexp])]
  unfold keysImport
  rw [himp]
  dsimp only
  have hinc : (newIncoming U k [.persistence f, .interactive true]) = ⟨incomingFor f, false, false⟩ := rfl
  have h0 : ¬ f.length = 0 := by
    intro h0
    unfold load at hj
    rw [if_pos h0] at hj
    simp at hj
  rw [if_neg h0]
  obtain ⟨new, keys, nx, e1, -⟩ := import_apart hop.apart (load_keepers hl) hd hg V.noise ⟨false, V.readW.terminal, V.answer⟩ (keyFilter U V.now o.filter)
    j.inst.keys j.inst.callSign hdj hans
  obtain ⟨n, e1⟩ : ∃ n, importKeys U V.noise ⟨false, V.readW.terminal, V.answer⟩ (keyFilter U V.now o.filter) (.ok (j.inst.keys, j.inst.callSign)) k.inst =
      (.ok (), n, { k.inst with keys := keys, nextAddr := nx }) := ⟨_, e1⟩
  have hf : importFrom C E V.readW U V.noise V.answer (keyFilter U V.now o.filter) [.persistence f, .interactive true] disk k =
      some (.ok (), n, { k with inst := { k.inst with keys := keys, nextAddr := nx } }) := by
    unfold importFrom
    rw [hinc]
    dsimp only
    rw [hj]
    dsimp only
    rw [ha1, ha2, Bool.true_and, e1]
    rfl
  rw [hf]
  dsimp only
  rw [check_ok rfl, andThen_go]
  obtain ⟨s', hd', -⟩ := saveStep_done hC (E := E) (W := V.importW) (s := ⟨disk, { k with inst := { k.inst with keys := keys, nextAddr := nx } }, [], []⟩)
    (path := path) (key := key) ⟨hr.named, hr.path, hr.stat, hr.opens⟩ hkey hlen hop.overwrite hroom
  rw [hd', andThen_go]
  generalize keysList U V o s' = c
  cases c with
  | stop oc s => exact ⟨_, rfl⟩
  | go s => exact ⟨_, rfl⟩

/-- every password leads to the example key -/
abbrev exKdf : PwEnv := ⟨fun _ _ => exPFK, fun _ => true⟩

/-- a terminal at which `[1]` is entered as password; the user refuses to replace keys -/
def exImportEnv : KeysEnv := { exKeysEnv with readW := { exWorld with terminal := true, inputs := [some [1]] }, answer := fun _ => some false }

/-- `keys --import [2]` -/
def exImport : KeysCmd := { access := exAccess, file := [1], importFile := some [2] }

/-- two stations with keys A, B and B, C -/
def exGiver : Inst := { exStation with callSign := lit "OP", keys := [exKey 1 "A" "QQQ", exKey 2 "B" "WWW"] }
def exTaker : Inst := { exStation with keys := [exKey 1 "B" "ZZZ", exKey 2 "C" "XXX"] }

/-- the example command returns on any disk with these two stores; what is loaded -/
theorem exImport_runs {C : Codec} (hC : C.Lawful) {disk : Disk} {own inc : Inst} (h1 : Stored C disk [1] exPFK own) (h2 : Stored C disk [2] exPFK inc)
    (hd1 : DistinctNames unicode15 (own.keys.map (fun x => x.id.val))) (hd2 : DistinctNames unicode15 (inc.keys.map (fun x => x.id.val))) (hg : own.groupSize ≠ 0) :
    ∃ r k j, keysCommand C exKdf unicode15 exImportEnv exImport disk = some r ∧ (prepared exKdf exImport.access exImport.file).1 = .ok () ∧
      load C exKdf exImportEnv.loadW disk (prepared exKdf exImport.access exImport.file).2 = some (.ok (), k) ∧
      load C exKdf exImportEnv.readW disk (incomingFor [2]) = some (.ok (), j) ∧ SameStore k.inst own ∧ SameStore j.inst inc ∧ Reads exImportEnv.importW k [1] ∧ k.pfk = some exPFK ∧
      DistinctNames unicode15 (k.inst.keys.map (fun x => x.id.val)) ∧ DistinctNames unicode15 (j.inst.keys.map (fun x => x.id.val)) := by
  have hpe : prepared exKdf exImport.access exImport.file = (.ok (), exOpen) := prepared_example exKdf
  have hp : (prepared exKdf exImport.access exImport.file).1 = .ok () := by rw [hpe]
  obtain ⟨k, hl, hs⟩ := h1 exKdf exImportEnv.loadW exOpen ⟨exOpen_blank.keys, exOpen_blank.messages, exOpen_blank.callSign, exOpen_blank.spareKeys, exOpen_blank.spareMsgs⟩
    ⟨by decide, rfl, rfl, rfl⟩ (.inl rfl)
  obtain ⟨salt, hs1, hs2⟩ := defaultSalt_decodes
  obtain ⟨j, hj, hs'⟩ := h2 exKdf exImportEnv.readW (incomingFor [2])
    ⟨newBase_blank.keys, newBase_blank.messages, newBase_blank.callSign, newBase_blank.spareKeys, newBase_blank.spareMsgs⟩ ⟨by simp, rfl, rfl, rfl⟩
    (.inr ⟨rfl, rfl, rfl, [1], [], salt, rfl, hs1, hs2, rfl⟩)
  have hl' : load C exKdf exImportEnv.loadW disk (prepared exKdf exImport.access exImport.file).2 = some (.ok (), k) := by rw [hpe]; exact hl
  have hpath : k.persistence = [1] ∧ k.pfk = some exPFK := by
    obtain ⟨p, key, c, w, q1, q2, q3, q4, rfl, q5⟩ := load_ok hl
    cases q1
    refine ⟨rfl, ?_⟩
    rcases q5 with q5 | ⟨q5, -⟩
    · exact q5.symm
    · cases q5
  have e1 : DistinctNames unicode15 (k.inst.keys.map (fun x => x.id.val)) := by rw [sameKeys_ids hs.keys]; exact hd1
  have e2 : DistinctNames unicode15 (j.inst.keys.map (fun x => x.id.val)) := by rw [sameKeys_ids hs'.keys]; exact hd2
  have hr : Reads exImportEnv.importW k [1] := ⟨by rw [hpath.1]; decide, by rw [hpath.1]; rfl, rfl, rfl⟩
  obtain ⟨r, hrun⟩ := keysImport_runs hC rfl rfl rfl rfl hp hl' e1 (by rw [hs.groupSize]; exact hg) hj e2 (fun _ _ => by simp [exImportEnv]) hr rfl hpath.2 (by decide)
  exact ⟨r, k, j, hrun, hp, hl', hj, hs, hs', hr, hpath.2, e1, e2⟩

/-- non-vacuity of C77: the station has B and C, the file A and B, and the user refuses to replace B: the store holds A, B and C afterwards -/
example (C : Codec) (hC : C.Lawful) : ∃ disk r ids, keysCommand C exKdf unicode15 exImportEnv exImport disk = some r ∧ r.outcome = .ok () ∧ ids.Perm [lit "A", lit "B", lit "C"] ∧
    ∃ i : Inst, Stored C r.state.disk [1] exPFK i ∧ i.keys.map (fun x => x.id.val) = ids := by
  let disk := (exDisk.set [1] (C.enc exPFK 0 (gobInst exTaker))).set [2] (C.enc exPFK 0 (gobInst exGiver))
  have h1 : Stored C disk [1] exPFK exTaker :=
    stored_of_dec (by decide) (by show (Disk.set _ [2] _) [1] = _; rw [set_other _ _ (by decide), set_same]) (hC.right _ _ _ (by decide)) (by decide) (by decide) (by decide) (by decide)
  have h2 : Stored C disk [2] exPFK exGiver :=
    stored_of_dec (by decide) (set_same _ _ _) (hC.right _ _ _ (by decide)) (by decide) (by decide) (by decide) (by decide)
  obtain ⟨r, k, j, hrun, hp, hl, hj, hs, hs', hr, hkey, e1, e2⟩ := exImport_runs hC h1 h2 (by decide) (by decide) (by decide)
  obtain ⟨-, H⟩ := C77_import hC hrun rfl rfl rfl rfl hp hl e1 (by rw [hs.groupSize]; decide)
  obtain ⟨hok, -, new, keys', f1, f2, f3⟩ := H j [1] exPFK hj e2 (fun _ _ => by simp [exImportEnv]) hr rfl hkey (by decide) (by rw [hs.keyLength]; decide) (by rw [hs.columns]; decide)
    (by rw [hs.keyColumns]; decide) (by simp [exImport])
  refine ⟨disk, r, _, hrun, hok rfl, ?_, _, f3, rfl⟩
  have hacc : (j.inst.keys.filter (fun x => decide (Accepts unicode15 ⟨false, exImportEnv.readW.terminal, exImportEnv.answer⟩ (keyFilter unicode15 exImportEnv.now exImport.filter) k.inst.groupSize
      (k.inst.keys.map (fun x => x.id.val)) x))).map (fun x => x.id.val) = [lit "A"] := by
    rw [hs.groupSize, sameKeys_ids hs.keys]
    have := forall₂_filter (p := fun x => decide (Accepts unicode15 ⟨false, exImportEnv.readW.terminal, exImportEnv.answer⟩ (keyFilter unicode15 exImportEnv.now exImport.filter) exTaker.groupSize
      (exTaker.keys.map (fun x => x.id.val)) x)) (q := fun x => decide (Accepts unicode15 ⟨false, exImportEnv.readW.terminal, exImportEnv.answer⟩ (keyFilter unicode15 exImportEnv.now exImport.filter)
      exTaker.groupSize (exTaker.keys.map (fun x => x.id.val)) x)) (fun a b h => by
        show decide (Accepts _ _ _ _ _ a) = decide (Accepts _ _ _ _ _ b)
        unfold Accepts
        simp only [h.id, keyFilter_same h]
        rfl) hs'.keys
    rw [sameKeys_ids this]
    decide
  have hnew : new.map (fun x => x.id.val) = [lit "A"] := by
    rw [← hacc]
    generalize j.inst.keys.filter _ = acc at f1
    clear f2 f3 hok hacc
    induction f1 with
    | nil => rfl
    | cons a _ ih => simp only [List.map_cons, ih, a.id]
  refine (f2.map (fun x => x.id.val)).trans ?_
  rw [List.map_append, hnew]
  have hk : (k.inst.keys.filter (fun x => !decide (InFold unicode15 x.id.val [lit "A"]))).map (fun x => x.id.val) = [lit "B", lit "C"] := by
    rw [sameKeys_ids (forall₂_filter (q := fun x => !decide (InFold unicode15 x.id.val [lit "A"])) (fun a b h => by rw [h.id]) hs.keys)]
    decide
  rw [hk]
  exact List.Perm.symm (List.perm_append_comm (l₁ := [lit "A"]) (l₂ := [lit "B", lit "C"]))

/-- non-vacuity of C78: key A is exported, and imported by a station that has B and C -/
example (C : Codec) (hC : C.Lawful) : ∃ disk disk2 r r' ids, keysCommand C exKdf unicode15 exKeysEnv (exExport [2] false) disk = some r ∧ disk2 [2] = r.state.disk [2] ∧ r.state.disk [1] = disk [1] ∧
    keysCommand C exKdf unicode15 exImportEnv exImport disk2 = some r' ∧ r'.outcome = .ok () ∧ ids.Perm [lit "B", lit "C", lit "A"] ∧
    ∃ i : Inst, Stored C r'.state.disk [1] exPFK i ∧ i.keys.map (fun x => x.id.val) = ids := by
  obtain ⟨r, k, hr, hx, hm, hs, hpath⟩ := exExport_runs hC exKdf [2] false (.inr rfl)
  obtain ⟨-, -, c, hc, hd, -⟩ := export_file hC hr hx hm (by simp [exExport])
  have hk : (k.inst.keys.filter (keyFilter unicode15 exKeysEnv.now (exExport [2] false).filter)).map (fun x => x.id.val) = [lit "A"] := by
    rw [sameKeys_ids (forall₂_filter (q := keyFilter unicode15 exKeysEnv.now (exExport [2] false).filter) (fun a b h => keyFilter_same h) hs.keys)]
    decide
  let disk2 := (exDisk.set [1] (C.enc exPFK 0 (gobInst exTaker))).set [2] c
  have h1 : Stored C disk2 [1] exPFK exTaker :=
    stored_of_dec (by decide) (by show (Disk.set _ [2] _) [1] = _; rw [set_other _ _ (by decide), set_same]) (hC.right _ _ _ (by decide)) (by decide) (by decide) (by decide) (by decide)
  have h2 := stored_of_dec (disk := disk2) (path := [2]) hx.length (set_same _ _ _) hd hx.sizes.1 hx.sizes.2.1 hx.sizes.2.2.1 hx.sizes.2.2.2
  obtain ⟨r', k', j, hrun, hp, hl, hj, hs1, hs2, hr1, hkey, e1, e2⟩ := exImport_runs hC h1 h2 (by decide) (by dsimp only; rw [hk]; decide) (by decide)
  have hids := sameKeys_ids hs.keys
  obtain ⟨q1, q2⟩ := C78_partial (V' := exImportEnv) (o' := exImport) (disk2 := disk2) hC hr hx hm (by simp [exExport]) (by rw [hpath]; decide) (by simp [exExport]) (by rw [hids]; decide)
  obtain ⟨salt, hs1', hs2'⟩ := defaultSalt_decodes
  obtain ⟨p1, new, keys', p2, p3, p4⟩ := q2 (pw := [1]) hs1' rfl ((set_same _ _ _).trans hc.symm) ⟨by simp, rfl, rfl, rfl⟩ rfl rfl hrun rfl rfl rfl rfl hp hl e1
    (by rw [hs1.groupSize]; decide) (fun _ => by simp [exImportEnv]) (by
      rw [hs1.groupSize, sameKeys_ids hs1.keys]
      intro x hx
      have : x.id.val ∈ [lit "A"] := by rw [← hk]; exact List.mem_map.2 ⟨x, hx, rfl⟩
      rw [List.mem_singleton.1 this]
      decide) hr1 rfl hkey (by decide) (by rw [hs1.keyLength]; decide) (by rw [hs1.columns]; decide) (by rw [hs1.keyColumns]; decide) rfl
  refine ⟨exStoreDisk C, disk2, r, r', _, hr, (set_same _ _ _).trans hc.symm, by rw [hpath] at q1; exact q1, hrun, p1, ?_, _, p4, rfl⟩
  have hnew : new.map (fun x => x.id.val) = [lit "A"] := by
    have : ((k.inst.keys.filter (keyFilter unicode15 exKeysEnv.now (exExport [2] false).filter)).filter (keyFilter unicode15 exImportEnv.now exImport.filter)).map (fun x => x.id.val) = [lit "A"] := by
      rw [List.filter_eq_self (p := keyFilter unicode15 exImportEnv.now exImport.filter).2 (fun x _ => rfl), hk]
    rw [← this]
    generalize List.filter (keyFilter unicode15 exImportEnv.now exImport.filter) _ = acc at p3
    clear p4 p2 this
    induction p3 with
    | nil => rfl
    | cons a _ ih => simp only [List.map_cons, ih, a.id]
  refine (p2.map (fun x => x.id.val)).trans ?_
  rw [List.map_append, hnew, sameKeys_ids hs1.keys]
  decide

end K431
