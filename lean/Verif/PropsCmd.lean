import Verif.CliLemmas
import Verif.CmdEx

/-!
# Properties of the commands: C54, C57, C58
-/

namespace K431
open Spec

/-! ## C54: deleting without being asked -/

/-- **C54**.  The command `keys --delete --yes`, with any filters, with or without `--list`, on a file whose key ids differ up to case.  If no id of a key
in the file is listed with `--id` (in particular if `--id` is not given), no file is touched.  Otherwise there is one attempt to save; if the file can be
written completely, it is rewritten and holds, under the same file key, exactly the keys not listed, and everything else as before. -/
theorem C54_keys {C : Codec} (hC : C.Lawful) {E : PwEnv} {U : Unicode} (hU : U.Lawful) {V : KeysEnv} {o : KeysCmd} {disk : Disk} {r : Course} {k : Krypto}
    (h : keysCommand C E U V o disk = some r) (hdel : o.delete = true) (hyes : o.yes = true)
    (hnew : o.newKeys = none) (himp : o.importFile = none) (hexp : o.exportFile = none) (hout : o.output = none)
    (hp : (prepared E o.access o.file).1 = .ok ()) (hl : load C E V.loadW disk (prepared E o.access o.file).2 = some (.ok (), k))
    (hd : DistinctNames U (k.inst.keys.map (fun x => x.id.val))) :
    ((∀ x ∈ k.inst.keys, ¬ InFold U x.id.val (vettedKeepers U o.filter.ids)) → r.outcome = .ok () ∧ r.state.disk = disk ∧ r.state.touched = []) ∧
    ((∃ x ∈ k.inst.keys, InFold U x.id.val (vettedKeepers U o.filter.ids)) → ∃ t, r.state.touched = [t] ∧
      ∀ path key, Reads V.deleteW k path → V.deleteW.room = none → k.pfk = some key → key.length = 32 →
        k.inst.groupSize ≠ 0 → k.inst.keyLength ≠ 0 → k.inst.columns ≠ 0 → k.inst.keyColumns ≠ 0 →
        r.outcome = .ok () ∧ t.path = path ∧ t.contents ≠ [] ∧
        ∃ rest : List Key, rest.Perm (k.inst.keys.filter (fun x => !decide (InFold U x.id.val (vettedKeepers U o.filter.ids)))) ∧
          Stored C r.state.disk path key { k.inst with keys := rest }) := by
  have hop := prepared_opened hl
  obtain ⟨e1, e2, e3⟩ := deleteKey_apart hop.apart hd V.noise (vettedKeepers U o.filter.ids) (not_inFold_nil hU _)
  unfold keysCommand at h
  rw [if_neg (by simp [KeysCmd.any, hdel]), openStore_ok hp hl, andThen_go] at h
  simp only [keysDelete, hdel, hyes, if_true, Bool.not_true, Bool.false_eq_true, if_false] at h
  have hnone : ∀ s : Cmd, keysNew C E U V o s = some (.go s) := fun s => by unfold keysNew; rw [hnew]
  have hinone : ∀ s : Cmd, keysImport C E U V o s = some (.go s) := fun s => by unfold keysImport; rw [himp]
  have hxnone : ∀ s : Cmd, keysExport C E U V o s = some (.go s) := fun s => by unfold keysExport; rw [hexp]
  constructor
  · intro hno
    have h0 : (deleteKey U V.noise k.inst (vettedKeepers U o.filter.ids)).1 = 0 := by
      rw [e2, List.length_eq_zero_iff, List.filter_eq_nil_iff]
      intro x hx; simpa using hno x hx
    by_cases hlen : k.inst.keys.length = 0
    · rw [if_pos hlen] at h
      simp only [andThen_stop, Option.some.injEq] at h
      subst h; exact ⟨rfl, rfl, rfl⟩
    · rw [if_neg hlen, h0, if_neg (by omega), andThen_go, hnone, andThen_go, hinone, andThen_go, hxnone] at h
      obtain ⟨⟨p, a⟩, b⟩ := keysRest hout _ h
      exact ⟨b, by rw [a], by rw [a]⟩
  · rintro ⟨x, hx, hi⟩
    have hpos : (deleteKey U V.noise k.inst (vettedKeepers U o.filter.ids)).1 > 0 := by
      rw [e2]
      exact List.length_pos_of_mem (List.mem_filter.2 ⟨hx, by simpa using hi⟩)
    rw [if_neg (by have := List.length_pos_of_mem hx; omega), if_pos hpos] at h
    generalize hs : ({ disk := disk, k := { k with inst := (deleteKey U V.noise k.inst (vettedKeepers U o.filter.ids)).2 }, touched := [], printed := [] } : Cmd) = s at h
    have hsk : s.k = { k with inst := (deleteKey U V.noise k.inst (vettedKeepers U o.filter.ids)).2 } := by rw [← hs]
    have htk : s.touched = [] := by rw [← hs]
    cases hsv : saveStep C E V.deleteW s with
    | none => rw [hsv] at h; simp [andThen] at h
    | some q =>
      obtain ⟨run, hrun, hq⟩ := saveStep_some hsv
      have hrs : (∃ p, r.state = { s.saved run with printed := p }) ∧ (r.outcome = run.outcome) := by
        rw [hsv, hq] at h
        by_cases hok : run.outcome = .ok ()
        · rw [check_ok hok, andThen_go, hnone, andThen_go, hinone, andThen_go, hxnone] at h
          obtain ⟨a, b⟩ := keysRest hout _ h
          exact ⟨a, b.trans hok.symm⟩
        · rw [check_stop hok] at h
          simp only [andThen_stop, Option.some.injEq] at h
          subst h; exact ⟨⟨_, rfl⟩, rfl⟩
      obtain ⟨⟨p, hrp⟩, hrs⟩ := hrs
      refine ⟨⟨run.k.persistence, run.contents⟩, by rw [hrp]; simp [Cmd.saved, htk], ?_⟩
      intro path key hr hroom hkey hlen h0 h1 h2 h3
      obtain ⟨s', hdone, ⟨cs, hcs, ht⟩, -, -, -, hst⟩ := saveStep_done hC (E := E) (s := s) (path := path) (key := key)
        (by rw [hsk]; exact ⟨hr.named, hr.path, hr.stat, hr.opens⟩) (by rw [hsk]; exact hkey) hlen (by rw [hsk]; exact hop.overwrite) hroom
      rw [hsv, Option.some.injEq] at hdone
      have hstate : s.saved run = s' := by rw [← check_state run.outcome (s.saved run), ← hq, hdone]; rfl
      have hout2 : run.outcome = .ok () := by rw [← check_outcome run.outcome (s.saved run), ← hq, hdone]; rfl
      rw [← hstate] at ht
      simp only [Cmd.saved, List.append_cancel_left_eq, List.cons.injEq, Touch.mk.injEq, and_true] at ht
      have hsi : s.k.inst = { k.inst with keys := (deleteKey U V.noise k.inst (vettedKeepers U o.filter.ids)).2.keys } := by
        rw [hsk]; exact e3
      refine ⟨hrs.trans hout2, ht.1, by rw [ht.2]; exact hcs, _, e1, ?_⟩
      have := hst (by rw [hsi]; exact h0) (by rw [hsi]; exact h1) (by rw [hsi]; exact h2) (by rw [hsi]; exact h3)
      rw [hrp, hstate]
      rw [hsi] at this
      exact this

/-- non-vacuity of `C54_keys`: `keys --delete --yes --id a,x` on this file satisfies all assumptions; a key is listed -/
example {C : Codec} (hC : C.Lawful) (E : PwEnv) : let o : KeysCmd := { file := [1], access := exAccess, delete := true, yes := true, filter := { ids := [lit "a,x"] } }
    ∃ r k, keysCommand C E unicode15 exKeysEnv o (exStoreDisk C) = some r ∧ (prepared E o.access o.file).1 = .ok () ∧
      load C E exKeysEnv.loadW (exStoreDisk C) (prepared E o.access o.file).2 = some (.ok (), k) ∧ DistinctNames unicode15 (k.inst.keys.map (fun x => x.id.val)) ∧
      (∃ x ∈ k.inst.keys, InFold unicode15 x.id.val (vettedKeepers unicode15 o.filter.ids)) ∧ Reads exKeysEnv.deleteW k [1] ∧ exKeysEnv.deleteW.room = none ∧
      k.pfk = some exPFK ∧ k.inst.groupSize ≠ 0 ∧ k.inst.keyLength ≠ 0 ∧ k.inst.columns ≠ 0 ∧ k.inst.keyColumns ≠ 0 ∧
      k.inst.keys.map (fun x => decide (InFold unicode15 x.id.val (vettedKeepers unicode15 o.filter.ids))) = [true, false, false] := by
  intro o
  obtain ⟨k, hl, hs, hk, hpath⟩ := load_exStore hC E exStore 0 (by decide) (by decide) (by decide) (by decide)
  have hp : (prepared E o.access o.file).1 = .ok () := by rw [show o.access = exAccess from rfl, show o.file = [1] from rfl, prepared_example]
  obtain ⟨r, hr⟩ := keysCommand_runs (C := C) (E := E) (U := unicode15) (V := exKeysEnv) (o := o) (disk := exStoreDisk C) rfl rfl rfl rfl rfl hp hl
  have hid := sameStore_ids hs
  have hm : k.inst.keys.map (fun x => decide (InFold unicode15 x.id.val (vettedKeepers unicode15 o.filter.ids))) = [true, false, false] := by
    have : k.inst.keys.map (fun x => decide (InFold unicode15 x.id.val (vettedKeepers unicode15 o.filter.ids))) =
        (k.inst.keys.map (fun x => x.id.val)).map (fun i => decide (InFold unicode15 i (vettedKeepers unicode15 o.filter.ids))) := by
      rw [List.map_map]; rfl
    rw [this, hid]
    decide +kernel
  refine ⟨r, k, hr, hp, hl, by rw [hid]; decide, ?_, ⟨by simp [hpath], by rw [hpath]; rfl, rfl, rfl⟩, rfl, hk, by rw [hs.groupSize]; decide,
    by rw [hs.keyLength]; decide, by rw [hs.columns]; decide, by rw [hs.keyColumns]; decide, hm⟩
  have : true ∈ k.inst.keys.map (fun x => decide (InFold unicode15 x.id.val (vettedKeepers unicode15 o.filter.ids))) := by rw [hm]; simp
  obtain ⟨x, hx, h⟩ := List.mem_map.1 this
  exact ⟨x, hx, by simpa using h⟩

/-- **C54** for messages: the command `messages --delete --yes`, with any filters, with or without `--list`, on a file whose message ids differ.  If no id
of a message in the file is listed with `--id`, no file is touched.  Otherwise there is one attempt to save; if the file can be written completely, it
is rewritten and holds, under the same file key, exactly the messages not listed, and everything else as before. -/
theorem C54_messages {C : Codec} (hC : C.Lawful) {E : PwEnv} {U : Unicode} {V : MsgsEnv} {o : MsgsCmd} {disk : Disk} {r : Course} {k : Krypto}
    (h : messagesCommand C E U V o disk = some r) (hdel : o.delete = true) (hyes : o.yes = true) (hnew : o.new = false) (hout : o.output = none)
    (hp : (prepared E o.access o.file).1 = .ok ()) (hl : load C E V.loadW disk (prepared E o.access o.file).2 = some (.ok (), k))
    (hd : (k.inst.messages.map Msg.id).Nodup) :
    ((∀ m ∈ k.inst.messages, m.id ∉ vettedMessageIds U o.filter.ids) →
      (o.list = false → r.outcome = .ok ()) ∧ r.state.disk = disk ∧ r.state.touched = []) ∧
    ((∃ m ∈ k.inst.messages, m.id ∈ vettedMessageIds U o.filter.ids) → ∃ t, r.state.touched = [t] ∧
      ∀ path key, Reads V.deleteW k path → V.deleteW.room = none → k.pfk = some key → key.length = 32 →
        k.inst.groupSize ≠ 0 → k.inst.keyLength ≠ 0 → k.inst.columns ≠ 0 → k.inst.keyColumns ≠ 0 →
        (o.list = false → r.outcome = .ok ()) ∧ t.path = path ∧ t.contents ≠ [] ∧
        ∃ rest : List Msg, rest.Perm (k.inst.messages.filter (fun m => !decide (m.id ∈ vettedMessageIds U o.filter.ids))) ∧
          Stored C r.state.disk path key { k.inst with messages := rest }) := by
  have hop := prepared_opened hl
  obtain ⟨e1, e2, e3⟩ := deleteMessage_apart hop.apart hd V.noise (vettedMessageIds U o.filter.ids)
  unfold messagesCommand at h
  rw [if_neg (by simp [MsgsCmd.any, hdel]), openStore_ok hp hl, andThen_go] at h
  simp only [messagesDelete, hdel, hyes, if_true, Bool.not_true, Bool.false_eq_true, if_false] at h
  have hnone : ∀ s : Cmd, messagesNew C E U V o s = some (.go s) := fun s => by unfold messagesNew; rw [hnew]; rfl
  constructor
  · intro hno
    have h0 : (deleteMessage V.noise k.inst (vettedMessageIds U o.filter.ids)).1 = 0 := by
      rw [e2, List.length_eq_zero_iff, List.filter_eq_nil_iff]
      intro x hx; simpa using hno x hx
    by_cases hlen : k.inst.messages.length = 0
    · rw [if_pos hlen] at h
      simp only [andThen_stop, Option.some.injEq] at h
      subst h; exact ⟨fun _ => rfl, rfl, rfl⟩
    · rw [if_neg hlen, h0, if_neg (by omega), andThen_go, hnone] at h
      obtain ⟨a, b, c⟩ := messagesRest hout _ h
      exact ⟨c, a, b⟩
  · rintro ⟨x, hx, hi⟩
    have hpos : (deleteMessage V.noise k.inst (vettedMessageIds U o.filter.ids)).1 > 0 := by
      rw [e2]
      exact List.length_pos_of_mem (List.mem_filter.2 ⟨hx, by simpa using hi⟩)
    rw [if_neg (by have := List.length_pos_of_mem hx; omega), if_pos hpos] at h
    generalize hs : ({ disk := disk, k := { k with inst := (deleteMessage V.noise k.inst (vettedMessageIds U o.filter.ids)).2 }, touched := [], printed := [] } : Cmd) = s at h
    have hsk : s.k = { k with inst := (deleteMessage V.noise k.inst (vettedMessageIds U o.filter.ids)).2 } := by rw [← hs]
    have htk : s.touched = [] := by rw [← hs]
    cases hsv : saveStep C E V.deleteW s with
    | none => rw [hsv] at h; simp [andThen] at h
    | some q =>
      obtain ⟨run, hrun, hq⟩ := saveStep_some hsv
      have hrs : r.state.disk = (s.saved run).disk ∧ r.state.touched = (s.saved run).touched ∧ (run.outcome = .ok () → o.list = false → r.outcome = .ok ()) := by
        rw [hsv, hq] at h
        by_cases hok : run.outcome = .ok ()
        · rw [check_ok hok, andThen_go, hnone] at h
          obtain ⟨a, b, c⟩ := messagesRest hout _ h
          exact ⟨a, b, fun _ => c⟩
        · rw [check_stop hok] at h
          simp only [andThen_stop, Option.some.injEq] at h
          subst h; exact ⟨rfl, rfl, fun h => absurd h hok⟩
      refine ⟨⟨run.k.persistence, run.contents⟩, by rw [hrs.2.1]; simp [Cmd.saved, htk], ?_⟩
      intro path key hr hroom hkey hlen h0 h1 h2 h3
      obtain ⟨s', hdone, ⟨cs, hcs, ht⟩, -, -, -, hst⟩ := saveStep_done hC (E := E) (s := s) (path := path) (key := key)
        (by rw [hsk]; exact ⟨hr.named, hr.path, hr.stat, hr.opens⟩) (by rw [hsk]; exact hkey) hlen (by rw [hsk]; exact hop.overwrite) hroom
      rw [hsv, Option.some.injEq] at hdone
      have hstate : s.saved run = s' := by rw [← check_state run.outcome (s.saved run), ← hq, hdone]; rfl
      have hout2 : run.outcome = .ok () := by rw [← check_outcome run.outcome (s.saved run), ← hq, hdone]; rfl
      rw [← hstate] at ht
      simp only [Cmd.saved, List.append_cancel_left_eq, List.cons.injEq, Touch.mk.injEq, and_true] at ht
      have hsi : s.k.inst = { k.inst with messages := (deleteMessage V.noise k.inst (vettedMessageIds U o.filter.ids)).2.messages } := by
        rw [hsk]; exact e3
      refine ⟨hrs.2.2 hout2, ht.1, by rw [ht.2]; exact hcs, _, e1, ?_⟩
      have := hst (by rw [hsi]; exact h0) (by rw [hsi]; exact h1) (by rw [hsi]; exact h2) (by rw [hsi]; exact h3)
      rw [hrs.1, hstate]
      rw [hsi] at this
      exact this

/-- non-vacuity of `C54_messages`: `messages --delete --yes --id X1,Y` on a file with the messages X1 and X2 -/
example {C : Codec} (hC : C.Lawful) (E : PwEnv) : let o : MsgsCmd := { file := [1], access := exAccess, delete := true, yes := true, filter := { ids := [lit "X1,Y"] } }
    ∃ r k, messagesCommand C E unicode15 exMsgsEnv o (exMsgsDisk C) = some r ∧ (prepared E o.access o.file).1 = .ok () ∧
      load C E exMsgsEnv.loadW (exMsgsDisk C) (prepared E o.access o.file).2 = some (.ok (), k) ∧ (k.inst.messages.map Msg.id).Nodup ∧
      (∃ m ∈ k.inst.messages, m.id ∈ vettedMessageIds unicode15 o.filter.ids) ∧ Reads exMsgsEnv.deleteW k [1] ∧ exMsgsEnv.deleteW.room = none ∧
      k.pfk = some exPFK ∧ k.inst.groupSize ≠ 0 ∧ k.inst.keyLength ≠ 0 ∧ k.inst.columns ≠ 0 ∧ k.inst.keyColumns ≠ 0 ∧
      k.inst.messages.map Msg.id = [lit "X1", lit "X2"] := by
  intro o
  obtain ⟨k, hl, hs, hk, hpath⟩ := load_exStore hC E exMsgsStore 0 (by decide) (by decide) (by decide) (by decide)
  have hp : (prepared E o.access o.file).1 = .ok () := by rw [show o.access = exAccess from rfl, show o.file = [1] from rfl, prepared_example]
  obtain ⟨r, hr⟩ := messagesCommand_runs (C := C) (E := E) (U := unicode15) (V := exMsgsEnv) (o := o) (disk := exMsgsDisk C) rfl rfl rfl hp hl
  have hid := sameStore_msgIds hs
  have hm : k.inst.messages.map Msg.id = [lit "X1", lit "X2"] := by rw [hid]; decide
  refine ⟨r, k, hr, hp, hl, by rw [hm]; decide, ?_, ⟨by simp [hpath], by rw [hpath]; rfl, rfl, rfl⟩, rfl, hk, by rw [hs.groupSize]; decide,
    by rw [hs.keyLength]; decide, by rw [hs.columns]; decide, by rw [hs.keyColumns]; decide, hm⟩
  have : lit "X1" ∈ k.inst.messages.map Msg.id := by rw [hm]; simp
  obtain ⟨x, hx, h⟩ := List.mem_map.1 this
  exact ⟨x, hx, by rw [h]; decide +kernel⟩

end K431
