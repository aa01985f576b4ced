import Verif.GoneCmd

/-!
# C128: what has been deleted leaves no trace in the file
-/

namespace K431
open Spec

/-- **C128**, in memory: on a store as it is opened from a file, `DeleteKey` and `DeleteMessage` forget everything about what they delete.  For two stores that are the same but for the keys and messages to be
deleted, they delete as many, and what is left is the same, in the same order, and is encoded alike for the file. -/
theorem C128_store (U : Unicode) (noise noise' : Nat → Noise) (mnoise mnoise' : Nat → Nat → Rune) (kids mids : List Runes) (x y : Inst) (hx : Apart x) (hy : Apart y) :
    (DistinctNames U (x.keys.map (fun k => k.id.val)) → SameBut U kids [] x y →
      (deleteKey U noise x kids).1 = (deleteKey U noise' y kids).1 ∧ gobInst (deleteKey U noise x kids).2 = gobInst (deleteKey U noise' y kids).2) ∧
    ((x.messages.map Msg.id).Nodup → SameBut U [] mids x y →
      (deleteMessage mnoise x mids).1 = (deleteMessage mnoise' y mids).1 ∧ gobInst (deleteMessage mnoise x mids).2 = gobInst (deleteMessage mnoise' y mids).2) := by
  constructor
  · intro hd h
    obtain ⟨a, b⟩ := deleteKey_forgets kids noise noise' x y [] hx hy hd h
    exact ⟨a, gobInst_same b⟩
  · intro hd h
    obtain ⟨a, b⟩ := deleteMessage_forgets mids mnoise mnoise' x y [] hx hy hd h
    exact ⟨a, gobInst_same b⟩

/-- **C128**, in the file: `keys --delete --yes` with the ids of keys of the store, run on two files that are the same but for these keys (their letters, keepers, times, marks and comments), ends in the same way, and
everything that is ever written is the same: nothing can be learned from the file about the keys deleted. -/
theorem C128_keys {C : Codec} {E : PwEnv} {U : Unicode} (hU : U.Lawful) {V : KeysEnv} {noise' : Nat → Noise} {o : KeysCmd} {disk disk' : Disk} {r r' : Course} {k k' : Krypto}
    (h : keysCommand C E U V o disk = some r) (h' : keysCommand C E U { V with noise := noise' } o disk' = some r') (hdel : o.delete = true) (hyes : o.yes = true)
    (hnew : o.newKeys = none) (himp : o.importFile = none) (hexp : o.exportFile = none) (hout : o.output = none)
    (hp : (prepared E o.access o.file).1 = .ok ()) (hl : load C E V.loadW disk (prepared E o.access o.file).2 = some (.ok (), k))
    (hl' : load C E V.loadW disk' (prepared E o.access o.file).2 = some (.ok (), k')) (hf : SameFile k k')
    (hd : DistinctNames U (k.inst.keys.map (fun x => x.id.val))) (hex : ∃ x ∈ k.inst.keys, InFold U x.id.val (vettedKeepers U o.filter.ids))
    (hs : SameBut U (vettedKeepers U o.filter.ids) [] k.inst k'.inst) :
    r.outcome = r'.outcome ∧ r.state.touched = r'.state.touched ∧ ∀ t ∈ r.state.touched, t.contents ≠ [] → r.state.disk t.path = r'.state.disk t.path := by
  have hop := prepared_opened hl
  have hop' := prepared_opened hl'
  have hids := sameBut_ids hs
  have hd' : DistinctNames U (k'.inst.keys.map (fun x => x.id.val)) := by rw [← hids]; exact hd
  have hex' : ∃ x ∈ k'.inst.keys, InFold U x.id.val (vettedKeepers U o.filter.ids) := by
    obtain ⟨x, hx, hi⟩ := hex
    have : x.id.val ∈ k'.inst.keys.map (fun x => x.id.val) := by rw [← hids]; exact List.mem_map.2 ⟨x, hx, rfl⟩
    obtain ⟨y, hy, e⟩ := List.mem_map.1 this
    exact ⟨y, hy, by rw [e]; exact hi⟩
  obtain ⟨q, hq, a1, a2, a3⟩ := keysDelete_course hU h hdel hyes hnew himp hexp hout hp hl hd hex
  obtain ⟨q', hq', b1, b2, b3⟩ := keysDelete_course hU h' hdel hyes hnew himp hexp hout hp hl' hd' hex'
  obtain ⟨key, -, -, hkey, -⟩ := hop.key
  obtain ⟨-, hg⟩ := (C128_store U V.noise noise' (fun _ _ => 0) (fun _ _ => 0) _ [] _ _ hop.apart hop'.apart).1 hd hs
  obtain ⟨p, p', e1, e2, f1, f2, f3⟩ := save_same (C := C) (E := E) (W := V.deleteW) (disk := disk) (disk' := disk')
    (k := { k with inst := (deleteKey U V.noise k.inst (vettedKeepers U o.filter.ids)).2 }) (k' := { k' with inst := (deleteKey U noise' k'.inst (vettedKeepers U o.filter.ids)).2 })
    (key := key) hop.overwrite hop'.overwrite hkey (by rw [← hf.key] ; exact hkey) hf.name hg
  rw [hq] at e1
  rw [show save C E V.deleteW disk' { k' with inst := (deleteKey U noise' k'.inst (vettedKeepers U o.filter.ids)).2 } = some q' from hq'] at e2
  cases e1; cases e2
  refine ⟨by rw [a1, b1, f1], by rw [a3, b3, f2, f3], ?_⟩
  intro t ht hne
  rw [a3] at ht
  rw [a2, b2]
  exact disk_alike f2 f3 disk disk' ht hne

/-- the example file with another text of key A -/
def exSecond : Inst := ⟨5, 350, 110, 30, [exKey 1 "A" "ZXCV", exKey 2 "B" "W", exKey 3 "C" "E"], [], lit "SA", 4⟩

theorem exSecond_same : SameBut unicode15 (vettedKeepers unicode15 [lit "a,x"]) [] exStore exSecond :=
  ⟨rfl, rfl, rfl, rfl, rfl, .cons ⟨rfl, .inr (by decide +kernel)⟩ (.cons ⟨rfl, .inl ⟨rfl, rfl, rfl, rfl, rfl, rfl, rfl, rfl⟩⟩ (.cons ⟨rfl, .inl ⟨rfl, rfl, rfl, rfl, rfl, rfl, rfl, rfl⟩⟩ .nil)), .nil⟩

/-- non-vacuity of `C128_keys`: `keys --delete --yes --id a,x` on two files that differ in the text of key A satisfies all assumptions; the files opened do differ -/
example {C : Codec} (hC : C.Lawful) (E : PwEnv) : let o : KeysCmd := { file := [1], access := exAccess, delete := true, yes := true, filter := { ids := [lit "a,x"] } }
    let disk' := exDisk.set [1] (C.enc exPFK 0 (gobInst exSecond))
    ∃ r r' k k', keysCommand C E unicode15 exKeysEnv o (exStoreDisk C) = some r ∧ keysCommand C E unicode15 exKeysEnv o disk' = some r' ∧ (prepared E o.access o.file).1 = .ok () ∧
      load C E exKeysEnv.loadW (exStoreDisk C) (prepared E o.access o.file).2 = some (.ok (), k) ∧ load C E exKeysEnv.loadW disk' (prepared E o.access o.file).2 = some (.ok (), k') ∧
      SameFile k k' ∧ DistinctNames unicode15 (k.inst.keys.map (fun x => x.id.val)) ∧ (∃ x ∈ k.inst.keys, InFold unicode15 x.id.val (vettedKeepers unicode15 o.filter.ids)) ∧
      SameBut unicode15 (vettedKeepers unicode15 o.filter.ids) [] k.inst k'.inst ∧ ¬ SameStore k.inst k'.inst := by
  intro o disk'
  obtain ⟨k, hl, hs, hk, hpath⟩ := load_exStore hC E exStore 0 (by decide) (by decide) (by decide) (by decide)
  obtain ⟨k', hl', hs', hk', hpath'⟩ := load_exStore hC E exSecond 0 (by decide) (by decide) (by decide) (by decide)
  have hp : (prepared E o.access o.file).1 = .ok () := by rw [show o.access = exAccess from rfl, show o.file = [1] from rfl, prepared_example]
  obtain ⟨r, hr⟩ := keysCommand_runs (C := C) (E := E) (U := unicode15) (V := exKeysEnv) (o := o) (disk := exStoreDisk C) rfl rfl rfl rfl rfl hp hl
  obtain ⟨r', hr'⟩ := keysCommand_runs (C := C) (E := E) (U := unicode15) (V := exKeysEnv) (o := o) (disk := disk') rfl rfl rfl rfl rfl hp hl'
  have hid := sameStore_ids hs
  refine ⟨r, r', k, k', hr, hr', hp, hl, hl', ⟨hpath.trans hpath'.symm, hk.trans hk'.symm⟩, by rw [hid]; decide, ?_, SameBut_between hs hs' exSecond_same, ?_⟩
  · have : lit "A" ∈ k.inst.keys.map (fun x => x.id.val) := by rw [hid]; decide
    obtain ⟨x, hx, h⟩ := List.mem_map.1 this
    exact ⟨x, hx, by rw [h]; decide +kernel⟩
  · intro h
    have h1 := hs.keys
    have h2 := hs'.keys
    have h3 := h.keys
    generalize k.inst.keys = p at h1 h3
    generalize k'.inst.keys = q at h2 h3
    cases h1 with
    | cons f1 _ =>
    cases h2 with
    | cons f2 _ =>
    cases h3 with
    | cons f3 _ =>
      exact absurd (f1.runes.symm.trans (f3.runes.trans f2.runes)) (by decide)

/-- **C128** for `messages --delete --yes`. -/
theorem C128_messages {C : Codec} {E : PwEnv} {U : Unicode} {V : MsgsEnv} {noise' : Nat → Nat → Rune} {o : MsgsCmd} {disk disk' : Disk} {r r' : Course} {k k' : Krypto}
    (h : messagesCommand C E U V o disk = some r) (h' : messagesCommand C E U { V with noise := noise' } o disk' = some r') (hdel : o.delete = true) (hyes : o.yes = true)
    (hnew : o.new = false) (hout : o.output = none)
    (hp : (prepared E o.access o.file).1 = .ok ()) (hl : load C E V.loadW disk (prepared E o.access o.file).2 = some (.ok (), k))
    (hl' : load C E V.loadW disk' (prepared E o.access o.file).2 = some (.ok (), k')) (hf : SameFile k k')
    (hd : (k.inst.messages.map Msg.id).Nodup) (hex : ∃ m ∈ k.inst.messages, m.id ∈ vettedMessageIds U o.filter.ids)
    (hs : SameBut U [] (vettedMessageIds U o.filter.ids) k.inst k'.inst) :
    r.state.touched = r'.state.touched ∧ ∀ t ∈ r.state.touched, t.contents ≠ [] → r.state.disk t.path = r'.state.disk t.path := by
  have hop := prepared_opened hl
  have hop' := prepared_opened hl'
  have hids : k.inst.messages.map Msg.id = k'.inst.messages.map Msg.id := by
    have := hs.messages
    generalize k.inst.messages = l at this
    generalize k'.inst.messages = m at this
    induction this with
    | nil => rfl
    | cons a _ ih => simp only [List.map_cons, ih, a.1]
  have hd' : (k'.inst.messages.map Msg.id).Nodup := by rw [← hids]; exact hd
  have hex' : ∃ x ∈ k'.inst.messages, x.id ∈ vettedMessageIds U o.filter.ids := by
    obtain ⟨x, hx, hi⟩ := hex
    have : x.id ∈ k'.inst.messages.map Msg.id := by rw [← hids]; exact List.mem_map.2 ⟨x, hx, rfl⟩
    obtain ⟨y, hy, e⟩ := List.mem_map.1 this
    exact ⟨y, hy, by rw [e]; exact hi⟩
  obtain ⟨q, hq, a2, a3⟩ := messagesDelete_course h hdel hyes hnew hout hp hl hd hex
  obtain ⟨q', hq', b2, b3⟩ := messagesDelete_course h' hdel hyes hnew hout hp hl' hd' hex'
  obtain ⟨key, -, -, hkey, -⟩ := hop.key
  obtain ⟨-, hg⟩ := (C128_store U (fun _ => ⟨fun _ _ => 0, fun _ _ => 0⟩) (fun _ => ⟨fun _ _ => 0, fun _ _ => 0⟩) V.noise noise' [] _ _ _ hop.apart hop'.apart).2 hd hs
  obtain ⟨p, p', e1, e2, -, f2, f3⟩ := save_same (C := C) (E := E) (W := V.deleteW) (disk := disk) (disk' := disk')
    (k := { k with inst := (deleteMessage V.noise k.inst (vettedMessageIds U o.filter.ids)).2 }) (k' := { k' with inst := (deleteMessage noise' k'.inst (vettedMessageIds U o.filter.ids)).2 })
    (key := key) hop.overwrite hop'.overwrite hkey (by rw [← hf.key] ; exact hkey) hf.name hg
  rw [hq] at e1
  rw [show save C E V.deleteW disk' { k' with inst := (deleteMessage noise' k'.inst (vettedMessageIds U o.filter.ids)).2 } = some q' from hq'] at e2
  cases e1; cases e2
  refine ⟨by rw [a3, b3, f2, f3], ?_⟩
  intro t ht hne
  rw [a3] at ht
  rw [a2, b2]
  exact disk_alike f2 f3 disk disk' ht hne

/-- the example file with another text of message X1 -/
def exSecondMsgs : Inst := ⟨5, 350, 110, 30, [], [⟨lit "X1", [], [], 0, Sl.nil, lit "OTHER", [], []⟩, ⟨lit "X2", [], [], 0, Sl.nil, lit "B", [], []⟩], lit "SA", 4⟩

/-- non-vacuity of `C128_messages`: `messages --delete --yes --id X1,Y` on two files that differ in the text of message X1 satisfies all assumptions; the files opened do differ -/
example {C : Codec} (hC : C.Lawful) (E : PwEnv) : let o : MsgsCmd := { file := [1], access := exAccess, delete := true, yes := true, filter := { ids := [lit "X1,Y"] } }
    let disk' := exDisk.set [1] (C.enc exPFK 0 (gobInst exSecondMsgs))
    ∃ r r' k k', messagesCommand C E unicode15 exMsgsEnv o (exMsgsDisk C) = some r ∧ messagesCommand C E unicode15 exMsgsEnv o disk' = some r' ∧ (prepared E o.access o.file).1 = .ok () ∧
      load C E exMsgsEnv.loadW (exMsgsDisk C) (prepared E o.access o.file).2 = some (.ok (), k) ∧ load C E exMsgsEnv.loadW disk' (prepared E o.access o.file).2 = some (.ok (), k') ∧
      SameFile k k' ∧ (k.inst.messages.map Msg.id).Nodup ∧ (∃ m ∈ k.inst.messages, m.id ∈ vettedMessageIds unicode15 o.filter.ids) ∧
      SameBut unicode15 [] (vettedMessageIds unicode15 o.filter.ids) k.inst k'.inst ∧ ¬ SameStore k.inst k'.inst := by
  intro o disk'
  obtain ⟨k, hl, hs, hk, hpath⟩ := load_exStore hC E exMsgsStore 0 (by decide) (by decide) (by decide) (by decide)
  obtain ⟨k', hl', hs', hk', hpath'⟩ := load_exStore hC E exSecondMsgs 0 (by decide) (by decide) (by decide) (by decide)
  have hp : (prepared E o.access o.file).1 = .ok () := by rw [show o.access = exAccess from rfl, show o.file = [1] from rfl, prepared_example]
  obtain ⟨r, hr⟩ := messagesCommand_runs (C := C) (E := E) (U := unicode15) (V := exMsgsEnv) (o := o) (disk := exMsgsDisk C) rfl rfl rfl hp hl
  obtain ⟨r', hr'⟩ := messagesCommand_runs (C := C) (E := E) (U := unicode15) (V := exMsgsEnv) (o := o) (disk := disk') rfl rfl rfl hp hl'
  have hid := sameStore_msgIds hs
  refine ⟨r, r', k, k', hr, hr', hp, hl, hl', ⟨hpath.trans hpath'.symm, hk.trans hk'.symm⟩, by rw [hid]; decide, ?_,
    SameBut_between hs hs' ⟨rfl, rfl, rfl, rfl, rfl, .nil, .cons ⟨rfl, .inr (by decide +kernel)⟩ (.cons ⟨rfl, .inl ⟨rfl, rfl, rfl, rfl, rfl, rfl, rfl, rfl⟩⟩ .nil)⟩, ?_⟩
  · have : lit "X1" ∈ k.inst.messages.map Msg.id := by rw [hid]; decide
    obtain ⟨x, hx, h⟩ := List.mem_map.1 this
    exact ⟨x, hx, by rw [h]; decide +kernel⟩
  · intro h
    have h1 := hs.messages
    have h2 := hs'.messages
    have h3 := h.messages
    generalize k.inst.messages = p at h1 h3
    generalize k'.inst.messages = q at h2 h3
    cases h1 with
    | cons f1 _ =>
    cases h2 with
    | cons f2 _ =>
    cases h3 with
    | cons f3 _ =>
      exact absurd (f1.plainText.symm.trans (f3.plainText.trans f2.plainText)) (by decide)

end K431
