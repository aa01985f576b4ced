import Verif.PropsForced

/-!
# C137: deleting again deletes nothing
-/

namespace K431
open Spec

/-- **C137**, keys: after `keys --delete --yes --id` has deleted something, the same command with the same ids succeeds and writes no file, whatever else it meets. -/
theorem C137_keys {C : Codec} (hC : C.Lawful) {E E' : PwEnv} {U : Unicode} (hU : U.Lawful) {V V' : KeysEnv} {o o' : KeysCmd} {disk : Disk} {r r' : Course} {k : Krypto} {path key : List Nat} {call : Runes}
    (h : ForcedKeys C E U V o disk r k path key) (hsome : ∃ x ∈ k.inst.keys, InFold U x.id.val (vettedKeepers U o.filter.ids))
    (h' : keysCommand C E' U V' o' r.state.disk = some r') (hdel : o'.delete = true) (hyes : o'.yes = true) (hnew : o'.newKeys = none) (himp : o'.importFile = none) (hexp : o'.exportFile = none)
    (hout : o'.output = none) (hids : o'.filter.ids = o.filter.ids) (hop : Opens E' V'.loadW o'.access o'.file ⟨path, key, call⟩) :
    r'.outcome = .ok () ∧ r'.state.disk = r.state.disk ∧ r'.state.touched = [] := by
  obtain ⟨t, -, q⟩ := (C54_keys hC hU h.runs h.delete h.yes h.noNew h.noImport h.noExport h.noOutput h.access h.opened h.differ).2 hsome
  obtain ⟨-, -, -, rest, q2, q3⟩ := q path key h.writes h.room h.fileKey h.keySize h.groupSize h.keyLength h.columns h.keyColumns
  obtain ⟨k', hl, hs, -, -⟩ := opens_load hop q3
  have hnames : k'.inst.keys.map (fun x => x.id.val) = rest.map (fun x => x.id.val) := sameStore_ids hs
  have hdist : DistinctNames U (k'.inst.keys.map (fun x => x.id.val)) := by
    rw [hnames]
    have h1 : DistinctNames U ((k.inst.keys.filter (fun x => !decide (InFold U x.id.val (vettedKeepers U o.filter.ids)))).map (fun x => x.id.val)) :=
      h.differ.sublist (List.filter_sublist.map _)
    exact ((q2.map (fun x : Key => x.id.val)).pairwise_iff (R := fun a b => ¬ SameFold U a b) (fun hab hba => hab hba.symm)).2 h1
  refine (C54_keys hC hU h' hdel hyes hnew himp hexp hout hop.access hl hdist).1 ?_
  intro x hx
  rw [hids]
  have hmem : x.id.val ∈ rest.map (fun x => x.id.val) := hnames ▸ List.mem_map_of_mem hx
  obtain ⟨y, hy, e⟩ := List.mem_map.1 hmem
  have := (List.mem_filter.1 (q2.mem_iff.1 hy)).2
  rw [← e]
  simpa using this

/-- **C137**, messages, likewise -/
theorem C137_messages {C : Codec} (hC : C.Lawful) {E E' : PwEnv} {U : Unicode} {V V' : MsgsEnv} {o o' : MsgsCmd} {disk : Disk} {r r' : Course} {k : Krypto} {path key : List Nat} {call : Runes}
    (h : ForcedMsgs C E U V o disk r k path key) (hsome : ∃ m ∈ k.inst.messages, m.id ∈ vettedMessageIds U o.filter.ids)
    (h' : messagesCommand C E' U V' o' r.state.disk = some r') (hdel : o'.delete = true) (hyes : o'.yes = true) (hnew : o'.new = false) (hlist : o'.list = false)
    (hout : o'.output = none) (hids : o'.filter.ids = o.filter.ids) (hop : Opens E' V'.loadW o'.access o'.file ⟨path, key, call⟩) :
    r'.outcome = .ok () ∧ r'.state.disk = r.state.disk ∧ r'.state.touched = [] := by
  obtain ⟨t, -, q⟩ := (C54_messages hC h.runs h.delete h.yes h.noNew h.noOutput h.access h.opened h.differ).2 hsome
  obtain ⟨-, -, -, rest, q2, q3⟩ := q path key h.writes h.room h.fileKey h.keySize h.groupSize h.keyLength h.columns h.keyColumns
  obtain ⟨k', hl, hs, -, -⟩ := opens_load hop q3
  have hnames : k'.inst.messages.map Msg.id = rest.map Msg.id := sameStore_msgIds hs
  have hnd : (k'.inst.messages.map Msg.id).Nodup := by
    rw [hnames]
    exact (q2.map Msg.id).nodup_iff.2 (h.differ.sublist (List.filter_sublist.map _))
  have fin := (C54_messages hC h' hdel hyes hnew hout hop.access hl hnd).1 (by
    intro x hx
    rw [hids]
    have hmem : x.id ∈ rest.map Msg.id := hnames ▸ List.mem_map_of_mem hx
    obtain ⟨y, hy, e⟩ := List.mem_map.1 hmem
    have := (List.mem_filter.1 (q2.mem_iff.1 hy)).2
    rw [← e]
    simpa using this)
  exact ⟨fin.1 hlist, fin.2⟩

/-- non-vacuity: `keys --delete --id a,x --yes` twice on the file with three keys; the second run ends -/
example {C : Codec} (hC : C.Lawful) (E : PwEnv) : ∃ r k r', ForcedKeys C E unicode15 exKeysEnv (exForced { ids := [lit "a,x"] }) (exHolds C exStore) r k [1] exPFK ∧
    (∃ x ∈ k.inst.keys, InFold unicode15 x.id.val (vettedKeepers unicode15 [lit "a,x"])) ∧
    keysCommand C E unicode15 exKeysEnv (exForced { ids := [lit "a,x"] }) r.state.disk = some r' ∧ Opens E exKeysEnv.loadW exAccess [1] ⟨[1], exPFK, []⟩ := by
  obtain ⟨r, k, h, hs⟩ := exForced_runs hC E { ids := [lit "a,x"] } exStore (by decide) (by decide) (by decide) (by decide) (by decide) ⟨exKey 1 "A" "Q", by decide, by decide +kernel⟩
  have hop : Opens E exKeysEnv.loadW exAccess [1] ⟨[1], exPFK, []⟩ := exOpens rfl rfl rfl E []
  have hsome : ∃ x ∈ k.inst.keys, InFold unicode15 x.id.val (vettedKeepers unicode15 [lit "a,x"]) := by
    obtain ⟨y, hy, hyx⟩ := forall₂_mem_right hs.keys (show exKey 1 "A" "Q" ∈ exStore.keys by decide)
    exact ⟨y, hy, by rw [hyx.id]; decide +kernel⟩
  obtain ⟨t, -, q⟩ := (C54_keys hC unicode15_lawful h.runs h.delete h.yes h.noNew h.noImport h.noExport h.noOutput h.access h.opened h.differ).2 hsome
  obtain ⟨-, -, -, rest, q2, q3⟩ := q [1] exPFK h.writes h.room h.fileKey h.keySize h.groupSize h.keyLength h.columns h.keyColumns
  obtain ⟨k', hl, -⟩ := opens_load (s := ⟨[1], exPFK, []⟩) hop q3
  obtain ⟨r', hr'⟩ := keysCommand_runs (C := C) (E := E) (U := unicode15) (V := exKeysEnv) (o := exForced { ids := [lit "a,x"] }) (disk := r.state.disk) rfl rfl rfl rfl rfl hop.access hl
  exact ⟨r, k, r', h, hsome, hr', hop⟩

/-- non-vacuity: `messages --delete --id X1,Y --yes` twice on the file with two messages -/
example {C : Codec} (hC : C.Lawful) (E : PwEnv) : ∃ r k r', ForcedMsgs C E unicode15 exMsgsEnv (exForcedMsgs { ids := [lit "X1,Y"] }) (exHolds C exMsgsStore) r k [1] exPFK ∧
    (∃ m ∈ k.inst.messages, m.id ∈ vettedMessageIds unicode15 [lit "X1,Y"]) ∧
    messagesCommand C E unicode15 exMsgsEnv (exForcedMsgs { ids := [lit "X1,Y"] }) r.state.disk = some r' ∧ Opens E exMsgsEnv.loadW exAccess [1] ⟨[1], exPFK, []⟩ := by
  have hne : vettedMessageIds unicode15 [lit "X1,Y"] ≠ [] := by decide +kernel
  obtain ⟨r, k, h, hs⟩ := exForcedMsgs_runs hC E { ids := [lit "X1,Y"] } ⟨_, List.mem_cons_self, .inr (by rw [if_pos hne]; decide +kernel)⟩
  have hop : Opens E exMsgsEnv.loadW exAccess [1] ⟨[1], exPFK, []⟩ := exOpens rfl rfl rfl E []
  have hsome : ∃ m ∈ k.inst.messages, m.id ∈ vettedMessageIds unicode15 [lit "X1,Y"] := by
    have : lit "X1" ∈ k.inst.messages.map Msg.id := by rw [sameStore_msgIds hs]; decide
    obtain ⟨m, hm, e⟩ := List.mem_map.1 this
    exact ⟨m, hm, by rw [e]; decide +kernel⟩
  obtain ⟨t, -, q⟩ := (C54_messages hC h.runs h.delete h.yes h.noNew h.noOutput h.access h.opened h.differ).2 hsome
  obtain ⟨-, -, -, rest, q2, q3⟩ := q [1] exPFK h.writes h.room h.fileKey h.keySize h.groupSize h.keyLength h.columns h.keyColumns
  obtain ⟨k', hl, -⟩ := opens_load (s := ⟨[1], exPFK, []⟩) hop q3
  obtain ⟨r', hr'⟩ := messagesCommand_runs (C := C) (E := E) (U := unicode15) (V := exMsgsEnv) (o := exForcedMsgs { ids := [lit "X1,Y"] }) (disk := r.state.disk) rfl rfl rfl hop.access hl
  exact ⟨r, k, r', h, hsome, hr', hop⟩

end K431
