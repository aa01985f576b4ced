import Verif.PropsCmd
import Verif.PropsFilter
import Verif.PropsTalk

/-!
# C133: forced deletion deletes what the options select

The help says "Select all keys (list/edit/import/export/delete)" of `--all`, and likewise of the other options that select keys and messages.
-/

namespace K431
open Spec

/-- `keys --delete --yes`, without other operations, on a file that can be loaded and written and whose key ids differ; at least one key is selected. -/
structure ForcedKeys (C : Codec) (E : PwEnv) (U : Unicode) (V : KeysEnv) (o : KeysCmd) (disk : Disk) (r : Course) (k : Krypto) (path key : List Nat) : Prop where
  runs : keysCommand C E U V o disk = some r
  delete : o.delete = true
  yes : o.yes = true
  noNew : o.newKeys = none
  noImport : o.importFile = none
  noExport : o.exportFile = none
  noOutput : o.output = none
  access : (prepared E o.access o.file).1 = .ok ()
  opened : load C E V.loadW disk (prepared E o.access o.file).2 = some (.ok (), k)
  differ : DistinctNames U (k.inst.keys.map (fun x => x.id.val))
  some_asked : ∃ x ∈ k.inst.keys, o.filter.Asks U V.now x
  writes : Reads V.deleteW k path
  room : V.deleteW.room = none
  fileKey : k.pfk = some key
  keySize : key.length = 32
  groupSize : k.inst.groupSize ≠ 0
  keyLength : k.inst.keyLength ≠ 0
  columns : k.inst.columns ≠ 0
  keyColumns : k.inst.keyColumns ≠ 0

/-- `messages --delete --yes`, likewise -/
structure ForcedMsgs (C : Codec) (E : PwEnv) (U : Unicode) (V : MsgsEnv) (o : MsgsCmd) (disk : Disk) (r : Course) (k : Krypto) (path key : List Nat) : Prop where
  runs : messagesCommand C E U V o disk = some r
  delete : o.delete = true
  yes : o.yes = true
  noNew : o.new = false
  noList : o.list = false
  noOutput : o.output = none
  access : (prepared E o.access o.file).1 = .ok ()
  opened : load C E V.loadW disk (prepared E o.access o.file).2 = some (.ok (), k)
  differ : (k.inst.messages.map Msg.id).Nodup
  some_asked : ∃ m ∈ k.inst.messages, o.filter.Asks U m
  writes : Reads V.deleteW k path
  room : V.deleteW.room = none
  fileKey : k.pfk = some key
  keySize : key.length = 32
  groupSize : k.inst.groupSize ≠ 0
  keyLength : k.inst.keyLength ≠ 0
  columns : k.inst.columns ≠ 0
  keyColumns : k.inst.keyColumns ≠ 0

/-- **C133**, keys, with options such that `P`: afterwards the file holds exactly the keys that the options do not select, and everything else as before. -/
def C133_Keys (P : Unicode → KeyOpts → Prop) : Prop :=
  ∀ (C : Codec) (E : PwEnv) (U : Unicode) (V : KeysEnv) (o : KeysCmd) (disk : Disk) (r : Course) (k : Krypto) (path key : List Nat), C.Lawful → U.Lawful →
    ForcedKeys C E U V o disk r k path key → P U o.filter →
    r.outcome = .ok () ∧ ∃ rest : List Key, rest.Perm (k.inst.keys.filter (fun x => !decide (o.filter.Asks U V.now x))) ∧ Stored C r.state.disk path key { k.inst with keys := rest }

open Classical in
/-- **C133**, messages, with options such that `P`: afterwards the file holds exactly the messages that the options do not select, and everything else as before. -/
def C133_Messages (P : Unicode → MsgOpts → Prop) : Prop :=
  ∀ (C : Codec) (E : PwEnv) (U : Unicode) (V : MsgsEnv) (o : MsgsCmd) (disk : Disk) (r : Course) (k : Krypto) (path key : List Nat), C.Lawful → U.Lawful →
    ForcedMsgs C E U V o disk r k path key → P U o.filter →
    r.outcome = .ok () ∧ ∃ rest : List Msg, rest.Perm (k.inst.messages.filter (fun m => !decide (o.filter.Asks U m))) ∧ Stored C r.state.disk path key { k.inst with messages := rest }

/-- ids alone select the keys with these ids -/
theorem asks_onlyIds {U : Unicode} {now : Int} {o : KeyOpts} {x : Key} (h0 : o.all = false) (h : o.onlyIds) (hi : vettedKeepers U o.ids ≠ []) :
    o.Asks U now x ↔ InFold U x.id.val (vettedKeepers U o.ids) := by
  obtain ⟨h1, h2, h3, h4, h5, h6, h7⟩ := h
  have hk : vettedKeepers U o.keepers = [] := by rw [h1]; rfl
  unfold KeyOpts.Asks
  simp [h0, hk, h2, h3, h4, h5, h6, h7, hi]

/-- **C133**, keys, what holds: if the keys are selected by their ids alone.  Missing: `--all` and all other criteria, which are ignored (see C54). -/
theorem C133_keys_partial : C133_Keys (fun U o => o.all = false ∧ o.onlyIds ∧ vettedKeepers U o.ids ≠ []) := by
  rintro C E U V o disk r k path key hC hU h ⟨h0, h1, h2⟩
  have e : ∀ x, o.filter.Asks U V.now x ↔ InFold U x.id.val (vettedKeepers U o.filter.ids) := fun x => asks_onlyIds h0 h1 h2
  obtain ⟨x, hx, hq⟩ := h.some_asked
  obtain ⟨t, -, q⟩ := (C54_keys hC hU h.runs h.delete h.yes h.noNew h.noImport h.noExport h.noOutput h.access h.opened h.differ).2 ⟨x, hx, (e x).1 hq⟩
  obtain ⟨q1, -, -, rest, q2, q3⟩ := q path key h.writes h.room h.fileKey h.keySize h.groupSize h.keyLength h.columns h.keyColumns
  refine ⟨q1, rest, ?_, q3⟩
  have : (fun x => !decide (o.filter.Asks U V.now x)) = (fun x => !decide (InFold U x.id.val (vettedKeepers U o.filter.ids))) := funext fun x => by simp only [e x]
  rw [this]
  exact q2

/-- **C133**, messages, what holds: if the messages are selected by their ids.  Missing: `--all`, `--to` and `--from`, which are ignored (see C54). -/
theorem C133_messages_partial : C133_Messages (fun U o => o.all = false ∧ vettedMessageIds U o.ids ≠ []) := by
  rintro C E U V o disk r k path key hC hU h ⟨h0, h2⟩
  have e : ∀ x, o.filter.Asks U x ↔ x.id ∈ vettedMessageIds U o.filter.ids := fun x => by
    unfold MsgOpts.Asks
    simp [h0, h2]
  obtain ⟨x, hx, hq⟩ := h.some_asked
  obtain ⟨t, -, q⟩ := (C54_messages hC h.runs h.delete h.yes h.noNew h.noOutput h.access h.opened h.differ).2 ⟨x, hx, (e x).1 hq⟩
  obtain ⟨q1, -, -, rest, q2, q3⟩ := q path key h.writes h.room h.fileKey h.keySize h.groupSize h.keyLength h.columns h.keyColumns
  refine ⟨q1 h.noList, rest, ?_, q3⟩
  refine q2.trans (List.Perm.of_eq ?_)
  refine List.filter_congr fun x _ => ?_
  simp only [e x]

/-- `keys --delete --yes` with these options, on the example file -/
def exForced (f : KeyOpts) : KeysCmd := { file := [1], access := exAccess, delete := true, yes := true, filter := f }

@[inherit_doc exForced]
def exForcedMsgs (f : MsgOpts) : MsgsCmd := { file := [1], access := exAccess, delete := true, yes := true, filter := f }

/-- the example file with other contents -/
def exHolds (C : Codec) (i : Inst) : Disk := exDisk.set [1] (C.enc exPFK 0 (gobInst i))

theorem exHolds_stored {C : Codec} (hC : C.Lawful) {i : Inst} (h0 : i.groupSize ≠ 0) (h1 : i.keyLength ≠ 0) (h2 : i.columns ≠ 0) (h3 : i.keyColumns ≠ 0) : Stored C (exHolds C i) [1] exPFK i :=
  stored_of_dec (by decide) (set_same _ _ _) (hC.right _ _ _ (by decide)) h0 h1 h2 h3

theorem exForced_runs {C : Codec} (hC : C.Lawful) (E : PwEnv) (f : KeyOpts) (i : Inst) (h0 : i.groupSize ≠ 0) (h1 : i.keyLength ≠ 0) (h2 : i.columns ≠ 0) (h3 : i.keyColumns ≠ 0)
    (hd : DistinctNames unicode15 (i.keys.map (fun x => x.id.val))) (hf : ∃ x ∈ i.keys, f.Asks unicode15 exKeysEnv.now x) :
    ∃ r k, ForcedKeys C E unicode15 exKeysEnv (exForced f) (exHolds C i) r k [1] exPFK ∧ SameStore k.inst i := by
  obtain ⟨k, hl, hs, hk, hpath⟩ := load_exStore hC E i 0 h0 h1 h2 h3
  have hp : (prepared E (exForced f).access (exForced f).file).1 = .ok () := by rw [show (exForced f).access = exAccess from rfl, show (exForced f).file = [1] from rfl, prepared_example]
  obtain ⟨r, hr⟩ := keysCommand_runs (C := C) (E := E) (U := unicode15) (V := exKeysEnv) (o := exForced f) (disk := exHolds C i) rfl rfl rfl rfl rfl hp hl
  refine ⟨r, k, ⟨hr, rfl, rfl, rfl, rfl, rfl, rfl, hp, hl, by rw [sameStore_ids hs]; exact hd, ?_, ⟨by simp [hpath], by rw [hpath]; rfl, rfl, rfl⟩, rfl, hk, by decide,
    by rw [hs.groupSize]; exact h0, by rw [hs.keyLength]; exact h1, by rw [hs.columns]; exact h2, by rw [hs.keyColumns]; exact h3⟩, hs⟩
  obtain ⟨x, hx, hq⟩ := hf
  obtain ⟨y, hy, hyx⟩ := forall₂_mem_right hs.keys hx
  have hn : y.names = x.names := hyx.keepers
  refine ⟨y, hy, ?_⟩
  unfold KeyOpts.Asks at hq ⊢
  simpa only [exForced, hyx.id, hyx.compromised, hyx.expires, hyx.used, hn] using hq

theorem exForcedMsgs_runs {C : Codec} (hC : C.Lawful) (E : PwEnv) (f : MsgOpts) (hf : ∃ x ∈ exMsgsStore.messages, f.Asks unicode15 x) :
    ∃ r k, ForcedMsgs C E unicode15 exMsgsEnv (exForcedMsgs f) (exHolds C exMsgsStore) r k [1] exPFK ∧ SameStore k.inst exMsgsStore := by
  obtain ⟨k, hl, hs, hk, hpath⟩ := load_exStore hC E exMsgsStore 0 (by decide) (by decide) (by decide) (by decide)
  have hp : (prepared E (exForcedMsgs f).access (exForcedMsgs f).file).1 = .ok () := by
    rw [show (exForcedMsgs f).access = exAccess from rfl, show (exForcedMsgs f).file = [1] from rfl, prepared_example]
  obtain ⟨r, hr⟩ := messagesCommand_runs (C := C) (E := E) (U := unicode15) (V := exMsgsEnv) (o := exForcedMsgs f) (disk := exHolds C exMsgsStore) rfl rfl rfl hp hl
  refine ⟨r, k, ⟨hr, rfl, rfl, rfl, rfl, rfl, hp, hl, by rw [sameStore_msgIds hs]; decide, ?_, ⟨by simp [hpath], by rw [hpath]; rfl, rfl, rfl⟩, rfl, hk, by decide,
    by rw [hs.groupSize]; decide, by rw [hs.keyLength]; decide, by rw [hs.columns]; decide, by rw [hs.keyColumns]; decide⟩, hs⟩
  obtain ⟨x, hx, hq⟩ := hf
  obtain ⟨y, hy, hyx⟩ := forall₂_mem_right hs.messages hx
  refine ⟨y, hy, ?_⟩
  unfold MsgOpts.Asks at hq ⊢
  simpa only [exForcedMsgs, hyx.id, hyx.recipients, hyx.from_] using hq

/-- two keys, the second of which has been used -/
def exHalfUsed : Inst := { exStore with keys := [exKey 1 "A" "Q", { exKey 2 "B" "W" with used := true }] }

/-- **C133** is violated, for keys: `keys --delete --all --yes` deletes nothing, and `keys --delete --id A,B --used --yes` deletes key A, which has not been used. -/
theorem C133_keys_violated : ¬ C133_Keys (fun _ o => o.all = true) ∧ ¬ C133_Keys (fun U o => o.all = false ∧ vettedKeepers U o.ids ≠ []) := by
  obtain ⟨C, hC⟩ := exists_lawful
  let E : PwEnv := ⟨fun _ _ => [], fun _ => true⟩
  constructor
  · intro hall
    obtain ⟨r, k, h, hs⟩ := exForced_runs hC E { all := true } exStore (by decide) (by decide) (by decide) (by decide) (by decide) ⟨exKey 1 "A" "Q", by decide, .inl rfl⟩
    obtain ⟨-, rest, hp, hst⟩ := hall _ _ _ _ _ _ _ _ _ _ hC unicode15_lawful h rfl
    obtain ⟨-, hd, -⟩ := (C54_keys hC unicode15_lawful h.runs h.delete h.yes h.noNew h.noImport h.noExport h.noOutput h.access h.opened h.differ).1
      (by rintro x - ⟨y, hy, -⟩; cases hy)
    rw [hd] at hst
    have hlen := (stored_unique hst (exHolds_stored hC (by decide) (by decide) (by decide) (by decide))).keys.length_eq
    have hnil : k.inst.keys.filter (fun x => !decide ((exForced { all := true }).filter.Asks unicode15 exKeysEnv.now x)) = [] := by
      rw [List.filter_eq_nil_iff]
      intro x _
      have : (exForced { all := true }).filter.Asks unicode15 exKeysEnv.now x := .inl rfl
      simp [this]
    rw [hnil] at hp
    rw [List.perm_nil.1 hp] at hlen
    cases hlen
  · intro hall
    obtain ⟨r, k, h, hs⟩ := exForced_runs hC E { ids := [lit "A,B"], used := true } exHalfUsed (by decide) (by decide) (by decide) (by decide) (by decide)
      ⟨{ exKey 2 "B" "W" with used := true }, by decide, by decide +kernel⟩
    obtain ⟨-, rest, hp, hst⟩ := hall _ _ _ _ _ _ _ _ _ _ hC unicode15_lawful h ⟨rfl, by decide +kernel⟩
    have hids : k.inst.keys.map (fun x => x.id.val) = [lit "A", lit "B"] := by rw [sameStore_ids hs]; decide
    have hin : ∀ x ∈ k.inst.keys, InFold unicode15 x.id.val (vettedKeepers unicode15 (exForced { ids := [lit "A,B"], used := true }).filter.ids) := by
      intro x hx
      have : x.id.val ∈ [lit "A", lit "B"] := by rw [← hids]; exact List.mem_map.2 ⟨x, hx, rfl⟩
      have hb : ∀ i ∈ [lit "A", lit "B"], InFold unicode15 i (vettedKeepers unicode15 [lit "A,B"]) := by decide +kernel
      exact hb _ this
    obtain ⟨x, hx, -⟩ := h.some_asked
    obtain ⟨t, -, q⟩ := (C54_keys hC unicode15_lawful h.runs h.delete h.yes h.noNew h.noImport h.noExport h.noOutput h.access h.opened h.differ).2 ⟨x, hx, hin x hx⟩
    obtain ⟨-, -, -, rest', q2, q3⟩ := q [1] exPFK h.writes h.room h.fileKey h.keySize h.groupSize h.keyLength h.columns h.keyColumns
    have hlen := (stored_unique hst q3).keys.length_eq
    dsimp only at hlen
    have hnil : rest' = [] := by
      refine List.perm_nil.1 (q2.trans (List.Perm.of_eq ?_))
      rw [List.filter_eq_nil_iff]
      intro x hx
      simp [hin x hx]
    rw [hnil, List.length_nil, List.length_eq_zero_iff] at hlen
    rw [hlen] at hp
    have hnil2 := List.nil_perm.1 hp
    rw [List.filter_eq_nil_iff] at hnil2
    obtain ⟨y, hy, hyx⟩ := forall₂_mem_right hs.keys (y := exKey 1 "A" "Q") (by decide)
    have := hnil2 y hy
    simp only [Bool.not_eq_true', decide_eq_false_iff_not, not_not] at this
    rcases this with this | ⟨-, -, -, -, this, -⟩
    · cases this
    · have := this rfl
      rw [hyx.used] at this
      cases this

/-- **C133** is violated, for messages: `messages --delete --all --yes` deletes nothing. -/
theorem C133_messages_violated : ¬ C133_Messages (fun _ o => o.all = true) := by
  obtain ⟨C, hC⟩ := exists_lawful
  let E : PwEnv := ⟨fun _ _ => [], fun _ => true⟩
  intro hall
  obtain ⟨r, k, h, hs⟩ := exForcedMsgs_runs hC E { all := true } ⟨_, List.mem_cons_self, .inl rfl⟩
  obtain ⟨-, rest, hp, hst⟩ := hall _ _ _ _ _ _ _ _ _ _ hC unicode15_lawful h rfl
  obtain ⟨-, hd, -⟩ := (C54_messages hC h.runs h.delete h.yes h.noNew h.noOutput h.access h.opened h.differ).1 (by intro x _ hx; cases hx)
  rw [hd] at hst
  have hlen := (stored_unique hst (exHolds_stored hC (by decide) (by decide) (by decide) (by decide))).messages.length_eq
  have hnil : rest = [] := by
    refine List.perm_nil.1 (hp.trans (List.Perm.of_eq ?_))
    rw [List.filter_eq_nil_iff]
    intro x _
    have : (exForcedMsgs { all := true }).filter.Asks unicode15 x := .inl rfl
    simp [this]
  rw [hnil] at hlen
  cases hlen

/-- non-vacuity of `C133_keys_partial`: `keys --delete --id a,x --yes` on the example file -/
example {C : Codec} (hC : C.Lawful) (E : PwEnv) : ∃ r k, ForcedKeys C E unicode15 exKeysEnv (exForced { ids := [lit "a,x"] }) (exHolds C exStore) r k [1] exPFK ∧
    (exForced { ids := [lit "a,x"] }).filter.onlyIds ∧ vettedKeepers unicode15 [lit "a,x"] ≠ [] := by
  obtain ⟨r, k, h, -⟩ := exForced_runs hC E { ids := [lit "a,x"] } exStore (by decide) (by decide) (by decide) (by decide) (by decide) ⟨exKey 1 "A" "Q", by decide, by decide +kernel⟩
  exact ⟨r, k, h, ⟨rfl, rfl, rfl, rfl, rfl, rfl, rfl⟩, by decide +kernel⟩

/-- non-vacuity of `C133_messages_partial`: `messages --delete --id X1,Y --yes` -/
example {C : Codec} (hC : C.Lawful) (E : PwEnv) : ∃ r k, ForcedMsgs C E unicode15 exMsgsEnv (exForcedMsgs { ids := [lit "X1,Y"] }) (exHolds C exMsgsStore) r k [1] exPFK ∧
    vettedMessageIds unicode15 [lit "X1,Y"] ≠ [] := by
  have hne : vettedMessageIds unicode15 [lit "X1,Y"] ≠ [] := by decide +kernel
  obtain ⟨r, k, h, -⟩ := exForcedMsgs_runs hC E { ids := [lit "X1,Y"] } ⟨_, List.mem_cons_self, .inr (by rw [if_pos hne]; decide +kernel)⟩
  exact ⟨r, k, h, hne⟩

end K431
