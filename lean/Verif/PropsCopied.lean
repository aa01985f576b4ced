import Verif.CopiedLemmas
import Verif.PropsForced

/-!
# C136: ids copied from a listing select exactly what was listed
-/

namespace K431
open Spec

/-- **C136**, keys: list keys with any filter and then delete with `--yes`, giving as `--id` the first words of the lines: the keys listed are gone from the file, all others are still there, and everything else is as before. -/
theorem C136_keys {C : Codec} (hC : C.Lawful) {E : PwEnv} {U : Unicode} (hU : U.Lawful) {V V' : KeysEnv} {o o' : KeysCmd} {disk : Disk} {r r' : Course} {k : Krypto} {path key : List Nat}
    (h : keysCommand C E U V o disk = some r) (hl : o.list = true) (hd : o.delete = false) (hn : o.newKeys = none) (hi : o.importFile = none) (he : o.exportFile = none)
    (hp : (prepared E o.access o.file).1 = .ok ()) (hk : load C E V.loadW disk (prepared E o.access o.file).2 = some (.ok (), k))
    (hids : ∀ x ∈ k.inst.keys, keyFilter U V.now o.filter x = true → Printable U x.id.val ∧ x.id.val.length ≤ k.inst.groupSize)
    (hsome : ∃ x ∈ k.inst.keys, keyFilter U V.now o.filter x = true) (h' : ForcedKeys C E U V' o' disk r' k path key) (hf : o'.filter = { ids := listedIds r }) :
    r'.outcome = .ok () ∧ ∃ rest : List Key, rest.Perm (k.inst.keys.filter (fun x => !keyFilter U V.now o.filter x)) ∧ Stored C r'.state.disk path key { k.inst with keys := rest } := by
  have hin := inFold_listed hU h hl hd hn hi he hp hk hids h'.differ
  rw [show listedIds r = o'.filter.ids by rw [hf]] at hin
  obtain ⟨x, hx, hq⟩ := hsome
  obtain ⟨t, -, q⟩ := (C54_keys hC hU h'.runs h'.delete h'.yes h'.noNew h'.noImport h'.noExport h'.noOutput h'.access h'.opened h'.differ).2 ⟨x, hx, (hin x hx).2 hq⟩
  obtain ⟨q1, -, -, rest, q2, q3⟩ := q path key h'.writes h'.room h'.fileKey h'.keySize h'.groupSize h'.keyLength h'.columns h'.keyColumns
  refine ⟨q1, rest, ?_, q3⟩
  rw [← List.filter_congr (fun x hx => ?_)]
  · exact q2
  · have := hin x hx
    by_cases e : keyFilter U V.now o.filter x = true
    · rw [e, decide_eq_true (this.2 e)]
    · rw [Bool.eq_false_iff.2 e, decide_eq_false (fun c => e (this.1 c))]

/-- non-vacuity: a file with the keys A, unused, and B, used; `--list --used` shows B, and after `--delete --yes --id B` the file holds A alone -/
theorem exCopied {C : Codec} (hC : C.Lawful) (E : PwEnv) : ∃ (r r' : Course) (k : Krypto), keysCommand C E unicode15 exKeysEnv { file := [1], access := exAccess, list := true, filter := { used := true } } (exHolds C exHalfUsed) = some r ∧
    (prepared E exAccess [1]).1 = .ok () ∧ load C E exKeysEnv.loadW (exHolds C exHalfUsed) (prepared E exAccess [1]).2 = some (.ok (), k) ∧
    (∀ x ∈ k.inst.keys, keyFilter unicode15 exKeysEnv.now { used := true } x = true → Printable unicode15 x.id.val ∧ x.id.val.length ≤ k.inst.groupSize) ∧
    (∃ x ∈ k.inst.keys, keyFilter unicode15 exKeysEnv.now { used := true } x = true) ∧ listedIds r = [lit "B"] ∧
    ForcedKeys C E unicode15 exKeysEnv (exForced { ids := listedIds r }) (exHolds C exHalfUsed) r' k [1] exPFK ∧
    (k.inst.keys.filter (fun x => !keyFilter unicode15 exKeysEnv.now { used := true } x)).map (fun x => x.id.val) = [lit "A"] := by
  obtain ⟨k, hl, hs, -, -⟩ := load_exStore hC E exHalfUsed 0 (by decide) (by decide) (by decide) (by decide)
  have hp : (prepared E exAccess [1]).1 = .ok () := by rw [prepared_example]
  have hids : k.inst.keys.map (fun x => x.id.val) = exHalfUsed.keys.map (fun x => x.id.val) := sameStore_ids hs
  have hgs : k.inst.groupSize = exHalfUsed.groupSize := hs.groupSize
  have hall : ∀ i ∈ exHalfUsed.keys.map (fun x => x.id.val), Printable unicode15 i ∧ i.length ≤ exHalfUsed.groupSize := by decide
  have hpr : ∀ x ∈ k.inst.keys, keyFilter unicode15 exKeysEnv.now { used := true } x = true → Printable unicode15 x.id.val ∧ x.id.val.length ≤ k.inst.groupSize := by
    intro x hx _
    rw [hgs]
    exact hall _ (hids ▸ List.mem_map_of_mem hx)
  have hrun : ∃ r, keysCommand C E unicode15 exKeysEnv { file := [1], access := exAccess, list := true, filter := { used := true } } (exHolds C exHalfUsed) = some r := by
    unfold keysCommand
    have hop : openStore C E exKeysEnv.loadW exAccess [1] (exHolds C exHalfUsed) = some (.go ⟨exHolds C exHalfUsed, k, [], []⟩) := openStore_ok hp hl
    rw [if_neg (by decide)]
    dsimp only
    rw [hop]
    simp only [andThen_go, keysDelete, keysNew, keysImport, keysExport, Bool.false_eq_true, if_false]
    generalize keysList unicode15 exKeysEnv { file := [1], access := exAccess, list := true, filter := { used := true } } _ = c
    cases c <;> exact ⟨_, rfl⟩
  obtain ⟨r, hr⟩ := hrun
  have hf : ∀ x : Key, keyFilter unicode15 exKeysEnv.now { used := true } x = x.used := by
    intro x
    rw [Bool.eq_iff_iff]
    simp [keyFilter, vettedKeepers, validOption]
  have hsel : ∃ a b, k.inst.keys = [a, b] ∧ a.used = false ∧ b.used = true ∧ a.id.val = lit "A" ∧ b.id.val = lit "B" := by
    have hk := hs.keys
    rw [show exHalfUsed.keys = [exKey 1 "A" "Q", { exKey 2 "B" "W" with used := true }] from rfl] at hk
    obtain ⟨a, l, ha, hl', e⟩ := List.forall₂_cons_right_iff.1 hk
    obtain ⟨b, l', hb, hl'', e'⟩ := List.forall₂_cons_right_iff.1 hl'
    rw [List.forall₂_nil_right_iff.1 hl''] at e'
    rw [e'] at e
    exact ⟨a, b, e, ha.used, hb.used, ha.id, hb.id⟩
  obtain ⟨a, b, hab, ua, ub, ia, ib⟩ := hsel
  have hli : listedIds r = [lit "B"] := by
    rw [listedIds_keys unicode15_lawful hr rfl rfl rfl rfl rfl hp hl hpr]
    simp [hab, hf, ua, ub, ib]
  obtain ⟨r', k', h', -⟩ := exForced_runs hC E { ids := listedIds r } exHalfUsed (by decide) (by decide) (by decide) (by decide) (by decide)
    ⟨{ exKey 2 "B" "W" with used := true }, by decide, by rw [hli]; decide +kernel⟩
  have hkk : k' = k := by
    have := h'.opened.symm.trans hl
    simpa using this
  rw [hkk] at h'
  exact ⟨r, r', k, hr, hp, hl, hpr, ⟨b, by simp [hab], by rw [hf, ub]⟩, hli, h', by simp [hab, hf, ua, ub, ia]⟩

/-- **C136**, keys, other uses: list keys with any filter; then `--list`, `--output` and `--export`, alone or together, do the same with the ids read off as with the filter: the same files are written, the same is printed, the same is
returned. -/
theorem C136_keys_same {C : Codec} {E : PwEnv} {U : Unicode} (hU : U.Lawful) {V V' : KeysEnv} {o o' : KeysCmd} {disk : Disk} {r : Course} {k : Krypto}
    (h : keysCommand C E U V o disk = some r) (hl : o.list = true) (hd : o.delete = false) (hn : o.newKeys = none) (hi : o.importFile = none) (he : o.exportFile = none)
    (hp : (prepared E o.access o.file).1 = .ok ()) (hk : load C E V.loadW disk (prepared E o.access o.file).2 = some (.ok (), k))
    (hids : ∀ x ∈ k.inst.keys, keyFilter U V.now o.filter x = true → Printable U x.id.val ∧ x.id.val.length ≤ k.inst.groupSize)
    (hdist : DistinctNames U (k.inst.keys.map (fun x => x.id.val))) (hsome : ∃ x ∈ k.inst.keys, keyFilter U V.now o.filter x = true)
    (hd' : o'.delete = false) (hn' : o'.newKeys = none) (hi' : o'.importFile = none)
    (hp' : (prepared E o'.access o'.file).1 = .ok ()) (hk' : load C E V'.loadW disk (prepared E o'.access o'.file).2 = some (.ok (), k)) (hnow : V'.now = V.now) :
    keysCommand C E U V' { o' with filter := { ids := listedIds r } } disk = keysCommand C E U V' { o' with filter := o.filter } disk := by
  have hin := inFold_listed hU h hl hd hn hi he hp hk hids hdist
  obtain ⟨x, hx, hq⟩ := hsome
  have hpos : (vettedKeepers U (listedIds r)).length > 0 := by
    obtain ⟨b, hb, -⟩ := (hin x hx).2 hq
    exact List.length_pos_of_mem hb
  have hsel : k.inst.keys.filter (keyFilter U V'.now { ids := listedIds r }) = k.inst.keys.filter (keyFilter U V'.now o.filter) := by
    refine List.filter_congr (fun y hy => ?_)
    rw [Bool.eq_iff_iff, hnow, ← hin y hy, ← listedFold_iff]
    unfold keyFilter
    dsimp only
    rw [if_neg Bool.false_ne_true, if_pos hpos]
  have hany : ∀ f, KeysCmd.any { o' with filter := f } = o'.any := fun _ => rfl
  have hop : openStore C E V'.loadW o'.access o'.file disk = some (.go ⟨disk, k, [], []⟩) := openStore_ok hp' hk'
  have e1 : ∀ f s, keysDelete C E U V' { o' with filter := f } s = some (.go s) := fun f s => by unfold keysDelete; dsimp only; rw [hd']; rfl
  have e2 : ∀ f s, keysNew C E U V' { o' with filter := f } s = some (.go s) := fun f s => by unfold keysNew; dsimp only; rw [hn']
  have e3 : ∀ f s, keysImport C E U V' { o' with filter := f } s = some (.go s) := fun f s => by unfold keysImport; dsimp only; rw [hi']
  have e4 : keysExport C E U V' { o' with filter := { ids := listedIds r } } ⟨disk, k, [], []⟩ = keysExport C E U V' { o' with filter := o.filter } ⟨disk, k, [], []⟩ := by
    unfold keysExport exportKeys
    dsimp only
    rw [hsel]
  have e5 : ∀ f s, keysExport C E U V' { o' with filter := f } ⟨disk, k, [], []⟩ = some (.go s) → s.k = k := by
    intro f s hs
    unfold keysExport at hs
    dsimp only at hs
    split at hs
    · cases hs; rfl
    · split at hs
      · cases hs
      · obtain ⟨q, -, hq⟩ := Option.map_eq_some_iff.1 hs
        unfold check at hq
        split at hq <;> cases hq
        rfl
  have e6 : ∀ s : Cmd, s.k = k → keysList U V' { o' with filter := { ids := listedIds r } } s = keysList U V' { o' with filter := o.filter } s := by
    intro s hs
    unfold keysList summaryOfKeys
    dsimp only
    rw [hs, hsel]
  have e7 : ∀ f (s t : Cmd), s.k = k → keysList U V' { o' with filter := f } s = .go t → t.k = k := by
    intro f s t hs ht
    unfold keysList at ht
    dsimp only at ht
    repeat' split at ht
    all_goals cases ht
    all_goals exact hs
  unfold keysCommand
  rw [hany { ids := listedIds r }, hany o.filter]
  by_cases ha : (!o'.any) = true
  · simp only [ha, if_true]
  simp only [ha]
  rw [hop]
  simp only [andThen_go, e1, e2, e3, e4]
  rcases hx : keysExport C E U V' { o' with filter := o.filter } ⟨disk, k, [], []⟩ with _ | s | ⟨oc, s⟩
  · rfl
  · have hs := e5 _ _ hx
    simp only [andThen_go, e6 s hs]
    rcases ht : keysList U V' { o' with filter := o.filter } s with t | ⟨oc, t⟩
    · simp only [andThen_go]
      rw [e7 _ _ _ hs ht, hsel]
    · rfl
  · rfl

/-- non-vacuity: on this file `keys --export` of the keys listed with `--list --used` does the same with `--id B` as with `--used` -/
example {C : Codec} (hC : C.Lawful) (E : PwEnv) : ∃ r : Course, listedIds r = [lit "B"] ∧
    keysCommand C E unicode15 exKeysEnv { file := [1], access := exAccess, exportFile := some [2], filter := { ids := listedIds r } } (exHolds C exHalfUsed) =
      keysCommand C E unicode15 exKeysEnv { file := [1], access := exAccess, exportFile := some [2], filter := { used := true } } (exHolds C exHalfUsed) := by
  obtain ⟨r, r', k, hr, hp, hl, hpr, hsome, hli, hf, -⟩ := exCopied hC E
  refine ⟨r, hli, ?_⟩
  have hd := hf.differ
  clear hf hli
  generalize exHolds C exHalfUsed = disk at hr hl ⊢
  exact C136_keys_same (V := exKeysEnv) (V' := exKeysEnv) (o := { file := [1], access := exAccess, list := true, filter := { used := true } }) (o' := { file := [1], access := exAccess, exportFile := some [2] }) (k := k)
    unicode15_lawful hr rfl rfl rfl rfl rfl hp hl hpr hd hsome rfl rfl rfl hp hl rfl

/-- **C136**, messages, likewise; the listing command must have succeeded. -/
theorem C136_messages {C : Codec} (hC : C.Lawful) {E : PwEnv} {U : Unicode} (hU : U.Lawful) {V V' : MsgsEnv} {o o' : MsgsCmd} {disk : Disk} {r r' : Course} {k : Krypto} {path key : List Nat}
    (h : messagesCommand C E U V o disk = some r) (hl : o.list = true) (hd : o.delete = false) (hn : o.new = false)
    (hp : (prepared E o.access o.file).1 = .ok ()) (hk : load C E V.loadW disk (prepared E o.access o.file).2 = some (.ok (), k))
    (hok : r.outcome = .ok ()) (hne : ∀ m ∈ k.inst.messages, m.id ≠ [])
    (hids : ∀ m ∈ k.inst.messages, msgFilter U o.filter m = true → Printable U m.id ∧ m.id.length ≤ 4)
    (hsome : ∃ m ∈ k.inst.messages, msgFilter U o.filter m = true) (h' : ForcedMsgs C E U V' o' disk r' k path key) (hf : o'.filter = { ids := listedIds r }) :
    r'.outcome = .ok () ∧ ∃ rest : List Msg, rest.Perm (k.inst.messages.filter (fun m => !msgFilter U o.filter m)) ∧ Stored C r'.state.disk path key { k.inst with messages := rest } := by
  have hin := mem_listed hU h hl hd hn hp hk hok h'.differ hne hids
  rw [show listedIds r = o'.filter.ids by rw [hf]] at hin
  obtain ⟨x, hx, hq⟩ := hsome
  obtain ⟨t, -, q⟩ := (C54_messages hC h'.runs h'.delete h'.yes h'.noNew h'.noOutput h'.access h'.opened h'.differ).2 ⟨x, hx, (hin x hx).2 hq⟩
  obtain ⟨q1, -, -, rest, q2, q3⟩ := q path key h'.writes h'.room h'.fileKey h'.keySize h'.groupSize h'.keyLength h'.columns h'.keyColumns
  refine ⟨q1 h'.noList, rest, ?_, q3⟩
  rw [← List.filter_congr (fun x hx => ?_)]
  · exact q2
  · have := hin x hx
    by_cases e : msgFilter U o.filter x = true
    · rw [e, decide_eq_true (this.2 e)]
    · rw [Bool.eq_false_iff.2 e, decide_eq_false (fun c => e (this.1 c))]

/-- non-vacuity: a file with the messages X1 and X2; the listing asked for X2 shows it, and deleting what it shows leaves X1 -/
theorem exCopiedMsgs {C : Codec} (hC : C.Lawful) (E : PwEnv) : ∃ (r r' : Course) (k : Krypto), messagesCommand C E unicode15 exMsgsEnv { file := [1], access := exAccess, list := true, filter := { ids := [lit "X2"] } } (exHolds C exMsgsStore) = some r ∧
    r.outcome = .ok () ∧ (prepared E exAccess [1]).1 = .ok () ∧ load C E exMsgsEnv.loadW (exHolds C exMsgsStore) (prepared E exAccess [1]).2 = some (.ok (), k) ∧
    (∀ m ∈ k.inst.messages, m.id ≠ []) ∧ (∀ m ∈ k.inst.messages, msgFilter unicode15 { ids := [lit "X2"] } m = true → Printable unicode15 m.id ∧ m.id.length ≤ 4) ∧
    (∃ m ∈ k.inst.messages, msgFilter unicode15 { ids := [lit "X2"] } m = true) ∧ listedIds r = [lit "X2"] ∧
    ForcedMsgs C E unicode15 exMsgsEnv (exForcedMsgs { ids := listedIds r }) (exHolds C exMsgsStore) r' k [1] exPFK := by
  obtain ⟨k, hl, hsame, -, -⟩ := load_exStore hC E exMsgsStore 0 (by decide) (by decide) (by decide) (by decide)
  have hp : (prepared E exAccess [1]).1 = .ok () := by rw [prepared_example]
  have hids : k.inst.messages.map Msg.id = [lit "X1", lit "X2"] := by rw [sameStore_msgIds hsame]; decide
  have hall : ∀ m ∈ k.inst.messages, m.id ∈ [lit "X1", lit "X2"] := fun x hx => hids ▸ List.mem_map_of_mem hx
  have hpr : ∀ i ∈ [lit "X1", lit "X2"], Printable unicode15 i ∧ i.length ≤ 4 := by decide
  have hne0 : ∀ m ∈ k.inst.messages, m.id ≠ [] := fun m hm => (hpr _ (hall m hm)).1.1
  have hkeys : k.inst.keys = [] := List.forall₂_nil_right_iff.1 hsame.keys
  have hlen : k.inst.messages.length = 2 := by simpa using congrArg List.length hids
  obtain ⟨header, lines, hsum⟩ := summary_noKeys (U := unicode15) (fresh := exMsgsEnv.fresh) (date := exMsgsEnv.date) (digest := exMsgsEnv.digest) (filter := msgFilter unicode15 { ids := [lit "X2"] }) hkeys hne0
  have hrun : ∃ r, messagesCommand C E unicode15 exMsgsEnv { file := [1], access := exAccess, list := true, filter := { ids := [lit "X2"] } } (exHolds C exMsgsStore) = some r ∧ r.outcome = .ok () := by
    unfold messagesCommand
    have hop : openStore C E exMsgsEnv.loadW exAccess [1] (exHolds C exMsgsStore) = some (.go ⟨exHolds C exMsgsStore, k, [], []⟩) := openStore_ok hp hl
    rw [if_neg (by decide)]
    dsimp only
    rw [hop]
    simp only [andThen_go, messagesDelete, messagesNew, Bool.false_eq_true, if_false]
    unfold messagesList
    dsimp only
    rw [if_pos rfl, if_neg (by rw [hlen]; decide), hsum]
    dsimp only
    split <;> exact ⟨_, rfl, rfl⟩
  obtain ⟨r, hr, hok⟩ := hrun
  have hvet : vettedMessageIds unicode15 [lit "X2"] = [lit "X2"] := (vetted_printable unicode15_lawful (by decide)).2
  have hf : ∀ m : Msg, msgFilter unicode15 { ids := [lit "X2"] } m = decide (m.id = lit "X2") := by
    intro m
    rw [Bool.eq_iff_iff]
    simp [msgFilter, hvet, listed, equalRunes_iff]
  have hli : listedIds r = [lit "X2"] := by
    rw [listedIds_messages unicode15_lawful hr rfl rfl rfl hp hl hok (by rw [hids]; decide) hne0 (fun m hm _ => hpr _ (hall m hm))]
    rw [show msgFilter unicode15 { ids := [lit "X2"] } = (fun i : Runes => decide (i = lit "X2")) ∘ Msg.id from funext hf, ← List.filter_map, hids]
    decide
  obtain ⟨m, hm, hmi⟩ := List.mem_map.1 (show lit "X2" ∈ k.inst.messages.map Msg.id by rw [hids]; decide)
  obtain ⟨r', k', h', -⟩ := exForcedMsgs_runs hC E { ids := listedIds r } ⟨_, List.mem_cons_of_mem _ List.mem_cons_self, .inr (by rw [hli, if_pos (by rw [hvet]; simp), hvet]; decide)⟩
  have hkk : k' = k := by
    have := h'.opened.symm.trans hl
    simpa using this
  rw [hkk] at h'
  exact ⟨r, r', k, hr, hok, hp, hl, hne0, fun m hm _ => hpr _ (hall m hm), ⟨m, hm, by rw [hf, decide_eq_true hmi]⟩, hli, h'⟩

/-- **C136**, messages, other uses: list messages with any filter; then `--list` and `--output`, alone or together, do the same with the ids read off as with the filter. -/
theorem C136_messages_same {C : Codec} {E : PwEnv} {U : Unicode} (hU : U.Lawful) {V V' : MsgsEnv} {o o' : MsgsCmd} {disk : Disk} {r : Course} {k : Krypto}
    (h : messagesCommand C E U V o disk = some r) (hl : o.list = true) (hd : o.delete = false) (hn : o.new = false)
    (hp : (prepared E o.access o.file).1 = .ok ()) (hk : load C E V.loadW disk (prepared E o.access o.file).2 = some (.ok (), k))
    (hok : r.outcome = .ok ()) (hnd : (k.inst.messages.map Msg.id).Nodup) (hne : ∀ m ∈ k.inst.messages, m.id ≠ [])
    (hids : ∀ m ∈ k.inst.messages, msgFilter U o.filter m = true → Printable U m.id ∧ m.id.length ≤ 4)
    (hsome : ∃ m ∈ k.inst.messages, msgFilter U o.filter m = true) (hd' : o'.delete = false) (hn' : o'.new = false)
    (hp' : (prepared E o'.access o'.file).1 = .ok ()) (hk' : load C E V'.loadW disk (prepared E o'.access o'.file).2 = some (.ok (), k)) :
    messagesCommand C E U V' { o' with filter := { ids := listedIds r } } disk = messagesCommand C E U V' { o' with filter := o.filter } disk := by
  have hin := mem_listed hU h hl hd hn hp hk hok hnd hne hids
  obtain ⟨x, hx, hq⟩ := hsome
  have hpos : (vettedMessageIds U (listedIds r)).length > 0 := List.length_pos_of_mem ((hin x hx).2 hq)
  have hFG : ∀ m, selector m ∈ k.inst.messages.map selector → msgFilter U { ids := listedIds r } m = msgFilter U o.filter m := by
    intro m hm
    obtain ⟨y, hy, e⟩ := List.mem_map.1 hm
    rw [← msgFilter_selector e, ← msgFilter_selector e, Bool.eq_iff_iff, ← hin y hy, ← listed_iff]
    unfold msgFilter
    dsimp only
    rw [if_neg Bool.false_ne_true, if_pos hpos]
  have hL : ∀ z ∈ k.inst.messages.map selector, z.1 ≠ [] := by
    intro z hz
    obtain ⟨y, hy, rfl⟩ := List.mem_map.1 hz
    exact hne y hy
  obtain ⟨g1, g2⟩ := scan_agree (U := U) (fresh := V'.fresh) hFG hL (List.range k.inst.messages.length) k.inst rfl
  have hsum : summaryOfMessages U V'.fresh V'.date V'.digest (msgFilter U { ids := listedIds r }) k.inst = summaryOfMessages U V'.fresh V'.date V'.digest (msgFilter U o.filter) k.inst := by
    unfold summaryOfMessages
    rw [g1]
  have hkept : ∀ i hd ls, summaryOfMessages U V'.fresh V'.date V'.digest (msgFilter U o.filter) k.inst = .ok (i, hd, ls) → i.messages.map selector = k.inst.messages.map selector := by
    intro i hd ls hs
    unfold summaryOfMessages at hs
    rw [← g1] at hs
    rcases hc : scanMessages U V'.fresh (msgFilter U { ids := listedIds r }) (List.range k.inst.messages.length) k.inst with ⟨i1, sel⟩ | e | _
    · rw [hc] at hs
      simp only [Outcome.ok.injEq, Prod.mk.injEq] at hs
      rw [← hs.1]
      exact g2 (i1, sel) hc
    · rw [hc] at hs; cases hs
    · rw [hc] at hs; cases hs
  have hsel : ∀ i : Inst, i.messages.map selector = k.inst.messages.map selector → i.messages.filter (msgFilter U { ids := listedIds r }) = i.messages.filter (msgFilter U o.filter) :=
    fun i hi => List.filter_congr (fun y hy => hFG y (hi ▸ List.mem_map_of_mem hy))
  have hany : ∀ f, MsgsCmd.any { o' with filter := f } = o'.any := fun _ => rfl
  have hop : openStore C E V'.loadW o'.access o'.file disk = some (.go ⟨disk, k, [], []⟩) := openStore_ok hp' hk'
  have e1 : ∀ f s, messagesDelete C E U V' { o' with filter := f } s = some (.go s) := fun f s => by unfold messagesDelete; dsimp only; rw [hd']; rfl
  have e2 : ∀ f s, messagesNew C E U V' { o' with filter := f } s = some (.go s) := fun f s => by unfold messagesNew; dsimp only; rw [hn']; rfl
  have e3 : messagesList U V' { o' with filter := { ids := listedIds r } } ⟨disk, k, [], []⟩ = messagesList U V' { o' with filter := o.filter } ⟨disk, k, [], []⟩ := by
    unfold messagesList
    dsimp only
    rw [hsum]
  have e4 : ∀ t, messagesList U V' { o' with filter := o.filter } ⟨disk, k, [], []⟩ = .go t → t.k.inst.messages.map selector = k.inst.messages.map selector := by
    intro t ht
    unfold messagesList at ht
    dsimp only at ht
    split at ht
    · split at ht
      · cases ht
      · split at ht
        · cases ht
        · cases ht
        · rename_i hs
          split at ht
          · cases ht
          · cases ht
            exact hkept _ _ _ hs
    · cases ht
      rfl
  unfold messagesCommand
  rw [hany { ids := listedIds r }, hany o.filter]
  by_cases ha : (!o'.any) = true
  · simp only [ha, if_true]
  simp only [ha]
  rw [hop]
  simp only [andThen_go, e1, e2, e3]
  rcases ht : messagesList U V' { o' with filter := o.filter } ⟨disk, k, [], []⟩ with t | ⟨oc, t⟩
  · simp only [andThen_go]
    rw [hsel _ (e4 t ht)]
  · rfl

/-- non-vacuity: on the file with X1 and X2 `--output` writes the same for the ids listed as for the filter -/
example {C : Codec} (hC : C.Lawful) (E : PwEnv) : ∃ r : Course, listedIds r = [lit "X2"] ∧
    messagesCommand C E unicode15 exMsgsEnv { file := [1], access := exAccess, output := some [2], filter := { ids := listedIds r } } (exHolds C exMsgsStore) =
      messagesCommand C E unicode15 exMsgsEnv { file := [1], access := exAccess, output := some [2], filter := { ids := [lit "X2"] } } (exHolds C exMsgsStore) := by
  obtain ⟨r, r', k, hr, hok, hp, hl, hne, hpr, hsome, hli, hf⟩ := exCopiedMsgs hC E
  refine ⟨r, hli, ?_⟩
  have hd := hf.differ
  clear hf hli
  generalize exHolds C exMsgsStore = disk at hr hl ⊢
  exact C136_messages_same (V := exMsgsEnv) (V' := exMsgsEnv) (o := { file := [1], access := exAccess, list := true, filter := { ids := [lit "X2"] } }) (o' := { file := [1], access := exAccess, output := some [2] }) (k := k)
    unicode15_lawful hr rfl rfl rfl hp hl hok hd hne hpr hsome rfl rfl hp hl

end K431
