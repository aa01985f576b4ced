import Verif.ToldLemmas
import Verif.PropsSummary
import Verif.PropsShow
import Verif.StoreCmdLemmas
import Verif.DeleteLemmas
import Verif.PropsDelete

/-!
# C135: --list shows exactly what is selected
-/

namespace K431
open Spec

/-- **C135**, `keys --list` (with or without `--output`): on a file that can be loaded, what is printed is nothing if no key passes the filter, else one listing: it names the file, the call-sign and the numbers of keys and
messages in the file, and below the heading has one line for each key that passes the filter, in the order of the file; the line begins with the id of the key. -/
theorem C135_keys {C : Codec} {E : PwEnv} {U : Unicode} (hU : U.Lawful) {V : KeysEnv} {o : KeysCmd} {disk : Disk} {r : Course} {k : Krypto} (h : keysCommand C E U V o disk = some r)
    (hl : o.list = true) (hd : o.delete = false) (hn : o.newKeys = none) (hi : o.importFile = none) (he : o.exportFile = none)
    (hp : (prepared E o.access o.file).1 = .ok ()) (hk : load C E V.loadW disk (prepared E o.access o.file).2 = some (.ok (), k))
    (hids : ∀ x ∈ k.inst.keys, keyFilter U V.now o.filter x = true → Printable U x.id.val ∧ x.id.val.length ≤ k.inst.groupSize) :
    let shown := k.inst.keys.filter (keyFilter U V.now o.filter)
    (shown = [] → r.state.printed = []) ∧
    (shown ≠ [] → ∃ header rows, r.state.printed = [.listing k.persistence (goStr k.inst.callSign) k.inst.keys.length k.inst.messages.length (header :: rows)] ∧
      rows.map (fun l => l.takeWhile (fun c => c != 32)) = shown.map (fun x => x.id.val)) := by
  intro shown
  unfold keysCommand at h
  rw [if_neg (by simp [KeysCmd.any, hl]), openStore_ok hp hk, andThen_skip (f := keysDelete C E U V o) (fun s => by unfold keysDelete; rw [hd]; rfl),
    andThen_skip (f := keysNew C E U V o) (fun s => by unfold keysNew; rw [hn]), andThen_skip (f := keysImport C E U V o) (fun s => by unfold keysImport; rw [hi]),
    andThen_skip (f := keysExport C E U V o) (fun s => by unfold keysExport; rw [he]), andThen_go] at h
  have hlines : (summaryOfKeys V.date (keyFilter U V.now o.filter) k.inst).2.length = shown.length := by simp [summaryOfKeys, shown]
  unfold keysList at h
  dsimp only at h
  rw [if_pos hl] at h
  constructor
  · intro h0
    have hz : (summaryOfKeys V.date (keyFilter U V.now o.filter) k.inst).2.length = 0 := by rw [hlines, h0]; rfl
    by_cases hk0 : k.inst.keys.length = 0
    · rw [if_pos hk0, andThen_stop, Option.some.injEq] at h; rw [← h]; rfl
    · rw [if_neg hk0, if_pos hz, andThen_stop, Option.some.injEq] at h; rw [← h]; rfl
  · intro h0
    have hpos : shown.length ≠ 0 := fun e => h0 (List.length_eq_zero_iff.1 e)
    have hk0 : k.inst.keys.length ≠ 0 := by
      intro e
      rw [List.length_eq_zero_iff] at e
      exact h0 (by simp [shown, e])
    rw [if_neg hk0, if_neg (by rw [hlines]; exact hpos), andThen_go, Option.some.injEq] at h
    obtain ⟨-, hz, -⟩ := C55_keys U hU V.date (keyFilter U V.now o.filter) k.inst hids
    refine ⟨_, _, by rw [← h, outputStep_printed]; rfl, ?_⟩
    apply List.ext_getElem
    · simp only [List.length_map]; exact hlines
    · intro i h1 h2
      simp only [List.length_map] at h1 h2
      simp only [List.getElem_map]
      have hmem : (shown[i], (summaryOfKeys V.date (keyFilter U V.now o.filter) k.inst).2[i]) ∈ shown.zip (summaryOfKeys V.date (keyFilter U V.now o.filter) k.inst).2 := by
        rw [← List.getElem_zip (h := by rw [List.length_zip]; omega)]
        exact List.getElem_mem _
      have := hz _ hmem
      obtain ⟨hm, hf⟩ := List.mem_filter.1 (List.getElem_mem h2)
      obtain ⟨hpr, -⟩ := hids _ hm hf
      exact trimRight_keeps (fun c hc => (hpr.2 c hc).2.2) this

/-- non-vacuity: the file with three keys; the listing has three lines -/
example {C : Codec} (hC : C.Lawful) (E : PwEnv) : ∃ (r : Course) (k : Krypto), keysCommand C E unicode15 exKeysEnv { file := [1], access := exAccess, list := true } (exStoreDisk C) = some r ∧
    (prepared E exAccess [1]).1 = .ok () ∧ load C E exKeysEnv.loadW (exStoreDisk C) (prepared E exAccess [1]).2 = some (.ok (), k) ∧
    (∀ x ∈ k.inst.keys, keyFilter unicode15 exKeysEnv.now {} x = true → Printable unicode15 x.id.val ∧ x.id.val.length ≤ k.inst.groupSize) ∧
    ∃ header rows, r.state.printed = [.listing k.persistence (goStr k.inst.callSign) 3 k.inst.messages.length (header :: rows)] ∧
      rows.map (fun l => l.takeWhile (fun c => c != 32)) = exStore.keys.map (fun x => x.id.val) := by
  obtain ⟨k, hl, hs, -, -⟩ := load_exStore hC E exStore 0 (by decide) (by decide) (by decide) (by decide)
  have hp : (prepared E exAccess [1]).1 = .ok () := by rw [prepared_example]
  have hids : k.inst.keys.map (fun x => x.id.val) = exStore.keys.map (fun x => x.id.val) := sameStore_ids hs
  have hgs : k.inst.groupSize = exStore.groupSize := hs.groupSize
  have hall : ∀ i ∈ exStore.keys.map (fun x => x.id.val), Printable unicode15 i ∧ i.length ≤ exStore.groupSize := by decide
  have hpr : ∀ x ∈ k.inst.keys, keyFilter unicode15 exKeysEnv.now {} x = true → Printable unicode15 x.id.val ∧ x.id.val.length ≤ k.inst.groupSize := by
    intro x hx _
    rw [hgs]
    exact hall _ (hids ▸ List.mem_map_of_mem hx)
  have hrun : ∃ r, keysCommand C E unicode15 exKeysEnv { file := [1], access := exAccess, list := true } (exStoreDisk C) = some r := by
    unfold keysCommand
    have hop : openStore C E exKeysEnv.loadW exAccess [1] (exStoreDisk C) = some (.go ⟨exStoreDisk C, k, [], []⟩) := openStore_ok hp hl
    rw [if_neg (by decide)]
    dsimp only
    rw [hop]
    simp only [andThen_go, keysDelete, keysNew, keysImport, keysExport, Bool.false_eq_true, if_false]
    generalize keysList unicode15 exKeysEnv { file := [1], access := exAccess, list := true } _ = c
    cases c <;> exact ⟨_, rfl⟩
  obtain ⟨r, hr⟩ := hrun
  have hlen : k.inst.keys.length = 3 := by simpa [exStore] using congrArg List.length hids
  have hsel : k.inst.keys.filter (keyFilter unicode15 exKeysEnv.now {}) = k.inst.keys := List.filter_eq_self.2 (fun a _ => rfl)
  obtain ⟨-, h2⟩ := C135_keys unicode15_lawful hr rfl rfl rfl rfl rfl hp hl hpr
  dsimp only at h2
  rw [hsel, hlen, hids] at h2
  exact ⟨r, k, hr, hp, hl, hpr, h2 (by intro e; rw [e] at hlen; cases hlen)⟩

/-- **C135**, `messages --list`, likewise, if the command does not fail and every message has an id of its own. -/
theorem C135_messages {C : Codec} {E : PwEnv} {U : Unicode} (hU : U.Lawful) {V : MsgsEnv} {o : MsgsCmd} {disk : Disk} {r : Course} {k : Krypto} (h : messagesCommand C E U V o disk = some r)
    (hl : o.list = true) (hd : o.delete = false) (hn : o.new = false) (hp : (prepared E o.access o.file).1 = .ok ()) (hk : load C E V.loadW disk (prepared E o.access o.file).2 = some (.ok (), k))
    (hok : r.outcome = .ok ()) (hnd : (k.inst.messages.map Msg.id).Nodup) (hne : ∀ m ∈ k.inst.messages, m.id ≠ [])
    (hids : ∀ m ∈ k.inst.messages, msgFilter U o.filter m = true → Printable U m.id ∧ m.id.length ≤ 4) :
    let shown := (k.inst.messages.filter (msgFilter U o.filter)).map Msg.id
    (shown = [] → r.state.printed = []) ∧
    (shown ≠ [] → ∃ header rows, r.state.printed = [.listing k.persistence (goStr k.inst.callSign) k.inst.keys.length k.inst.messages.length (header :: rows)] ∧
      rows.map (fun l => l.takeWhile (fun c => c != 32)) = shown) := by
  intro shown
  unfold messagesCommand at h
  rw [if_neg (by simp [MsgsCmd.any, hl]), openStore_ok hp hk, andThen_skip (f := messagesDelete C E U V o) (fun s => by unfold messagesDelete; rw [hd]; rfl),
    andThen_skip (f := messagesNew C E U V o) (fun s => by unfold messagesNew; rw [hn]; rfl), andThen_go] at h
  unfold messagesList at h
  dsimp only at h
  rw [if_pos hl] at h
  by_cases hk0 : k.inst.messages.length = 0
  · rw [if_pos hk0, andThen_stop, Option.some.injEq] at h
    rw [List.length_eq_zero_iff] at hk0
    exact ⟨fun _ => by rw [← h]; rfl, fun h0 => absurd (by simp [shown, hk0]) h0⟩
  rw [if_neg hk0] at h
  rcases hs : summaryOfMessages U V.fresh V.date V.digest (msgFilter U o.filter) k.inst with ⟨inst, header, lines⟩ | e | _
  · rw [hs] at h
    dsimp only at h
    obtain ⟨hsame, hlen, hz, -⟩ := C55_messages U hU V.fresh V.date V.digest (msgFilter U o.filter) k.inst inst header lines hnd hne hids hs
    have hmess : inst.messages.length = k.inst.messages.length := by simpa using congrArg List.length hsame
    have heff : ScanEffect k.inst inst := by
      unfold summaryOfMessages at hs
      rcases hc : scanMessages U V.fresh (msgFilter U o.filter) (List.range k.inst.messages.length) k.inst with ⟨i1, sel⟩ | e | _
      · rw [hc] at hs
        simp only [Outcome.ok.injEq, Prod.mk.injEq] at hs
        obtain ⟨rfl, -⟩ := hs
        exact scan_effect _ _ _ _ (load_keyIds hk) hne hc
      · rw [hc] at hs; cases hs
      · rw [hc] at hs; cases hs
    have hcall : inst.callSign = k.inst.callSign := by
      obtain ⟨nx, e⟩ := heff.frame
      rw [e]
    have hkeys : inst.keys.length = k.inst.keys.length := heff.keys.length_eq.symm
    constructor
    · intro h0
      have hz : lines.length = 0 := by rw [hlen]; show shown.length = 0; rw [h0]; rfl
      rw [if_pos hz, andThen_stop, Option.some.injEq] at h; rw [← h]; rfl
    · intro h0
      rw [if_neg (by rw [hlen]; exact fun e => h0 (List.length_eq_zero_iff.1 e)), andThen_go, Option.some.injEq] at h
      refine ⟨_, _, by rw [← h, outputStep_printed]; unfold listingOf; dsimp only; rw [hmess, hcall, hkeys, List.map_cons]; rfl, ?_⟩
      apply List.ext_getElem
      · simp only [List.length_map]; rw [hlen]
      · intro i h1 h2
        simp only [List.length_map] at h1
        simp only [List.getElem_map]
        have hmem : (shown[i], lines[i]) ∈ shown.zip lines := by
          rw [← List.getElem_zip (h := by rw [List.length_zip]; omega)]
          exact List.getElem_mem _
        have := hz _ hmem
        obtain ⟨m, hm, he⟩ := List.mem_map.1 (List.getElem_mem h2)
        obtain ⟨hm, hf⟩ := List.mem_filter.1 hm
        obtain ⟨hpr, -⟩ := hids _ hm hf
        rw [he] at hpr
        exact trimRight_keeps (fun c hc => (hpr.2 c hc).2.2) this
  · rw [hs] at h
    simp only [andThen_stop, Option.some.injEq] at h
    rw [← h] at hok; cases hok
  · rw [hs] at h
    simp only [andThen_stop, Option.some.injEq] at h
    rw [← h] at hok; cases hok

/-- non-vacuity: the file with two messages; the listing has two lines -/
example {C : Codec} (hC : C.Lawful) (E : PwEnv) : ∃ (r : Course) (k : Krypto), messagesCommand C E unicode15 exMsgsEnv { file := [1], access := exAccess, list := true } (exMsgsDisk C) = some r ∧
    r.outcome = .ok () ∧ (prepared E exAccess [1]).1 = .ok () ∧ load C E exMsgsEnv.loadW (exMsgsDisk C) (prepared E exAccess [1]).2 = some (.ok (), k) ∧
    ∃ header rows, r.state.printed = [.listing k.persistence (goStr k.inst.callSign) 0 2 (header :: rows)] ∧ rows.map (fun l => l.takeWhile (fun c => c != 32)) = [lit "X1", lit "X2"] := by
  obtain ⟨k, hl, hsame, -, -⟩ := load_exStore hC E exMsgsStore 0 (by decide) (by decide) (by decide) (by decide)
  have hp : (prepared E exAccess [1]).1 = .ok () := by rw [prepared_example]
  have hids : k.inst.messages.map Msg.id = [lit "X1", lit "X2"] := by rw [sameStore_msgIds hsame]; decide
  have hall : ∀ m ∈ k.inst.messages, m.id ∈ [lit "X1", lit "X2"] := fun x hx => hids ▸ List.mem_map_of_mem hx
  have hpr : ∀ i ∈ [lit "X1", lit "X2"], Printable unicode15 i ∧ i.length ≤ 4 := by decide
  have hne0 : ∀ m ∈ k.inst.messages, m.id ≠ [] := fun m hm => (hpr _ (hall m hm)).1.1
  have hkeys : k.inst.keys = [] := List.forall₂_nil_right_iff.1 hsame.keys
  have hlen : k.inst.messages.length = 2 := by simpa using congrArg List.length hids
  obtain ⟨header, lines, hsum⟩ := summary_noKeys (U := unicode15) (fresh := exMsgsEnv.fresh) (date := exMsgsEnv.date) (digest := exMsgsEnv.digest) (filter := msgFilter unicode15 {}) hkeys hne0
  have hrun : ∃ r, messagesCommand C E unicode15 exMsgsEnv { file := [1], access := exAccess, list := true } (exMsgsDisk C) = some r ∧ r.outcome = .ok () := by
    unfold messagesCommand
    have hop : openStore C E exMsgsEnv.loadW exAccess [1] (exMsgsDisk C) = some (.go ⟨exMsgsDisk C, k, [], []⟩) := openStore_ok hp hl
    rw [if_neg (by decide)]
    dsimp only
    rw [hop]
    simp only [andThen_go, messagesDelete, messagesNew, Bool.false_eq_true, if_false]
    unfold messagesList
    dsimp only
    rw [if_pos rfl, if_neg (by rw [hlen]; decide), hsum]
    dsimp only
    split <;> exact ⟨_, rfl, rfl⟩
  obtain ⟨r, hr, hok⟩ := hrun
  obtain ⟨-, h2⟩ := C135_messages unicode15_lawful hr rfl rfl rfl hp hl hok (by rw [hids]; decide) hne0 (fun m hm _ => hpr _ (hall m hm))
  dsimp only at h2
  have hsel : k.inst.messages.filter (msgFilter unicode15 {}) = k.inst.messages := List.filter_eq_self.2 (fun a _ => rfl)
  rw [hsel, hids, hkeys, hlen] at h2
  exact ⟨r, k, hr, hok, hp, hl, h2 (by simp)⟩

end K431
