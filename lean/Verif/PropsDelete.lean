import Verif.DeleteLemmas
import Verif.CmdEx

/-!
# Deleting what the user ticks: C79
-/

namespace K431
open Spec

/-- **C79**, keys.  `keys --delete` without `--yes`, with any filter, with `--list` and `--output` or not, on a file that can be loaded, whose key ids differ up to case, the selected ones printable.
If no key is selected, the question is not answered or nothing is ticked, no file but the output file is touched; an unanswered question is an error.  If the user ticks some of the lines shown, the file holds afterwards, if it can be
written, everything it held before except exactly the keys on the lines ticked, and no other file but the output file is changed. -/
theorem C79_keys {C : Codec} (hC : C.Lawful) {E : PwEnv} {U : Unicode} (hU : U.Lawful) {V : KeysEnv} {o : KeysCmd} {disk : Disk} {r : Course} {k : Krypto}
    (h : keysCommand C E U V o disk = some r) (hdel : o.delete = true) (hyes : o.yes = false)
    (hnew : o.newKeys = none) (himp : o.importFile = none) (hexp : o.exportFile = none)
    (hp : (prepared E o.access o.file).1 = .ok ()) (hl : load C E V.loadW disk (prepared E o.access o.file).2 = some (.ok (), k))
    (hd : DistinctNames U (k.inst.keys.map (fun x => x.id.val)))
    (hids : ∀ x ∈ k.inst.keys, keyFilter U V.now o.filter x = true → Printable U x.id.val ∧ x.id.val.length ≤ k.inst.groupSize) :
    let shown := k.inst.keys.filter (keyFilter U V.now o.filter)
    let lines := (summaryOfKeys V.date (keyFilter U V.now o.filter) k.inst).2
    (shown = [] ∨ V.choose (lines.map goStr) = none ∨ V.choose (lines.map goStr) = some [] →
      (∀ p, o.output ≠ some p → r.state.disk p = disk p ∧ ∀ t ∈ r.state.touched, t.path ≠ p) ∧
      (shown ≠ [] → V.choose (lines.map goStr) = none → r.outcome ≠ .ok ())) ∧
    (∀ response path key, shown ≠ [] → V.choose (lines.map goStr) = some response → response ≠ [] → (∀ a ∈ response, a ∈ lines.map goStr) →
      Reads V.deleteW k path → V.deleteW.room = none → k.pfk = some key → key.length = 32 →
      k.inst.groupSize ≠ 0 → k.inst.keyLength ≠ 0 → k.inst.columns ≠ 0 → k.inst.keyColumns ≠ 0 → o.output ≠ some path →
      (o.output = none → r.outcome = .ok ()) ∧ (∀ p, p ≠ path → o.output ≠ some p → r.state.disk p = disk p) ∧
      ∃ rest, rest.Perm (k.inst.keys.filter (fun x => !decide (Chosen shown lines response x))) ∧ Stored C r.state.disk path key { k.inst with keys := rest }) := by
  intro shown lines
  have hop := prepared_opened hl
  unfold keysCommand at h
  rw [if_neg (by simp [KeysCmd.any, hdel]), openStore_ok hp hl, andThen_go,
    andThen_skip (f := keysNew C E U V o) (fun s => by unfold keysNew; rw [hnew]),
    andThen_skip (f := keysImport C E U V o) (fun s => by unfold keysImport; rw [himp]),
    andThen_skip (f := keysExport C E U V o) (fun s => by unfold keysExport; rw [hexp])] at h
  simp only [keysDelete, hdel, hyes, if_true, Bool.not_false] at h
  have hlen : lines.length = shown.length := by simp [lines, shown, summaryOfKeys]
  have hlines : lines = shown.map (keyLine V.date (keySizes k.inst.groupSize shown)) := rfl
  change andThen (andThen (if k.inst.keys.length = 0 then _ else if lines.length = 0 then _ else match V.choose (lines.map goStr) with | none => _ | some response => _) _) _ = some r at h
  constructor
  · intro hno
    by_cases h0 : k.inst.keys.length = 0
    · have hs : shown = [] := by simp [shown, List.length_eq_zero_iff.1 h0]
      rw [if_pos h0] at h
      refine ⟨fun p hop' => ?_, fun hne => absurd hs hne⟩
      obtain ⟨a, l, b, c⟩ := keysTail hop' h
      exact ⟨a, by rw [b]; simpa [Course.state] using c⟩
    rw [if_neg h0] at h
    by_cases h1 : lines.length = 0
    · rw [if_pos h1] at h
      refine ⟨fun p hop' => ?_, fun hne => absurd (List.length_eq_zero_iff.1 (hlen ▸ h1)) hne⟩
      obtain ⟨a, l, b, c⟩ := keysTail hop' h
      exact ⟨a, by rw [b]; simpa [Course.state] using c⟩
    rw [if_neg h1] at h
    have hsh : shown ≠ [] := fun e => h1 (by rw [hlen, e]; rfl)
    rcases hno with hno | hno | hno
    · exact absurd hno hsh
    · rw [hno] at h
      refine ⟨fun p hop' => ?_, fun _ _ => ?_⟩
      · obtain ⟨a, l, b, c⟩ := keysTail hop' h
        exact ⟨a, by rw [b]; simpa [Course.state] using c⟩
      · simp only [andThen_stop, Option.some.injEq] at h
        subst h
        simp [Course.outcome]
    · rw [hno] at h
      simp only [List.length_nil, Nat.lt_irrefl, if_false, gt_iff_lt] at h
      refine ⟨fun p hop' => ?_, fun _ hn => by rw [hno] at hn; cases hn⟩
      obtain ⟨a, l, b, c⟩ := keysTail hop' h
      exact ⟨a, by rw [b]; simpa [Course.state] using c⟩
  · intro response path key hsh hch hne hresp hr hroom hkey hlen32 g0 g1 g2 g3 hout
    have h0 : ¬ k.inst.keys.length = 0 := by
      intro h0
      exact hsh (by simp [shown, List.length_eq_zero_iff.1 h0])
    rw [if_neg h0, if_neg (by rw [hlen]; exact fun e => hsh (List.length_eq_zero_iff.1 e)), hch] at h
    obtain ⟨e1, e2, e3⟩ := deleteSummary_apart hU hop.apart hd V.date (keyFilter U V.now o.filter) hids V.noises response hresp
    have hpos : (deleteKeysBySummary U V.noises k.inst response).1 > 0 := by
      rw [e2]
      exact chosen_pos hne hresp
    dsimp only at h
    rw [if_pos (List.length_pos_of_ne_nil hne), if_pos hpos] at h
    obtain ⟨s', hdone, -, -, -, hother, hst⟩ := saveStep_done hC (E := E) (W := V.deleteW) (s := ⟨disk, { k with inst := (deleteKeysBySummary U V.noises k.inst response).2 }, [], []⟩)
      (path := path) (key := key) ⟨hr.named, hr.path, hr.stat, hr.opens⟩ hkey hlen32 hop.overwrite hroom
    rw [hdone] at h
    refine ⟨fun hno => keysTail_ok hno h, ?_, _, e1, ?_⟩
    · intro p hpp hop'
      rw [(keysTail hop' h).1]
      exact hother p hpp
    · refine stored_congr (keysTail hout h).1 ?_
      dsimp only at hst
      rw [e3] at hst
      exact hst g0 g1 g2 g3

/-- a user who ticks the first line -/
def exTick : KeysEnv := { exKeysEnv with choose := fun l => some (l.take 1) }

/-- with the file of three keys the command runs through and every premise holds -/
example {C : Codec} (hC : C.Lawful) (E : PwEnv) :
    ∃ (r : Course) (k : Krypto), keysCommand C E unicode15 exTick { file := [1], access := exAccess, delete := true } (exStoreDisk C) = some r ∧ r.outcome = .ok () ∧
      k.inst.keys.map (fun x => x.id.val) = [lit "A", lit "B", lit "C"] ∧
      ∃ rest : List Key, rest.length < 3 ∧ Stored C r.state.disk [1] exPFK { k.inst with keys := rest } := by
  obtain ⟨k, hl, hsame, hpfk, hper⟩ := load_exStore hC E exStore 0 (by decide) (by decide) (by decide) (by decide)
  have hp : (prepared E exAccess [1]).1 = .ok () := by rw [prepared_example]
  obtain ⟨r, hr⟩ := keysCommand_asks (C := C) (E := E) (U := unicode15) (V := exTick) (o := { file := [1], access := exAccess, delete := true }) (disk := exStoreDisk C)
    rfl rfl rfl rfl hp hl
  have hids : k.inst.keys.map (fun x => x.id.val) = [lit "A", lit "B", lit "C"] := by rw [sameStore_ids hsame]; decide
  have hk3 : k.inst.keys.length = 3 := by simpa using congrArg List.length hids
  have hall : ∀ x ∈ k.inst.keys, x.id.val ∈ [lit "A", lit "B", lit "C"] := fun x hx => hids ▸ List.mem_map_of_mem hx
  have hpr : ∀ i ∈ [lit "A", lit "B", lit "C"], Printable unicode15 i ∧ i.length ≤ 5 := by decide
  have hgs : k.inst.groupSize = 5 := hsame.groupSize
  have hfil : ∀ x : Key, keyFilter unicode15 exTick.now {} x = true := fun x => rfl
  have H := C79_keys hC unicode15_lawful hr rfl rfl rfl rfl rfl hp hl (by rw [hids]; decide) (fun x hx _ => by rw [hgs]; exact hpr _ (hall x hx))
  have hlines : (summaryOfKeys exTick.date (keyFilter unicode15 exTick.now {}) k.inst).2.length = 3 := by
    simp only [summaryOfKeys, List.length_map]
    rw [List.filter_eq_self.2 (fun x _ => hfil x), hk3]
  have hsh : k.inst.keys.filter (keyFilter unicode15 exTick.now {}) ≠ [] := by
    rw [List.filter_eq_self.2 (fun x _ => hfil x)]
    intro e
    rw [e] at hk3
    cases hk3
  have hne : ((summaryOfKeys exTick.date (keyFilter unicode15 exTick.now {}) k.inst).2.map goStr).take 1 ≠ [] := by
    intro e
    have := congrArg List.length e
    simp [hlines] at this
  obtain ⟨a, -, rest, hperm, hst⟩ := H.2 _ [1] exPFK hsh rfl hne (fun a ha => List.mem_of_mem_take ha) ⟨by rw [hper]; decide, by rw [hper]; rfl, rfl, rfl⟩ rfl hpfk (by decide)
    (by rw [hgs]; decide) (by rw [hsame.keyLength]; decide) (by rw [hsame.columns]; decide) (by rw [hsame.keyColumns]; decide) (by decide)
  refine ⟨r, k, hr, a rfl, hids, rest, ?_, hst⟩
  rw [hperm.length_eq, ← hk3]
  have hpos := chosen_pos hne (fun a ha => List.mem_of_mem_take ha)
  refine (List.length_filter_lt_length_iff_exists).2 ?_
  obtain ⟨x, hx⟩ := List.exists_mem_of_length_pos hpos
  obtain ⟨hx1, hx2⟩ := List.mem_filter.1 hx
  have hx3 := of_decide_eq_true hx2
  refine ⟨x, hx1, ?_⟩
  simp only [Bool.not_eq_true, Bool.not_eq_false', decide_eq_true_eq]
  exact hx3

/-- **C79**, messages.  `messages --delete` without `--yes`, with any filter, with `--list` and `--output` or not, on a file that can be loaded, whose messages all have ids, all different, the selected ones printable.
For the summary the command tries to decipher what is not deciphered yet; suppose this does not panic.  If no message is selected, the question is not answered or nothing is ticked, no file but the output file is touched.  If
the user ticks some of the lines shown, the file holds afterwards, if it can be written, exactly the messages that were not ticked, in the form in which they were shown (as before, or deciphered), the keys as before,
possibly marked as used, and everything else as before; no other file but the output file is changed. -/
theorem C79_messages {C : Codec} (hC : C.Lawful) {E : PwEnv} {U : Unicode} (hU : U.Lawful) {V : MsgsEnv} {o : MsgsCmd} {disk : Disk} {r : Course} {k : Krypto} {inst' : Inst} {header : Runes} {lines : List Runes}
    (h : messagesCommand C E U V o disk = some r) (hdel : o.delete = true) (hyes : o.yes = false) (hnew : o.new = false)
    (hp : (prepared E o.access o.file).1 = .ok ()) (hl : load C E V.loadW disk (prepared E o.access o.file).2 = some (.ok (), k))
    (hnd : (k.inst.messages.map Msg.id).Nodup) (hne : ∀ m ∈ k.inst.messages, m.id ≠ []) (hids : ∀ m ∈ k.inst.messages, msgFilter U o.filter m = true → Printable U m.id ∧ m.id.length ≤ 4)
    (hsum : summaryOfMessages U V.fresh V.date V.digest (msgFilter U o.filter) k.inst = .ok (inst', header, lines)) :
    let shown := (k.inst.messages.filter (msgFilter U o.filter)).map Msg.id
    lines.length = shown.length ∧
    (shown = [] ∨ V.choose (lines.map goStr) = none ∨ V.choose (lines.map goStr) = some [] →
      (∀ p, o.output ≠ some p → r.state.disk p = disk p ∧ ∀ t ∈ r.state.touched, t.path ≠ p) ∧
      (shown ≠ [] → V.choose (lines.map goStr) = none → r.outcome ≠ .ok ())) ∧
    (∀ response path key, shown ≠ [] → V.choose (lines.map goStr) = some response → response ≠ [] → (∀ a ∈ response, a ∈ lines.map goStr) →
      Reads V.deleteW k path → V.deleteW.room = none → k.pfk = some key → key.length = 32 →
      k.inst.groupSize ≠ 0 → k.inst.keyLength ≠ 0 → k.inst.columns ≠ 0 → k.inst.keyColumns ≠ 0 → o.output ≠ some path →
      (o.output = none → o.list = false → r.outcome = .ok ()) ∧ (∀ p, p ≠ path → o.output ≠ some p → r.state.disk p = disk p) ∧
      ∃ keys' seen rest, List.Forall₂ MarkedSince k.inst.keys keys' ∧ List.Forall₂ (SeenAs (k.inst.keys.map (fun x => x.id.val))) k.inst.messages seen ∧
        rest.Perm (seen.filter (fun m => !decide (Chosen shown lines response m.id))) ∧ Stored C r.state.disk path key { k.inst with keys := keys', messages := rest }) := by
  intro shown
  have hop := prepared_opened hl
  obtain ⟨hscan, hlen, hdele⟩ := deleteMsgSummary_apart hU (load_keyIds hl) hnd hne hids hsum
  unfold messagesCommand at h
  rw [if_neg (by simp [MsgsCmd.any, hdel]), openStore_ok hp hl, andThen_go,
    andThen_skip (f := messagesNew C E U V o) (fun s => by unfold messagesNew; rw [hnew]; rfl)] at h
  simp only [messagesDelete, hdel, hyes, if_true, Bool.not_false, hsum] at h
  have hlen' : lines.length = shown.length := by rw [hlen]; simp [shown]
  refine ⟨hlen', ?_, ?_⟩
  · intro hno
    by_cases h0 : k.inst.messages.length = 0
    · have hs : shown = [] := by simp [shown, List.length_eq_zero_iff.1 h0]
      rw [if_pos h0] at h
      refine ⟨fun p hop' => ?_, fun hne => absurd hs hne⟩
      obtain ⟨a, l, b, c⟩ := messagesTail hop' h
      exact ⟨a, by rw [b]; simpa [Course.state] using c⟩
    rw [if_neg h0] at h
    by_cases h1 : lines.length = 0
    · rw [if_pos h1] at h
      refine ⟨fun p hop' => ?_, fun hne => absurd (List.length_eq_zero_iff.1 (hlen' ▸ h1)) hne⟩
      obtain ⟨a, l, b, c⟩ := messagesTail hop' h
      exact ⟨a, by rw [b]; simpa [Course.state] using c⟩
    rw [if_neg h1] at h
    have hsh : shown ≠ [] := fun e => h1 (by rw [hlen', e]; rfl)
    rcases hno with hno | hno | hno
    · exact absurd hno hsh
    · rw [hno] at h
      refine ⟨fun p hop' => ?_, fun _ _ => ?_⟩
      · obtain ⟨a, l, b, c⟩ := messagesTail hop' h
        exact ⟨a, by rw [b]; simpa [Course.state] using c⟩
      · simp only [andThen_stop, Option.some.injEq] at h
        subst h
        simp [Course.outcome]
    · rw [hno] at h
      simp only [List.length_nil, Nat.lt_irrefl, if_false, gt_iff_lt] at h
      refine ⟨fun p hop' => ?_, fun _ hn => by rw [hno] at hn; cases hn⟩
      obtain ⟨a, l, b, c⟩ := messagesTail hop' h
      exact ⟨a, by rw [b]; simpa [Course.state] using c⟩
  · intro response path key hsh hch hne' hresp hr hroom hkey hlen32 g0 g1 g2 g3 hout
    have h0 : ¬ k.inst.messages.length = 0 := by
      intro h0
      exact hsh (by simp [shown, List.length_eq_zero_iff.1 h0])
    rw [if_neg h0, if_neg (by rw [hlen']; exact fun e => hsh (List.length_eq_zero_iff.1 e)), hch] at h
    obtain ⟨e1, hpos, e3⟩ := hdele V.noises response hne' hresp
    dsimp only at h
    rw [if_pos (List.length_pos_of_ne_nil hne'), if_pos hpos] at h
    obtain ⟨s', hdone, -, -, -, hother, hst⟩ := saveStep_done hC (E := E) (W := V.deleteW) (s := ⟨disk, { k with inst := (deleteMessagesBySummary U V.noises inst' response).2 }, [], []⟩)
      (path := path) (key := key) ⟨hr.named, hr.path, hr.stat, hr.opens⟩ hkey hlen32 hop.overwrite hroom
    rw [hdone] at h
    refine ⟨fun hno hnl => (messagesRest hno _ h).2.2 hnl, ?_, _, _, _, hscan.keys, hscan.messages, e1, ?_⟩
    · intro p hpp hop'
      rw [(messagesTail hop' h).1]
      exact hother p hpp
    · refine stored_congr (messagesTail hout h).1 ?_
      obtain ⟨nx, hfr⟩ := hscan.frame
      dsimp only at hst
      have e4 : (deleteMessagesBySummary U V.noises inst' response).2 =
          { k.inst with keys := inst'.keys, messages := (deleteMessagesBySummary U V.noises inst' response).2.messages, nextAddr := nx } := by
        have hrec : ∀ q i j : Inst, q = { i with messages := q.messages } → i = { j with keys := i.keys, messages := i.messages, nextAddr := nx } →
            q = { j with keys := i.keys, messages := q.messages, nextAddr := nx } := by
          rintro ⟨⟩ ⟨⟩ ⟨⟩ h1 h2
          obtain ⟨a1, a2, a3, a4, a5, -, a7, a8⟩ := Inst.mk.inj h1
          obtain ⟨b1, b2, b3, b4, -, -, b7, b8⟩ := Inst.mk.inj h2
          dsimp only at *
          rw [a1, a2, a3, a4, a5, a7, a8, b1, b2, b3, b4, b7, b8]
        exact hrec _ _ _ e3 hfr
      rw [e4] at hst
      have hst := hst g0 g1 g2 g3
      intro E W k1 hb hr hk
      obtain ⟨k2, l2, ⟨a, b, c, d, e, f, g⟩⟩ := hst E W k1 hb hr hk
      exact ⟨k2, l2, ⟨a, b, c, d, e, f, g⟩⟩

/-- a user who ticks the first line -/
def exTickMsg : MsgsEnv := { exMsgsEnv with choose := fun l => some (l.take 1) }

/-- with the file of two messages the command runs through and every premise holds -/
example {C : Codec} (hC : C.Lawful) (E : PwEnv) :
    ∃ (r : Course) (k : Krypto) (header : Runes) (lines : List Runes), messagesCommand C E unicode15 exTickMsg { file := [1], access := exAccess, delete := true } (exMsgsDisk C) = some r ∧ r.outcome = .ok () ∧
      summaryOfMessages unicode15 exTickMsg.fresh exTickMsg.date exTickMsg.digest (msgFilter unicode15 {}) k.inst = .ok (k.inst, header, lines) ∧ lines.length = 2 ∧
      k.inst.messages.map Msg.id = [lit "X1", lit "X2"] ∧
      ∃ (keys' : List Key) (seen rest : List Msg), rest.Perm (seen.filter (fun m => !decide (Chosen (k.inst.messages.map Msg.id) lines ((lines.map goStr).take 1) m.id))) ∧
        Stored C r.state.disk [1] exPFK { k.inst with keys := keys', messages := rest } := by
  obtain ⟨k, hl, hsame, hpfk, hper⟩ := load_exStore hC E exMsgsStore 0 (by decide) (by decide) (by decide) (by decide)
  have hp : (prepared E exAccess [1]).1 = .ok () := by rw [prepared_example]
  obtain ⟨r, hr⟩ := messagesCommand_asks (C := C) (E := E) (U := unicode15) (V := exTickMsg) (o := { file := [1], access := exAccess, delete := true }) (disk := exMsgsDisk C)
    rfl rfl hp hl
  have hids : k.inst.messages.map Msg.id = [lit "X1", lit "X2"] := by rw [sameStore_msgIds hsame]; decide
  have hall : ∀ m ∈ k.inst.messages, m.id ∈ [lit "X1", lit "X2"] := fun x hx => hids ▸ List.mem_map_of_mem hx
  have hpr : ∀ i ∈ [lit "X1", lit "X2"], Printable unicode15 i ∧ i.length ≤ 4 := by decide
  have hne0 : ∀ m ∈ k.inst.messages, m.id ≠ [] := fun m hm => (hpr _ (hall m hm)).1.1
  have hkeys : k.inst.keys = [] := by
    have := hsame.keys
    exact List.forall₂_nil_right_iff.1 this
  obtain ⟨header, lines, hsum⟩ := summary_noKeys (U := unicode15) (fresh := exTickMsg.fresh) (date := exTickMsg.date) (digest := exTickMsg.digest) (filter := msgFilter unicode15 {}) hkeys hne0
  have hfil : ∀ m : Msg, msgFilter unicode15 {} m = true := fun m => rfl
  have hshown : (k.inst.messages.filter (msgFilter unicode15 {})).map Msg.id = k.inst.messages.map Msg.id := by rw [List.filter_eq_self.2 (fun x _ => hfil x)]
  have H := C79_messages hC unicode15_lawful hr rfl rfl rfl hp hl (by rw [hids]; decide) hne0 (fun m hm _ => hpr _ (hall m hm)) hsum
  dsimp only at H
  rw [hshown] at H
  have hlen : lines.length = 2 := by rw [H.1, hids]; rfl
  have hne : (lines.map goStr).take 1 ≠ [] := by
    intro e
    have := congrArg List.length e
    simp [hlen] at this
  obtain ⟨a, -, keys', seen, rest, -, -, hperm, hst⟩ := H.2.2 _ [1] exPFK (by rw [hids]; decide) rfl hne (fun a ha => List.mem_of_mem_take ha)
    ⟨by rw [hper]; decide, by rw [hper]; rfl, rfl, rfl⟩ rfl hpfk (by decide)
    (by rw [hsame.groupSize]; decide) (by rw [hsame.keyLength]; decide) (by rw [hsame.columns]; decide) (by rw [hsame.keyColumns]; decide) (by decide)
  exact ⟨r, k, header, lines, hr, a rfl rfl, hsum, hlen, hids, keys', seen, rest, hperm, hst⟩

end K431
