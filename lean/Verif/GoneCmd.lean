import Verif.GoneLemmas
import Verif.CmdEx

/-!
# What the commands that delete save
-/

namespace K431
open Spec

/-- what `keys --delete --yes` does if a key is listed -/
theorem keysDelete_course {C : Codec} {E : PwEnv} {U : Unicode} (hU : U.Lawful) {V : KeysEnv} {o : KeysCmd} {disk : Disk} {r : Course} {k : Krypto}
    (h : keysCommand C E U V o disk = some r) (hdel : o.delete = true) (hyes : o.yes = true)
    (hnew : o.newKeys = none) (himp : o.importFile = none) (hexp : o.exportFile = none) (hout : o.output = none)
    (hp : (prepared E o.access o.file).1 = .ok ()) (hl : load C E V.loadW disk (prepared E o.access o.file).2 = some (.ok (), k))
    (hd : DistinctNames U (k.inst.keys.map (fun x => x.id.val))) (hex : ∃ x ∈ k.inst.keys, InFold U x.id.val (vettedKeepers U o.filter.ids)) :
    ∃ run, save C E V.deleteW disk { k with inst := (deleteKey U V.noise k.inst (vettedKeepers U o.filter.ids)).2 } = some run ∧ r.outcome = run.outcome ∧
      r.state.disk = run.disk disk ∧ r.state.touched = [⟨run.k.persistence, run.contents⟩] := by
  have hop := prepared_opened hl
  obtain ⟨-, e2, -⟩ := deleteKey_apart hop.apart hd V.noise (vettedKeepers U o.filter.ids) (not_inFold_nil hU _)
  obtain ⟨x, hx, hi⟩ := hex
  unfold keysCommand at h
  rw [if_neg (by simp [KeysCmd.any, hdel]), openStore_ok hp hl, andThen_go] at h
  simp only [keysDelete, hdel, hyes, if_true, Bool.not_true, Bool.false_eq_true, if_false] at h
  have hnone : ∀ s : Cmd, keysNew C E U V o s = some (.go s) := fun s => by unfold keysNew; rw [hnew]
  have hinone : ∀ s : Cmd, keysImport C E U V o s = some (.go s) := fun s => by unfold keysImport; rw [himp]
  have hxnone : ∀ s : Cmd, keysExport C E U V o s = some (.go s) := fun s => by unfold keysExport; rw [hexp]
  have hpos : (deleteKey U V.noise k.inst (vettedKeepers U o.filter.ids)).1 > 0 := by
    rw [e2]
    exact List.length_pos_of_mem (List.mem_filter.2 ⟨hx, by simpa using hi⟩)
  rw [if_neg (by have := List.length_pos_of_mem hx; omega), if_pos hpos] at h
  generalize hs : ({ disk := disk, k := { k with inst := (deleteKey U V.noise k.inst (vettedKeepers U o.filter.ids)).2 }, touched := [], printed := [] } : Cmd) = s at h
  cases hsv : saveStep C E V.deleteW s with
  | none => rw [hsv] at h; simp [andThen] at h
  | some q =>
    obtain ⟨run, hrun, hq⟩ := saveStep_some hsv
    have hrs : (∃ p, r.state = { s.saved run with printed := p }) ∧ (r.outcome = run.outcome) := by
      rw [hsv, hq] at h
      by_cases hok : run.outcome = .ok ()
      · rw [check_ok hok, andThen_go, hnone, andThen_go, hinone, andThen_go, hxnone] at h
        obtain ⟨a, b⟩ := keysRest hout _ h
        exact ⟨a, b.trans hok.symm⟩
      · rw [check_stop hok] at h
        simp only [andThen_stop, Option.some.injEq] at h
        subst h; exact ⟨⟨_, rfl⟩, rfl⟩
    obtain ⟨⟨p, hp⟩, hrs⟩ := hrs
    refine ⟨run, by rw [← hs] at hrun; exact hrun, hrs, by rw [hp, ← hs]; rfl, by rw [hp, ← hs]; rfl⟩

/-- what `messages --delete --yes` does if a message is listed -/
theorem messagesDelete_course {C : Codec} {E : PwEnv} {U : Unicode} {V : MsgsEnv} {o : MsgsCmd} {disk : Disk} {r : Course} {k : Krypto}
    (h : messagesCommand C E U V o disk = some r) (hdel : o.delete = true) (hyes : o.yes = true) (hnew : o.new = false) (hout : o.output = none)
    (hp : (prepared E o.access o.file).1 = .ok ()) (hl : load C E V.loadW disk (prepared E o.access o.file).2 = some (.ok (), k))
    (hd : (k.inst.messages.map Msg.id).Nodup) (hex : ∃ m ∈ k.inst.messages, m.id ∈ vettedMessageIds U o.filter.ids) :
    ∃ run, save C E V.deleteW disk { k with inst := (deleteMessage V.noise k.inst (vettedMessageIds U o.filter.ids)).2 } = some run ∧
      r.state.disk = run.disk disk ∧ r.state.touched = [⟨run.k.persistence, run.contents⟩] := by
  have hop := prepared_opened hl
  obtain ⟨-, e2, -⟩ := deleteMessage_apart hop.apart hd V.noise (vettedMessageIds U o.filter.ids)
  obtain ⟨x, hx, hi⟩ := hex
  unfold messagesCommand at h
  rw [if_neg (by simp [MsgsCmd.any, hdel]), openStore_ok hp hl, andThen_go] at h
  simp only [messagesDelete, hdel, hyes, if_true, Bool.not_true, Bool.false_eq_true, if_false] at h
  have hnone : ∀ s : Cmd, messagesNew C E U V o s = some (.go s) := fun s => by unfold messagesNew; rw [hnew]; rfl
  have hpos : (deleteMessage V.noise k.inst (vettedMessageIds U o.filter.ids)).1 > 0 := by
    rw [e2]
    exact List.length_pos_of_mem (List.mem_filter.2 ⟨hx, by simpa using hi⟩)
  rw [if_neg (by have := List.length_pos_of_mem hx; omega), if_pos hpos] at h
  generalize hs : ({ disk := disk, k := { k with inst := (deleteMessage V.noise k.inst (vettedMessageIds U o.filter.ids)).2 }, touched := [], printed := [] } : Cmd) = s at h
  cases hsv : saveStep C E V.deleteW s with
  | none => rw [hsv] at h; simp [andThen] at h
  | some q =>
    obtain ⟨run, hrun, hq⟩ := saveStep_some hsv
    have hrs : r.state.disk = (s.saved run).disk ∧ r.state.touched = (s.saved run).touched := by
      rw [hsv, hq] at h
      by_cases hok : run.outcome = .ok ()
      · rw [check_ok hok, andThen_go, hnone] at h
        obtain ⟨a, b, -⟩ := messagesRest hout _ h
        exact ⟨a, b⟩
      · rw [check_stop hok] at h
        simp only [andThen_stop, Option.some.injEq] at h
        subst h; exact ⟨rfl, rfl⟩
    exact ⟨run, by rw [← hs] at hrun; exact hrun, by rw [hrs.1, ← hs]; rfl, by rw [hrs.2, ← hs]; rfl⟩

theorem disk_alike {q q' : SaveRun} (hc : q.contents = q'.contents) (hp : q.k.persistence = q'.k.persistence) (disk disk' : Disk) {t : Touch} (ht : t ∈ [(⟨q.k.persistence, q.contents⟩ : Touch)])
    (hne : t.contents ≠ []) : q.disk disk t.path = q'.disk disk' t.path := by
  rw [List.mem_singleton] at ht
  subst ht
  unfold SaveRun.disk
  rw [← hc, ← hp]
  rcases hl : q.contents.getLast? with _ | c
  · exact absurd (List.getLast?_eq_none_iff.1 hl) hne
  · dsimp only
    rw [set_same, set_same]

/-- stores that are the same as two that are the same but for some keys and messages -/
theorem SameBut_between {U : Unicode} {kids mids : List Runes} {x y a b : Inst} (hx : SameStore x a) (hy : SameStore y b) (h : SameBut U kids mids a b) : SameBut U kids mids x y where
  groupSize := hx.groupSize.trans (h.groupSize.trans hy.groupSize.symm)
  keyLength := hx.keyLength.trans (h.keyLength.trans hy.keyLength.symm)
  columns := hx.columns.trans (h.columns.trans hy.columns.symm)
  keyColumns := hx.keyColumns.trans (h.keyColumns.trans hy.keyColumns.symm)
  callSign := hx.callSign.trans (h.callSign.trans hy.callSign.symm)
  keys := by
    have h1 := hx.keys
    have h2 := hy.keys
    have h3 := h.keys
    generalize x.keys = p at h1 ⊢
    generalize y.keys = q at h2 ⊢
    generalize a.keys = c at h1 h3
    generalize b.keys = d at h2 h3
    induction h3 generalizing p q with
    | nil => cases h1; cases h2; exact .nil
    | cons e _ ih =>
      cases h1 with
      | cons f1 g1 =>
      cases h2 with
      | cons f2 g2 =>
        refine .cons ⟨f1.id.trans (e.1.trans f2.id.symm), ?_⟩ (ih _ _ g1 g2)
        rcases e.2 with e | e
        · exact .inl ⟨f1.id.trans (e.id.trans f2.id.symm), f1.runes.trans (e.runes.trans f2.runes.symm), f1.keepers.trans (e.keepers.trans f2.keepers.symm),
            f1.created.trans (e.created.trans f2.created.symm), f1.expires.trans (e.expires.trans f2.expires.symm), f1.used.trans (e.used.trans f2.used.symm),
            f1.compromised.trans (e.compromised.trans f2.compromised.symm), f1.comment.trans (e.comment.trans f2.comment.symm)⟩
        · exact .inr (by rw [f1.id]; exact e)
  messages := by
    have h1 := hx.messages
    have h2 := hy.messages
    have h3 := h.messages
    generalize x.messages = p at h1 ⊢
    generalize y.messages = q at h2 ⊢
    generalize a.messages = c at h1 h3
    generalize b.messages = d at h2 h3
    induction h3 generalizing p q with
    | nil => cases h1; cases h2; exact .nil
    | cons e _ ih =>
      cases h1 with
      | cons f1 g1 =>
      cases h2 with
      | cons f2 g2 =>
        refine .cons ⟨f1.id.trans (e.1.trans f2.id.symm), ?_⟩ (ih _ _ g1 g2)
        rcases e.2 with e | e
        · exact .inl ⟨f1.id.trans (e.id.trans f2.id.symm), f1.recipients.trans (e.recipients.trans f2.recipients.symm), f1.from_.trans (e.from_.trans f2.from_.symm),
            f1.dtg.trans (e.dtg.trans f2.dtg.symm), f1.keyId.trans (e.keyId.trans f2.keyId.symm), f1.plainText.trans (e.plainText.trans f2.plainText.symm),
            f1.cipherText.trans (e.cipherText.trans f2.cipherText.symm), f1.radiogram.trans (e.radiogram.trans f2.radiogram.symm)⟩
        · exact .inr (by rw [f1.id]; exact e)

end K431
