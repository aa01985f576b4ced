import Verif.SealedLemmas
import Verif.PropsCmd
import Verif.PropsInit
import Verif.PropsStoreCmd
import Verif.PropsShow
import Verif.PropsRekey
import Verif.PropsRuns
import Verif.PropsOrder

/-!
# C82: nothing is written in the clear unless asked for
-/

namespace K431
open Spec

/-- **C82**, `keys`.  Every file that the command writes is either the file named with `--output`, and then contains nothing but the printed text of keys that pass the filter or the beginning
of it, or, at all times, the beginning of one encryption with the key that opened the store.  Nothing is printed on the screen but, with `--list`,
a listing, and that tells nothing of the letters of any key. -/
theorem C82_keys {C : Codec} {E : PwEnv} {U : Unicode} {V : KeysEnv} {o : KeysCmd} {disk disk' : Disk} {r : Course} (h : keysCommand C E U V o disk = some r)
    (hd : MayLeave disk r disk') :
    (∀ p ∈ r.state.printed, o.list = true ∧ KeyListing U V.date (keyFilter U V.now o.filter) p) ∧
    ∀ p, disk' p = disk p ∨ ∃ c, disk' p = some c ∧ (Shown (fun x => keyFilter U V.now o.filter x = true) V.render o.output p c ∨
      ∃ k key, load C E V.loadW disk (prepared E o.access o.file).2 = some (.ok (), k) ∧ k.pfk = some key ∧ Encrypted C key c) := by
  unfold keysCommand at h
  split at h
  · simp only [Option.some.injEq] at h
    subst h
    exact ⟨by simp [Course.state], fun p => .inl (untouched_leaves rfl rfl hd p)⟩
  cases ho : openStore C E V.loadW o.access o.file disk with
  | none => rw [ho] at h; cases h
  | some q =>
    rw [ho] at h
    rcases openStore_cases ho with ⟨e, k, -, rfl⟩ | ⟨k, hp, hl, -, rfl⟩
    · simp only [andThen_stop, Option.some.injEq] at h
      subst h
      exact ⟨by simp [Course.state], fun p => .inl (untouched_leaves rfl rfl hd p)⟩
    · obtain ⟨key, hk⟩ := load_opens hl
      have hs : Sealed C disk key (Shown (fun x => keyFilter U V.now o.filter x = true) V.render o.output) (fun p => o.list = true ∧ KeyListing U V.date (keyFilter U V.now o.filter) p) r.state := by
        refine andThen_state h ?_ ?_
        · intro q hq
          refine andThen_state hq ?_ ?_
          · intro q hq
            refine andThen_state hq ?_ (fun s hs q hq => hs.keysExport hq)
            intro q hq
            refine andThen_state hq ?_ (fun s hs q hq => hs.keysImport hq)
            intro q hq
            refine andThen_state hq ?_ (fun s hs q hq => hs.keysNew hq)
            intro q hq
            refine andThen_state hq ?_ (fun s hs q hq => hs.keysDelete hq)
            intro q hq
            simp only [Option.some.injEq] at hq
            rw [← hq]
            exact ⟨hk, by simp [Course.state], fun p => .inl rfl, by simp [Course.state]⟩
          · intro s hs q hq
            simp only [Option.some.injEq] at hq
            rw [← hq]
            exact hs.keysList (fun hl p hp => ⟨hl, hp⟩)
        · intro s hs q hq
          simp only [Option.some.injEq] at hq
          rw [← hq]
          exact hs.output (fun x hx => (List.mem_filter.1 hx).2)
      refine ⟨hs.printed, ?_⟩
      intro p
      rcases hs.traced.leaves hd p with h | ⟨t, ht, rfl, c, hc, e⟩
      · exact .inl h
      · refine .inr ⟨c, e, ?_⟩
        rcases hs.touched t ht c hc with h | h
        · exact .inl h
        · exact .inr ⟨k, key, hl, hk, h⟩

/-- **C82**, `messages`.  The same for messages; with `--new` the new message is printed, with `--list` a listing, and nothing else. -/
theorem C82_messages {C : Codec} {E : PwEnv} {U : Unicode} {V : MsgsEnv} {o : MsgsCmd} {disk disk' : Disk} {r : Course} (h : messagesCommand C E U V o disk = some r)
    (hd : MayLeave disk r disk') :
    (∀ p ∈ r.state.printed, (o.new = true ∧ ∃ m, p = .message m) ∨ (o.list = true ∧ MessageListing U V.fresh V.date V.digest (msgFilter U o.filter) p)) ∧
    ∀ p, disk' p = disk p ∨ ∃ c, disk' p = some c ∧ (Shown (fun x => msgFilter U o.filter x = true) V.render o.output p c ∨
      ∃ k key, load C E V.loadW disk (prepared E o.access o.file).2 = some (.ok (), k) ∧ k.pfk = some key ∧ Encrypted C key c) := by
  unfold messagesCommand at h
  split at h
  · simp only [Option.some.injEq] at h
    subst h
    exact ⟨by simp [Course.state], fun p => .inl (untouched_leaves rfl rfl hd p)⟩
  cases ho : openStore C E V.loadW o.access o.file disk with
  | none => rw [ho] at h; cases h
  | some q =>
    rw [ho] at h
    rcases openStore_cases ho with ⟨e, k, -, rfl⟩ | ⟨k, hp, hl, -, rfl⟩
    · simp only [andThen_stop, Option.some.injEq] at h
      subst h
      exact ⟨by simp [Course.state], fun p => .inl (untouched_leaves rfl rfl hd p)⟩
    · obtain ⟨key, hk⟩ := load_opens hl
      have hs : Sealed C disk key (Shown (fun x => msgFilter U o.filter x = true) V.render o.output) 
          (fun p => (o.new = true ∧ ∃ m, p = .message m) ∨ (o.list = true ∧ MessageListing U V.fresh V.date V.digest (msgFilter U o.filter) p)) r.state := by
        refine andThen_state h ?_ ?_
        · intro q hq
          refine andThen_state hq ?_ ?_
          · intro q hq
            refine andThen_state hq ?_ (fun s hs q hq => hs.messagesNew (fun hn m => .inl ⟨hn, m, rfl⟩) hq)
            intro q hq
            refine andThen_state hq ?_ (fun s hs q hq => hs.messagesDelete hq)
            intro q hq
            simp only [Option.some.injEq] at hq
            rw [← hq]
            exact ⟨hk, by simp [Course.state], fun p => .inl rfl, by simp [Course.state]⟩
          · intro s hs q hq
            simp only [Option.some.injEq] at hq
            rw [← hq]
            exact hs.messagesList (fun hl p hp => .inr ⟨hl, hp⟩)
        · intro s hs q hq
          simp only [Option.some.injEq] at hq
          rw [← hq]
          exact hs.output (fun x hx => (List.mem_filter.1 hx).2)
      refine ⟨hs.printed, ?_⟩
      intro p
      rcases hs.traced.leaves hd p with h | ⟨t, ht, rfl, c, hc, e⟩
      · exact .inl h
      · refine .inr ⟨c, e, ?_⟩
        rcases hs.touched t ht c hc with h | h
        · exact .inl h
        · exact .inr ⟨k, key, hl, hk, h⟩

/-- **C82**, `initialize`.  What is written is at all times the beginning of one encryption with the key the program now holds; nothing is printed. -/
theorem C82_init {C : Codec} {E : PwEnv} {U : Unicode} {V : InitEnv} {o : InitCmd} {disk disk' : Disk} {r : Course} (h : initCommand C E U V o disk = some r)
    (hd : MayLeave disk r disk') :
    r.state.printed = [] ∧ ∀ p, disk' p = disk p ∨ ∃ c key, disk' p = some c ∧ r.state.k.pfk = some key ∧ Encrypted C key c := by
  have hw : Written C disk (fun _ => False) r.state := by
    unfold initCommand at h
    dsimp only at h
    split at h
    · simp only [Option.some.injEq] at h
      rw [← h]
      exact ⟨by simp [Course.state], fun p => .inl rfl, by simp [Course.state]⟩
    split at h
    · split at h
      · simp only [Option.some.injEq] at h
        rw [← h]
        exact ⟨by simp [Course.state], fun p => .inl rfl, by simp [Course.state]⟩
      · exact initStore_written h
    · exact initStore_written h
  exact ⟨List.eq_nil_iff_forall_not_mem.2 hw.printed, hw.leaves hd⟩

/-- **C82**, `pfk`.  What is written is at all times the beginning of one encryption with the key the program now holds; a key or a salt is printed only if one is to be made. -/
theorem C82_pfk {C : Codec} {E : PwEnv} {V : PfkEnv} {o : PfkCmd} {disk disk' : Disk} {r : Course} (h : pfkCommand C E V o disk = some r)
    (hd : MayLeave disk r disk') :
    (∀ p ∈ r.state.printed, (o.genPFK = true ∨ o.genSalt = true ∨ o.random = true) ∧ ∃ s, p = .text s) ∧
    ∀ p, disk' p = disk p ∨ ∃ c key, disk' p = some c ∧ r.state.k.pfk = some key ∧ Encrypted C key c := by
  suffices hw : Written C disk (fun p => (o.genPFK = true ∨ o.genSalt = true ∨ o.random = true) ∧ ∃ s, p = .text s) r.state from ⟨hw.printed, hw.leaves hd⟩
  unfold pfkCommand at h
  dsimp only at h
  split at h
  · simp only [Option.some.injEq] at h
    rw [← h]
    exact ⟨by simp [Course.state], fun p => .inl rfl, by simp [Course.state]⟩
  split at h
  · rename_i hg
    exact generatePFK_written ⟨rfl, rfl, by simp⟩ (fun t => ⟨.inl hg, t, rfl⟩) h
  split at h
  · rename_i hg
    split at h
    all_goals
      simp only [Option.some.injEq] at h
      rw [← h]
      exact ⟨by simp [Course.state], fun p => .inl rfl, by simp [Course.state, hg]⟩
  split at h
  · simp only [Option.some.injEq] at h
    rw [← h]
    exact ⟨by simp [Course.state], fun p => .inl rfl, by simp [Course.state]⟩
  · refine andThen_written h ?_ (fun s hs q hq => changeFileKey_written hs (fun hr t => ⟨.inr (.inr hr), t, rfl⟩) hq)
    intro q hq
    refine andThen_state (Q := Unwritten disk _) hq (fun q hq => check_Q ⟨rfl, rfl, by simp⟩ hq) ?_
    intro s hs q hq
    unfold loadStep at hq
    cases hl : load C E V.loadW s.disk s.k with
    | none => rw [hl] at hq; cases hq
    | some x =>
      rw [hl, Option.map_some, Option.some.injEq] at hq
      rw [← hq, check_state]
      exact ⟨hs.same, hs.touched, hs.printed⟩

/-- What is encrypted with a key can not be opened with another one, complete or not. -/
theorem C82_closed {C : Codec} (hC : C.Lawful) {key c other : List Nat} (hk : 32 ≤ key.length) (h : Encrypted C key c) (hl : other.length = 32) (ho : other ≠ key.take 32) :
    C.dec other c = none := by
  obtain ⟨n, w, h⟩ := h
  rw [List.prefix_iff_eq_take] at h
  rw [h]
  exact hC.wrong _ _ n w _ (by simp [hk]) hl (Ne.symm ho)

/-- not everything is encrypted -/
example : ¬ Encrypted ⟨fun key _ _ => key, fun _ _ _ => 0, fun _ _ => none⟩ exPFK (ascii "KEYS") := by
  rintro ⟨n, w, h⟩
  have : ascii "KEYS" <+: exPFK := h.trans (List.take_prefix 32 exPFK)
  revert this; decide

/-- non-vacuity of `C82_keys`: with `--output` keys are printed to a file -/
example : ∃ (C : Codec) (E : PwEnv) (r : Course), keysCommand C E unicode15 (exShowEnv (ascii "KEYS")) (exShowCmd [2]) (exStoreDisk C) = some r ∧
    MayLeave (exStoreDisk C) r r.state.disk ∧ r.state.disk [2] ≠ exStoreDisk C [2] ∧
    ∃ c, r.state.disk [2] = some c ∧ Shown (fun x => keyFilter unicode15 (exShowEnv (ascii "KEYS")).now (exShowCmd [2]).filter x = true) (exShowEnv (ascii "KEYS")).render (exShowCmd [2]).output [2] c := by
  obtain ⟨C, hC⟩ := exists_lawful
  let E : PwEnv := ⟨fun _ _ => [], fun _ => true⟩
  obtain ⟨r, hr, ho, hd⟩ := exShow_runs hC E (ascii "KEYS") [2] (by simp)
  have hne : r.state.disk [2] ≠ exStoreDisk C [2] := by
    rw [hd, set_same, show exStoreDisk C [2] = exDisk [2] from set_other _ _ (by decide)]
    decide
  refine ⟨C, E, r, hr, .inl rfl, hne, ascii "KEYS", by rw [hd, set_same], rfl, .txt, [], ascii "KEYS", by simp, rfl, List.prefix_refl _⟩

/-- non-vacuity of `C82_messages`: a new message is printed and the file written -/
example : ∃ (C : Codec) (E : PwEnv) (r : Course) (m : Msg) (c : List Nat), C.Lawful ∧ messagesCommand C E unicode15 (exRunEnv "OP DE SM = HEJ" true) exNewCmd (exRunDisk C) = some r ∧
    MayLeave (exRunDisk C) r r.state.disk ∧ r.sent = [m] ∧ r.state.disk [1] = some c ∧ Encrypted C exPFK c := by
  obtain ⟨C, hC⟩ := exists_lawful
  let E : PwEnv := ⟨fun _ _ => [], fun _ => true⟩
  obtain ⟨r, i, m, h, hp, -, h2⟩ := exRun_command hC E true
  exact ⟨C, E, r, m, _, hC, h, .inl rfl, hp, (h2 rfl).2.1, 0, gobInst i, List.prefix_refl _⟩

/-- non-vacuity of `C82_init`: a file is written, encrypted -/
example : ∃ (C : Codec) (E : PwEnv) (r : Course) (c key : List Nat), C.Lawful ∧ initCommand C E unicode15 exInitEnv (exInit "SM0ABC") exDisk = some r ∧ MayLeave exDisk r r.state.disk ∧
    r.state.disk [1] = some c ∧ r.state.k.pfk = some key ∧ Encrypted C key c := by
  obtain ⟨C, hC⟩ := exists_lawful
  let E : PwEnv := ⟨fun _ _ => [], fun _ => true⟩
  obtain ⟨r, i, hr, hst, -, -⟩ := init_stored hC E "SM0ABC"
  obtain ⟨k', hl, -⟩ := hst E exWorld (prepared E exAccess [1]).2 (by rw [prepared_example]; exact ⟨newBase_blank.keys, newBase_blank.messages, newBase_blank.callSign, newBase_blank.spareKeys, newBase_blank.spareMsgs⟩) (by rw [prepared_example]; exact ⟨by simp, rfl, rfl, rfl⟩)
    (by rw [prepared_example]; exact Or.inl rfl)
  obtain ⟨path, key, c, w, h1, h2, -⟩ := load_ok hl
  rw [prepared_example] at h1
  have e : path = [1] := (Option.some.inj h1).symm
  subst e
  rcases (C82_init hr (.inl rfl)).2 [1] with h | ⟨c', key', h3, h4, h5⟩
  · rw [h2] at h; cases h
  · exact ⟨C, E, r, c', key', hC, hr, .inl rfl, h3, h4, h5⟩

/-- non-vacuity of `C82_pfk`: the key of a file is changed, and a new key is printed -/
example : ∃ (C : Codec) (E : PwEnv) (r : Course), pfkCommand C E exPfkEnv exTwoKeys (exStoreDisk C) = some r ∧ MayLeave (exStoreDisk C) r r.state.disk ∧ ¬ r.Untouched (exStoreDisk C) := by
  obtain ⟨C, hC⟩ := exists_lawful
  let E : PwEnv := ⟨fun _ _ => [], fun _ => true⟩
  obtain ⟨k, r, hl, hr, hro, ht⟩ := rekey_example hC E exTwoKeys rfl rfl rfl rfl rfl rfl exBytes (.random rfl rfl rfl (by decide)) (by decide) (Or.inl rfl)
  exact ⟨C, E, r, hr, .inl rfl, ht⟩

end K431
