import Verif.PersistEx

/-!
# C33: Load gives back what Save stored; C34: permission to overwrite; C35: crashes during Save; C36: only the right key opens the file; C37: Save without a key;
C65: success of Save means that the data is stored; C66: permission is given for one file

All theorems hold for every codec that obeys the laws `Codec.Lawful`; such a codec exists (`exists_lawful`).
-/

namespace K431

/-! ## C33 -/

/-- **C33**, within its range: if `Save` wrote the file and nothing failed while writing, then every blank instance that loads the file with the same key
gets exactly the saved settings, call-sign, keys and messages; other files are not changed.  The sizes have to be positive, as `Assert` requires. -/
theorem C33_partial {C : Codec} (hC : C.Lawful) {E : PwEnv} {W : World} {disk : Disk} {k : Krypto} {r : SaveRun} {key : List Nat}
    (hs : save C E W disk k = some r) (hok : r.outcome = .ok ()) (hw : r.contents ≠ []) (hroom : W.room = none)
    (hkey : r.k.pfk = some key) (hl : key.length = 32)
    (h0 : k.inst.groupSize ≠ 0) (h1 : k.inst.keyLength ≠ 0) (h2 : k.inst.columns ≠ 0) (h3 : k.inst.keyColumns ≠ 0) :
    Stored C (r.disk disk) r.k.persistence key k.inst ∧ ∀ p, p ≠ r.k.persistence → r.disk disk p = disk p := by
  rcases save_cases hs with ⟨e, -⟩ | ⟨path, key', -, -, -, -, e, -⟩
  · exact absurd e hw
  · subst e
    rw [saveWrite_k] at hkey ⊢
    obtain rfl : key' = key := by simpa using hkey
    have ho : W.openFails = false := by
      by_contra ho
      simp only [Bool.not_eq_false] at ho
      unfold saveWrite at hw
      rw [if_pos ho] at hw
      exact hw rfl
    obtain ⟨-, hd⟩ := saveWrite_done C W key' { k with persistence := path, pfk := some key' } hl ho hroom disk
    dsimp only at hd ⊢
    rw [hd]
    exact ⟨stored_of_dec hl (set_same _ _ _) (hC.right _ _ _ hl) h0 h1 h2 h3, fun p hp => set_other _ _ hp⟩

/-- **C33**, memory.  The store a blank instance has loaded is well separated: no two keys share the array of their id, and no message shares the array
of its key id with a key. -/
theorem C33_separate {C : Codec} {E : PwEnv} {W : World} {disk : Disk} {k k' : Krypto} {i : Inst} (hb : Blank k)
    (h : load C E W disk k = some (.ok (), k')) (hi : ∀ key c, disk k'.persistence = some c → C.dec key c = none ∨ C.dec key c = some (gobInst i))
    (h0 : i.groupSize ≠ 0) (h1 : i.keyLength ≠ 0) (h2 : i.columns ≠ 0) (h3 : i.keyColumns ≠ 0) :
    (k'.inst.keys.filter (fun x => x.id.val ≠ [])).Pairwise (fun x y => x.id.addr ≠ y.id.addr) ∧
    ∀ m ∈ k'.inst.messages, m.keyId.val ≠ [] → ∀ x ∈ k'.inst.keys, x.id.val ≠ [] → x.id.addr ≠ m.keyId.addr := by
  rcases load_cases h with ⟨e, -⟩ | ⟨path, key, -, -, -, e, -⟩
  · exact absurd rfl e
  · unfold loadRead at e
    split at e
    · simp at e
    · split at e
      · simp at e
      · dsimp only at e
        cases hd : disk path with
        | none => rw [hd] at e; simp at e
        | some c =>
          rw [hd] at e
          dsimp only at e
          cases hx : C.dec (key.take 32) c with
          | none => rw [hx] at e; simp at e
          | some w =>
            rw [hx] at e
            simp only [Prod.mk.injEq, true_and] at e
            subst e
            rcases hi (key.take 32) c hd with hn | hn
            · rw [hx] at hn; simp at hn
            · rw [hx] at hn
              obtain rfl : w = gobInst i := by simpa using hn
              obtain ⟨-, -, a, b⟩ := gobDecode_blank (k := { k with persistence := path, pfk := some key })
                ⟨hb.keys, hb.messages, hb.callSign, hb.spareKeys, hb.spareMsgs⟩ i h0 h1 h2 h3
              exact ⟨a, b⟩

/-- **C33** is violated: fields with their zero value are not stored.  A key is saved unused; an instance that has it marked used loads the file
without an error, and the key is still marked used. -/
theorem C33_violated {C : Codec} (hC : C.Lawful) (E : PwEnv) :
    ∃ W disk k r k1 k2, save C E W disk k = some r ∧ r.outcome = .ok () ∧ load C E W (r.disk disk) k1 = some (.ok (), k2) ∧
      k.inst.keys.map Key.used = [false] ∧ k2.inst.keys.map Key.used = [true] := by
  have hs := save_example C E (disk := exDisk) (W := exWorld) rfl (keys := [exPersistKey]) (b := true) (Or.inr rfl)
  obtain ⟨ho, hd⟩ := saveWrite_done C exWorld exPFK (exKrypto true [exPersistKey]) (by decide) rfl rfl exDisk
  exact ⟨_, _, _, _, exKrypto true [{ exPersistKey with used := true }], _, hs, ho, load_complete hC E rfl rfl (by rw [hd]; exact set_same _ _ _), rfl, by decide⟩

/-- **C33** is violated: an empty list is not stored.  An instance without keys is saved; an instance with a key loads the file without an error and still
has its key. -/
theorem C33_violated_empty {C : Codec} (hC : C.Lawful) (E : PwEnv) :
    ∃ W disk k r k1 k2, save C E W disk k = some r ∧ r.outcome = .ok () ∧ load C E W (r.disk disk) k1 = some (.ok (), k2) ∧
      k.inst.keys = [] ∧ k2.inst.keys = [exPersistKey] := by
  have hs := save_example C E (disk := exDisk) (W := exWorld) rfl (keys := []) (b := true) (Or.inr rfl)
  obtain ⟨ho, hd⟩ := saveWrite_done C exWorld exPFK (exKrypto true []) (by decide) rfl rfl exDisk
  exact ⟨_, _, _, _, exKrypto true [exPersistKey], _, hs, ho, load_complete hC E rfl rfl (by rw [hd]; exact set_same _ _ _), rfl, by decide⟩

/-- non-vacuity of `C33_partial`: for every lawful codec there is a successful run of `Save` that writes, and a blank instance that reads it -/
example {C : Codec} (hC : C.Lawful) (E : PwEnv) : ∃ r k2, save C E exWorld exDisk (exKrypto false [exPersistKey]) = some r ∧ r.outcome = .ok () ∧ r.contents ≠ [] ∧
    r.k.pfk = some exPFK ∧ Blank { newBase with persistence := [1], pfk := some exPFK } ∧
    load C E exWorld (r.disk exDisk) { newBase with persistence := [1], pfk := some exPFK } = some (.ok (), k2) ∧
    k2.inst.keys.map (fun x => x.id.val) = [[65]] := by
  have hs := save_example C E (disk := exDisk) (W := exWorld) rfl (keys := [exPersistKey]) (b := false) (Or.inl rfl)
  obtain ⟨ho, -⟩ := saveWrite_done C exWorld exPFK (exKrypto false [exPersistKey]) (by decide) rfl rfl exDisk
  have hc : (saveWrite C exWorld exPFK (exKrypto false [exPersistKey])).contents ≠ [] := by
    simp [saveWrite, exWorld, exPFK]
  have hk : (saveWrite C exWorld exPFK (exKrypto false [exPersistKey])).k = exKrypto false [exPersistKey] := saveWrite_k _ _ _ _
  have hb : Blank { newBase with persistence := [1], pfk := some exPFK } :=
    ⟨rfl, rfl, rfl, fun x hx => List.eq_of_mem_replicate hx, fun x hx => List.eq_of_mem_replicate hx⟩
  obtain ⟨h1, -⟩ := C33_partial hC hs ho hc rfl (by rw [hk]; rfl) (by decide) (by decide) (by decide) (by decide) (by decide)
  obtain ⟨k2, h2, h3⟩ := h1 E exWorld _ hb (by rw [hk]; exact ⟨by simp, by decide, rfl, rfl⟩) (Or.inl rfl)
  refine ⟨_, k2, hs, ho, hc, by rw [hk]; rfl, hb, h2, ?_⟩
  have := h3.keys
  generalize k2.inst.keys = l at this
  cases this with
  | cons a b => cases b; simp [a.id]; rfl

/-! ## C34 -/

/-- **C34.**  In whatever state the program dies during `Save`, or when it has returned: a file differs from before only if it is the file the instance
refers to, and if it existed, only if overwriting was enabled in the instance or the user has confirmed. -/
theorem C34_permission {C : Codec} {E : PwEnv} {W : World} {disk : Disk} {k : Krypto} {r : SaveRun} (h : save C E W disk k = some r) :
    r.disk disk ∈ r.crashes disk ∧
    ∀ d ∈ r.crashes disk, ∀ p, d p ≠ disk p → resolvePath W k.persistence = some p ∧
      (disk p = none ∨ k.overwrite = true ∨ (k.interactive = true ∧ W.terminal = true ∧ W.confirm = some true)) := by
  constructor
  · unfold SaveRun.disk SaveRun.crashes
    cases hl : r.contents.getLast? with
    | none => simp
    | some c =>
      exact List.mem_cons_of_mem _ (List.mem_map.2 ⟨c, List.mem_of_getLast? hl, rfl⟩)
  · intro d hd p hp
    rcases List.mem_cons.1 hd with rfl | hd
    · exact absurd rfl hp
    · obtain ⟨c, hc, rfl⟩ := List.mem_map.1 hd
      rcases save_cases h with ⟨e, -⟩ | ⟨path, key, h1, -, -, h2, e, -⟩
      · rw [e] at hc; simp at hc
      · subst e
        rw [saveWrite_k] at hp
        by_cases hpp : p = path
        · subst hpp; exact ⟨h1, h2⟩
        · exact absurd (set_other _ _ hpp) hp

/-- **C34**, histories.  Starting from a new instance, whatever operations have been done, also by other programs on the file system: if a `Save` changes a
file that existed, then before the user had enabled overwriting by the option, or a `Load` had succeeded, or the user confirms now. -/
theorem C34_history {C : Codec} {E : PwEnv} {U : Unicode} {d0 disk : Disk} {k : Krypto} {asked : Bool}
    (h : KRuns C E U (d0, newBase, false) (disk, k, asked)) {W : World} {r : SaveRun} (hs : save C E W disk k = some r)
    {d : Disk} (hd : d ∈ r.crashes disk) {p : List Nat} (hp : d p ≠ disk p) (he : disk p ≠ none) :
    asked = true ∨ (W.terminal = true ∧ W.confirm = some true) := by
  have inv : ∀ s t, KRuns C E U s t → (s.2.1.overwrite = true → s.2.2 = true) → t.2.1.overwrite = true → t.2.2 = true := by
    intro s t h
    induction h with
    | refl => exact id
    | step _ h ih => exact fun hs => kstep_flag h (ih hs)
  have h1 := inv _ _ h (fun h => absurd h (by show ¬ (false = true); decide))
  rcases ((C34_permission hs).2 d hd p hp).2 with h2 | h2 | h2
  · exact absurd h2 he
  · exact Or.inl (h1 h2)
  · exact Or.inr h2.2

/-- non-vacuity: an existing file is changed with permission, and kept without -/
example {C : Codec} (E : PwEnv) : ∃ r r', save C E exWorld (exDisk.set [1] [9]) (exKrypto true []) = some r ∧ r.contents ≠ [] ∧
    save C E exWorld (exDisk.set [1] [9]) (exKrypto false []) = some r' ∧ r'.contents = [] ∧ r'.outcome = .err .other := by
  refine ⟨saveWrite C exWorld exPFK (exKrypto true []), ⟨.err .other, exKrypto false [], []⟩, ?_, by simp [saveWrite, exWorld, exPFK], ?_, rfl, rfl⟩
  · simp [save, saveKey, exKrypto, exWorld, Disk.set, resolvePath]
  · simp [save, exKrypto, exWorld, Disk.set, resolvePath]

/-! ## C35 -/

/-- **C35** is violated: the file is truncated before anything is written.  Some store was completely stored in the file; `Save` succeeds, but had the program
died on the way the file would not be readable with any key. -/
theorem C35_violated {C : Codec} (hC : C.Lawful) (E : PwEnv) :
    ∃ W disk k r, Stored C disk k.persistence exPFK k.inst ∧ save C E W disk k = some r ∧ r.outcome = .ok () ∧
      ∃ d ∈ r.crashes disk, Lost C d k.persistence := by
  refine ⟨exWorld, exDisk.set [1] (C.enc exPFK 0 (gobInst (exKrypto true [exPersistKey]).inst)), exKrypto true [exPersistKey],
    saveWrite C exWorld exPFK (exKrypto true [exPersistKey]), ?_, ?_, (saveWrite_done C exWorld exPFK _ (by decide) rfl rfl exDisk).1, ?_⟩
  · exact stored_of_dec (by decide) (set_same _ _ _) (hC.right _ _ _ (by decide)) (by decide) (by decide) (by decide) (by decide)
  · simp [save, saveKey, exKrypto, exWorld, Disk.set, resolvePath]
  · refine ⟨_, List.mem_cons_of_mem _ (List.mem_map.2 ⟨[], ?_, rfl⟩), ?_⟩
    · simp only [saveWrite, exWorld, Bool.false_eq_true, if_false]
      rw [if_neg (by decide)]
      exact List.mem_map.2 ⟨0, by simp, by simp⟩
    · rw [saveWrite_k]
      exact lost_of_dec (set_same _ _ _) hC.empty

/-- **C35**, what holds: wherever the program dies during `Save`, all other files are as before, and the file is as before, or whoever loads it successfully
into a blank instance gets the complete new state: never a mixture. -/
theorem C35_partial {C : Codec} (hC : C.Lawful) {E : PwEnv} {W : World} {disk : Disk} {k : Krypto} {r : SaveRun} (hs : save C E W disk k = some r)
    (h0 : k.inst.groupSize ≠ 0) (h1 : k.inst.keyLength ≠ 0) (h2 : k.inst.columns ≠ 0) (h3 : k.inst.keyColumns ≠ 0)
    {d : Disk} (hd : d ∈ r.crashes disk) :
    d = disk ∨ (∀ p, p ≠ r.k.persistence → d p = disk p) ∧
      ∀ E' W' k1 k2, Blank k1 → resolvePath W' k1.persistence = some r.k.persistence → load C E' W' d k1 = some (.ok (), k2) →
        SameStore k2.inst k.inst := by
  rcases List.mem_cons.1 hd with rfl | hd
  · exact Or.inl rfl
  · right
    obtain ⟨c, hc, rfl⟩ := List.mem_map.1 hd
    refine ⟨fun p hp => set_other _ _ hp, ?_⟩
    intro E' W' k1 k2 hb hr hl
    rcases save_cases hs with ⟨e, -⟩ | ⟨path, key, -, -, -, -, e, -⟩
    · rw [e] at hc; simp at hc
    · subst e
      rw [saveWrite_k] at hl hr
      have hdec : ∀ key', key'.length = 32 → C.dec key' c = none ∨ C.dec key' c = some (gobInst k.inst) := by
        intro key' hl'
        rcases saveWrite_contents _ _ _ _ c hc with rfl | ⟨hlen, i, rfl⟩
        · exact Or.inl (hC.empty _)
        · by_cases e : key.take 32 = key'
          · subst e; exact hC.part _ _ _ _ hl'
          · exact Or.inl (hC.wrong _ _ _ _ _ (by simp; omega) hl' e)
      rcases load_cases hl with ⟨e, -⟩ | ⟨path', key', hp', -, -, e, -⟩
      · exact absurd rfl e
      · rw [hr] at hp'
        obtain rfl : path = path' := by simpa using hp'
        unfold loadRead at e
        split at e
        · simp at e
        · split at e
          · simp at e
          · rename_i hlen
            dsimp only at e
            rw [set_same] at e
            dsimp only at e
            rcases hdec (key'.take 32) (by simp; omega) with hx | hx
            · rw [hx] at e; simp at e
            · rw [hx] at e
              simp only [Prod.mk.injEq, true_and] at e
              subst e
              exact (gobDecode_blank (k := { k1 with persistence := path, pfk := some key' })
                ⟨hb.keys, hb.messages, hb.callSign, hb.spareKeys, hb.spareMsgs⟩ k.inst h0 h1 h2 h3).1

/-! ## C36 -/

/-- **C36.**  After a `Save` with the key `key` that touched the file, and also if it was interrupted anywhere from the truncation on, `Load` with any
other key (keys have 32 bytes, see C42) returns an error and leaves keys, messages, settings and call-sign as they are. -/
theorem C36_wrong_key {C : Codec} (hC : C.Lawful) {E : PwEnv} {W : World} {disk : Disk} {k : Krypto} {r : SaveRun} {key : List Nat}
    (hs : save C E W disk k = some r) (hw : r.contents ≠ []) (hkey : r.k.pfk = some key) (hlen : key.length = 32)
    {d : Disk} (hd : d = r.disk disk ∨ ∃ c ∈ r.contents, d = disk.set r.k.persistence c)
    {E' : PwEnv} {W' : World} {k1 : Krypto} {key' : List Nat} (hr : Reads W' k1 r.k.persistence)
    (hk : LoadsWith E' W' k1 key') (hlen' : key'.length = 32) (hne : key' ≠ key) :
    ∃ e k2, load C E' W' d k1 = some (.err e, k2) ∧ k2.inst = k1.inst := by
  have hd : ∃ c ∈ r.contents, d = disk.set r.k.persistence c := by
    rcases hd with rfl | hd
    · unfold SaveRun.disk
      cases hl : r.contents.getLast? with
      | none => exact absurd (List.getLast?_eq_none_iff.1 hl) hw
      | some c => exact ⟨c, List.mem_of_getLast? hl, rfl⟩
    · exact hd
  obtain ⟨c, hc, rfl⟩ := hd
  rcases save_cases hs with ⟨e, -⟩ | ⟨path, key1, -, -, -, -, e, -⟩
  · exact absurd e hw
  · subst e
    rw [saveWrite_k] at hr hkey ⊢
    obtain rfl : key1 = key := by simpa using hkey
    have hdec : C.dec key' c = none := by
      rcases saveWrite_contents _ _ _ _ c hc with rfl | ⟨hl, i, rfl⟩
      · exact hC.empty _
      · rw [List.take_of_length_le (show key1.length ≤ 32 by omega)]
        exact hC.wrong _ _ _ _ _ hlen hlen' (Ne.symm hne)
    rw [load_key hr hk (by rw [set_same]; simp)]
    unfold loadRead
    rw [if_neg (by simp [hr.opens]), if_neg (by omega)]
    dsimp only
    rw [set_same]
    dsimp only
    rw [List.take_of_length_le (show key'.length ≤ 32 by omega), hdec]
    exact ⟨_, _, rfl, rfl⟩

/-- **C36**, all failures.  A `Load` that does not succeed, for whatever reason, changes neither keys, messages, settings, call-sign, the salt nor the permission to
overwrite; the key can change only by being derived from an entered password. -/
theorem C36_unchanged {C : Codec} {E : PwEnv} {W : World} {disk : Disk} {k k' : Krypto} {o : Outcome Unit}
    (h : load C E W disk k = some (o, k')) (ho : o ≠ .ok ()) :
    k'.inst = k.inst ∧ k'.salt = k.salt ∧ k'.overwrite = k.overwrite ∧ k'.interactive = k.interactive ∧
      (k'.pfk = k.pfk ∨ k.pfk = none ∧ ∃ pw salt, some pw ∈ W.inputs ∧ k.salt = some salt ∧ k'.pfk = some (E.kdf pw salt)) := by
  rcases load_cases h with ⟨-, p, rfl⟩ | ⟨path, key, -, -, -, e, hk⟩
  · exact ⟨rfl, rfl, rfl, rfl, Or.inl rfl⟩
  · have : (loadRead C W disk key { k with persistence := path, pfk := some key }).2 = { k with persistence := path, pfk := some key } :=
      loadRead_err (by rw [← e]; exact ho)
    rw [← e] at this
    dsimp only at this
    subst this
    refine ⟨rfl, rfl, rfl, rfl, ?_⟩
    rcases hk with hk | ⟨h1, -, -, pw, n, salt, h2, h3, -, h4⟩
    · exact Or.inl hk.symm
    · refine Or.inr ⟨h1, pw, salt, ?_, h3, by rw [h4]⟩
      clear h4 h e
      revert h2
      cases W.inputs with
      | nil => simp [askForPassword]
      | cons x l =>
        cases x with
        | none => simp [askForPassword]
        | some p => simp [askForPassword]; intro h _; exact Or.inl h.symm

/-- non-vacuity of `C36_wrong_key`: a saved file and an instance with another key -/
example {C : Codec} (E : PwEnv) : ∃ r, save C E exWorld exDisk (exKrypto false [exPersistKey]) = some r ∧ r.contents ≠ [] ∧ r.k.pfk = some exPFK ∧
    Reads exWorld { newBase with persistence := [1], pfk := some (List.replicate 32 8) } r.k.persistence ∧
    LoadsWith E exWorld { newBase with persistence := [1], pfk := some (List.replicate 32 8) } (List.replicate 32 8) ∧
    r.disk exDisk ≠ exDisk := by
  have hs := save_example C E (disk := exDisk) (W := exWorld) rfl (keys := [exPersistKey]) (b := false) (Or.inl rfl)
  obtain ⟨-, hd⟩ := saveWrite_done C exWorld exPFK (exKrypto false [exPersistKey]) (by decide) rfl rfl exDisk
  refine ⟨_, hs, by simp [saveWrite, exWorld, exPFK], by rw [saveWrite_k]; rfl, ?_, Or.inl rfl, ?_⟩
  · rw [saveWrite_k]; exact ⟨by simp, by decide, rfl, rfl⟩
  · rw [hd]
    intro e
    have := congrFun e [1]
    rw [show (exKrypto false [exPersistKey]).persistence = [1] from rfl, set_same] at this
    simp [exDisk] at this

/-! ## C37 -/

/-- **C37**, within its range: an instance without a key that can not ask for one gets an error and no file is touched. -/
theorem C37_partial {C : Codec} {E : PwEnv} {W : World} {disk : Disk} {k : Krypto} (hk : k.pfk = none)
    (hi : k.interactive = false ∨ W.terminal = false) :
    ∃ r e, save C E W disk k = some r ∧ r.outcome = .err e ∧ r.contents = [] ∧ r.disk disk = disk ∧ r.k.inst = k.inst := by
  have hb : (k.interactive && W.terminal) = false := by rcases hi with h | h <;> simp [h]
  have key : ∀ path, saveKey C E W { k with persistence := path } = some ⟨.err .other, { k with persistence := path }, []⟩ := by
    intro path; simp [saveKey, hk, hb]
  unfold save
  split
  · exact ⟨_, _, rfl, rfl, rfl, rfl, rfl⟩
  · split
    · exact ⟨_, _, rfl, rfl, rfl, rfl, rfl⟩
    · dsimp only
      split
      · exact ⟨_, _, rfl, rfl, rfl, rfl, rfl⟩
      · split
        · exact ⟨_, _, key _, rfl, rfl, rfl, rfl⟩
        · split
          · exact ⟨_, _, key _, rfl, rfl, rfl, rfl⟩
          · simp only [hb, Bool.false_eq_true, if_false]
            exact ⟨_, _, rfl, rfl, rfl, rfl, rfl⟩

/-- **C37** is violated by every wiped instance: its key is not nil but an empty slice.  The file is truncated and the program panics; nobody can read the
file any more. -/
theorem C37_violated_wiped {C : Codec} (hC : C.Lawful) {E : PwEnv} {W : World} {disk : Disk} {k : Krypto} {path key : List Nat}
    (hk : k.pfk = some key) (hr : Reads W k path) (ho : k.overwrite = true) (noise : Nat → Nat) :
    ∃ r, save C E W disk (wipeInstance (some noise) k) = some r ∧ r.outcome = .panic ∧ r.disk disk path = some [] ∧ Lost C (r.disk disk) path :=
  save_short hC ⟨hr.named, hr.path, hr.stat, hr.opens⟩ (key := []) (by simp [wipeInstance, hk, wipeThrough]) (by simp) ho

/-- **C37** is violated by an instance made by `ExportKeys` from an instance without a key (`ByteCopy` of a nil pointer is an empty slice). -/
theorem C37_violated_exported {C : Codec} (hC : C.Lawful) {E : PwEnv} {W : World} {disk : Disk} {k : Krypto} (hk : k.pfk = none)
    {file path : List Nat} (hr : Reads W { k with persistence := file } path) (filter : Key → Bool) :
    ∃ r, save C E W disk (exportKeys filter [withPersistence file, withOverwrite true] k) = some r ∧ r.outcome = .panic ∧
      r.disk disk path = some [] ∧ Lost C (r.disk disk) path := by
  exact save_short hC (k := exportKeys filter [withPersistence file, withOverwrite true] k) ⟨hr.named, hr.path, hr.stat, hr.opens⟩ (key := [])
    (by simp [exportKeys, withPersistence, withOverwrite, hk]) (by simp) rfl

/-- non-vacuity: an instance with a key and an instance without, both referring to a file -/
example : Reads exWorld (exKrypto true []) [1] ∧ (exKrypto true []).pfk = some exPFK ∧ Reads exWorld { newBase with persistence := [1] } [1] ∧
    newBase.pfk = none ∧ newBase.interactive = false :=
  ⟨⟨by decide, by decide, rfl, rfl⟩, rfl, ⟨by simp, by decide, rfl, rfl⟩, rfl, rfl⟩

/-! ## C65 -/

/-- **C65** is violated: errors while closing are not reported.  The disk is full when the last bytes are written, `Save` returns no error, and what is
stored can not be read with any key; the old contents are gone. -/
theorem C65_violated {C : Codec} (hC : C.Lawful) (E : PwEnv) (disk : Disk) :
    ∃ W k r, k.pfk = some exPFK ∧ save C E W disk k = some r ∧ r.outcome = .ok () ∧ Lost C (r.disk disk) k.persistence := by
  generalize hn : C.early exPFK 0 (gobInst (exKrypto true [exPersistKey]).inst) = n
  obtain ⟨h1, h2⟩ := hC.late exPFK 0 (gobInst (exKrypto true [exPersistKey]).inst) (by decide)
  rw [hn] at h1 h2
  have hrun : saveWrite C { exWorld with room := some n } exPFK (exKrypto true [exPersistKey]) =
      ⟨.ok (), exKrypto true [exPersistKey], (List.range (n + 1)).map (C.enc exPFK 0 (gobInst (exKrypto true [exPersistKey]).inst)).take⟩ := by
    exact saveWrite_room C { exWorld with room := some n } exPFK (exKrypto true [exPersistKey]) (by decide) rfl rfl h1 (by rw [← hn]; rfl)
  refine ⟨{ exWorld with room := some n }, exKrypto true [exPersistKey], saveWrite C { exWorld with room := some n } exPFK (exKrypto true [exPersistKey]),
    rfl, ?_, ?_, ?_⟩
  · exact save_example C E rfl (Or.inr rfl)
  · rw [hrun]
  · rw [hrun]
    have : (⟨.ok (), exKrypto true [exPersistKey], (List.range (n + 1)).map (C.enc exPFK 0 (gobInst (exKrypto true [exPersistKey]).inst)).take⟩ : SaveRun).disk disk =
        disk.set [1] ((C.enc exPFK 0 (gobInst (exKrypto true [exPersistKey]).inst)).take n) := by
      unfold SaveRun.disk
      dsimp only
      rw [getLast?_range]
      rfl
    rw [this]
    exact lost_of_dec (set_same _ _ _) h2

/-- **C65** is violated: if the user declines to overwrite the file, `Save` returns no error although nothing has been stored. -/
theorem C65_violated_declined {C : Codec} (E : PwEnv) :
    ∃ W disk k r, k.inst.keys ≠ [] ∧ save C E W disk k = some r ∧ r.outcome = .ok () ∧ r.disk disk = disk := by
  refine ⟨{ exWorld with terminal := true, confirm := some false }, exDisk.set [1] [], { exKrypto false [exPersistKey] with interactive := true }, _, by simp [exKrypto],
    by simp [save, exKrypto, exWorld, Disk.set, resolvePath]; rfl, rfl, rfl⟩

/-- **C65**, within its range: if `Save` returns no error, either the user was asked and declined, and then no file is changed, or the complete state is
stored, provided no write failed. -/
theorem C65_partial {C : Codec} (hC : C.Lawful) {E : PwEnv} {W : World} {disk : Disk} {k : Krypto} {r : SaveRun}
    (hs : save C E W disk k = some r) (hok : r.outcome = .ok ()) (hroom : W.room = none)
    (hlen : ∀ key, r.k.pfk = some key → key.length = 32)
    (h0 : k.inst.groupSize ≠ 0) (h1 : k.inst.keyLength ≠ 0) (h2 : k.inst.columns ≠ 0) (h3 : k.inst.keyColumns ≠ 0) :
    (W.confirm = some false ∧ k.overwrite = false ∧ r.disk disk = disk) ∨
    ∃ key, r.k.pfk = some key ∧ Stored C (r.disk disk) r.k.persistence key k.inst := by
  by_cases hw : r.contents = []
  · rcases save_cases hs with ⟨-, -, -, e⟩ | ⟨path, key, -, -, -, -, e, -⟩
    · obtain ⟨-, -, -, -, a, b⟩ := e hok
      exact Or.inl ⟨b, a, by simp [SaveRun.disk, hw]⟩
    · exfalso
      subst e
      unfold saveWrite at hw hok
      split at hw
      · rename_i ho; rw [if_pos ho] at hok; simp at hok
      · split at hw
        · simp at hw
        · rw [hroom] at hw; simp at hw
  · right
    rcases save_cases hs with ⟨e, -⟩ | ⟨path, key, -, -, -, -, e, -⟩
    · exact absurd e hw
    · have hk : r.k.pfk = some key := by subst e; rw [saveWrite_k]
      exact ⟨key, hk, (C33_partial hC hs hok hw hroom hk (hlen key hk) h0 h1 h2 h3).1⟩

/-! ## C66 -/

/-- **C66** is violated: the permission a `Load` gives is not bound to the loaded file.  A station loads its file, lets the instance refer to another existing
file, which holds another store, and saves: that file is overwritten without a question. -/
theorem C66_violated {C : Codec} (hC : C.Lawful) (E : PwEnv) :
    ∃ W disk k k1 r, k.overwrite = false ∧ load C E W disk k = some (.ok (), k1) ∧ Stored C disk [2] exPFK (exKrypto true []).inst ∧
      save C E W disk (withPersistence [2] k1) = some r ∧ W.confirm = none ∧ r.outcome = .ok () ∧ r.disk disk [2] ≠ disk [2] := by
  generalize hdisk : (exDisk.set [1] (C.enc exPFK 0 (gobInst (exKrypto true [exPersistKey]).inst))).set [2] (C.enc exPFK 0 (gobInst (exKrypto true []).inst)) = disk
  have hd1 : disk [1] = some (C.enc exPFK 0 (gobInst (exKrypto true [exPersistKey]).inst)) := by
    rw [← hdisk, set_other _ _ (by decide), set_same]
  have hd2 : disk [2] = some (C.enc exPFK 0 (gobInst (exKrypto true []).inst)) := by rw [← hdisk, set_same]
  have hl := load_complete hC E (k := exKrypto false []) rfl rfl hd1
  obtain ⟨x, hx⟩ : ∃ x : Krypto, x = withPersistence [2] { gobDecode (gobInst (exKrypto true [exPersistKey]).inst) (exKrypto false []) with overwrite := true } := ⟨_, rfl⟩
  have hp : x.pfk = some exPFK := by rw [hx]; rfl
  have ho : x.overwrite = true := by rw [hx]; rfl
  have hx1 : x.persistence = [2] := by rw [hx]; rfl
  have hi : gobInst x.inst ≠ gobInst (exKrypto true []).inst := by rw [hx]; decide
  obtain ⟨g1, g2⟩ := saveWrite_done C exWorld exPFK x (by decide) rfl rfl disk
  refine ⟨exWorld, disk, exKrypto false [], _, saveWrite C exWorld exPFK x, rfl, hl,
    stored_of_dec (by decide) hd2 (hC.right _ _ _ (by decide)) (by decide) (by decide) (by decide) (by decide), ?_, rfl, g1, ?_⟩
  · rw [← hx]
    have hk : saveKey C E exWorld { x with persistence := [2] } = some (saveWrite C exWorld exPFK x) := by
      unfold saveKey
      dsimp only
      rw [hp]
      dsimp only
      rw [← hx1, ← hp]
    unfold save
    rw [if_neg (by simp [hx1]), hx1, show resolvePath exWorld [2] = some [2] from rfl]
    dsimp only
    rw [if_neg (by decide), hd2]
    dsimp only
    rw [if_pos ho]
    exact hk
  · rw [g2, hx1, set_same, hd2]
    intro e
    rw [Option.some.injEq] at e
    have h1 := hC.right exPFK 0 (gobInst x.inst) (by decide)
    rw [show C.enc exPFK 0 (gobInst x.inst) = _ from e, hC.right _ _ _ (by decide)] at h1
    exact hi (by simpa using h1.symm)

/-- **C66**, within its range: `Save` without confirmation changes an existing file only if the instance has the permission, and a new instance without the option
gets it only by `Load` (see `C34_history`); while the instance keeps referring to the loaded file, only this file is changed. -/
theorem C66_partial {C : Codec} {E : PwEnv} {W W' : World} {disk disk' : Disk} {k k1 : Krypto} {r : SaveRun}
    (hl : load C E W disk k = some (.ok (), k1)) (hs : save C E W' disk' k1 = some r) (hj : resolvePath W' k1.persistence = some k1.persistence)
    {d : Disk} (hd : d ∈ r.crashes disk') {p : List Nat} (hp : d p ≠ disk' p) :
    resolvePath W k.persistence = some p ∧ disk p ≠ none := by
  have h1 := ((C34_permission hs).2 d hd p hp).1
  rw [hj] at h1
  obtain rfl : k1.persistence = p := by simpa using h1
  rcases load_cases hl with ⟨e, -⟩ | ⟨path, key, h2, -, h3, e, -⟩
  · exact absurd rfl e
  · have : k1.persistence = path := by
      have := congrArg (fun x => x.2.persistence) e
      dsimp only at this
      rw [this]
      unfold loadRead
      split
      · rfl
      · split
        · rfl
        · split
          · rfl
          · split <;> rfl
    rw [this]
    exact ⟨h2, h3⟩

end K431
