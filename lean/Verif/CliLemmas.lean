import Verif.SpecCmd
import Verif.PersistLemmas
import Verif.PropsKeys
import Verif.PropsMessages

/-!
# Lemmas about the commands
-/

namespace K431

/-! ## Decoding separates arrays -/

theorem allocSls_bounds : ∀ (a : Nat) (l : List Runes), ∀ s ∈ allocSls a l, a ≤ s.addr ∧ s.addr < a + l.length
  | _, [], s, hs => by simp [allocSls] at hs
  | a, r :: rs, s, hs => by
    rw [allocSls] at hs
    rcases List.mem_cons.1 hs with rfl | hs
    · simp
    · have := allocSls_bounds (a + 1) rs s hs
      simp only [List.length_cons]; omega

theorem mergeKey_sep (a : Nat) (w : WireKey) :
    ((mergeKey a Key.zero w).id.addr = a ∨ ((mergeKey a Key.zero w).id.addr = 0 ∧ (mergeKey a Key.zero w).id.val = [])) ∧
    ∀ s ∈ (mergeKey a Key.zero w).keepers, a + 1 ≤ s.addr ∧ s.addr < a + 1 + (w.keepers.getD []).length := by
  unfold mergeKey
  constructor
  · dsimp only
    cases w.id with
    | none => exact Or.inr ⟨rfl, rfl⟩
    | some r => exact Or.inl rfl
  · dsimp only
    cases w.keepers with
    | none => simp [Key.zero]
    | some l => intro s hs; exact allocSls_bounds (a + 1) l s hs

theorem mergeKeys_sep : ∀ (ws : List WireKey) (a : Nat) (cells : List Key), (∀ x ∈ cells, x = Key.zero) → 1 ≤ a →
    a ≤ (mergeKeys a cells ws).2 ∧
    (∀ x ∈ (mergeKeys a cells ws).1, (a ≤ x.id.addr ∧ x.id.addr < (mergeKeys a cells ws).2) ∨ (x.id.addr = 0 ∧ x.id.val = [])) ∧
    (∀ x ∈ (mergeKeys a cells ws).1, ∀ s ∈ x.keepers, a ≤ s.addr) ∧
    (mergeKeys a cells ws).1.Pairwise (fun x y => x.id.addr = y.id.addr → x.id.val = [] ∧ y.id.val = []) ∧
    (mergeKeys a cells ws).1.Pairwise (fun x y => ¬ ShareKeeper x y ∧ ¬ ShareKeeper y x)
  | [], a, cells, _, _ => by simp [mergeKeys]
  | w :: ws, a, cells, h, ha => by
    obtain ⟨h1, h2, h3, h4, h5⟩ := mergeKeys_sep ws (a + 1 + (w.keepers.getD []).length) cells.tail (tail_all h) (by omega)
    simp only [mergeKeys, headD_zero h]
    obtain ⟨i, j⟩ := mergeKey_sep a w
    refine ⟨by omega, ?_, ?_, List.Pairwise.cons ?_ h4, List.Pairwise.cons ?_ h5⟩
    · intro x hx
      rcases List.mem_cons.1 hx with rfl | hx
      · rcases i with i | i
        · left; omega
        · exact Or.inr i
      · rcases h2 x hx with g | g
        · left; omega
        · exact Or.inr g
    · intro x hx s hs
      rcases List.mem_cons.1 hx with rfl | hx
      · have := j s hs; omega
      · have := h3 x hx s hs; omega
    · intro y hy e
      rcases i with i | i <;> rcases h2 y hy with g | g
      · omega
      · omega
      · omega
      · exact ⟨i.2, g.2⟩
    · intro y hy
      constructor
      · rintro ⟨s, hs, t, ht, e⟩
        have := j s hs; have := h3 y hy t ht; omega
      · rintro ⟨t, ht, s, hs, e⟩
        have := j s hs; have := h3 y hy t ht; omega

theorem mergeMsgs_sep : ∀ (ws : List WireMsg) (a : Nat) (cells : List Msg), (∀ x ∈ cells, x = Msg.zero) → 1 ≤ a →
    a ≤ (mergeMsgs a cells ws).2 ∧
    (∀ x ∈ (mergeMsgs a cells ws).1, a ≤ x.keyId.addr ∨ (x.keyId.addr = 0 ∧ x.keyId.val = [])) ∧
    (mergeMsgs a cells ws).1.Pairwise (fun m n => m.keyId.addr = n.keyId.addr → m.keyId.val = [] ∧ n.keyId.val = [])
  | [], a, cells, _, _ => by simp [mergeMsgs]
  | w :: ws, a, cells, h, ha => by
    obtain ⟨h1, h2, h3⟩ := mergeMsgs_sep ws (a + 1) cells.tail (tail_all h) (by omega)
    simp only [mergeMsgs, headD_zero h]
    have i : (mergeMsg a Msg.zero w).keyId.addr = a ∨ ((mergeMsg a Msg.zero w).keyId.addr = 0 ∧ (mergeMsg a Msg.zero w).keyId.val = []) := by
      unfold mergeMsg
      dsimp only
      cases w.keyId with
      | none => exact Or.inr ⟨rfl, rfl⟩
      | some r => exact Or.inl rfl
    refine ⟨by omega, ?_, List.Pairwise.cons ?_ h3⟩
    · intro x hx
      rcases List.mem_cons.1 hx with rfl | hx
      · rcases i with i | i
        · left; omega
        · exact Or.inr i
      · rcases h2 x hx with g | g
        · left; omega
        · exact Or.inr g
    · intro y hy e
      rcases i with i | i <;> rcases h2 y hy with g | g
      · omega
      · omega
      · omega
      · exact ⟨i.2, g.2⟩

/-- the slices a blank instance holds after decoding, in normal form -/
theorem gobDecode_normal {k : Krypto} (hk : Blank k) (w : Wire) :
    ∃ cells, (∀ x ∈ cells, x = Key.zero) ∧ (gobDecode w k).inst.keys = (mergeKeys k.inst.nextAddr cells (w.keys.getD [])).1 ∧
      ∃ mcells, (∀ x ∈ mcells, x = Msg.zero) ∧
        (gobDecode w k).inst.messages = (mergeMsgs (mergeKeys k.inst.nextAddr cells (w.keys.getD [])).2 mcells (w.messages.getD [])).1 ∧
        (gobDecode w k).inst.nextAddr = (mergeMsgs (mergeKeys k.inst.nextAddr cells (w.keys.getD [])).2 mcells (w.messages.getD [])).2 := by
  have hk1 : ∃ cells, (∀ x ∈ cells, x = Key.zero) ∧
      (match w.keys with
        | none => ((k.inst.keys, k.inst.nextAddr), k.spareKeys)
        | some ws =>
          if ws.length ≤ (k.inst.keys ++ k.spareKeys).length then
            (mergeKeys k.inst.nextAddr (k.inst.keys ++ k.spareKeys) ws, (k.inst.keys ++ k.spareKeys).drop ws.length)
          else (mergeKeys k.inst.nextAddr [] ws, [])).1 = mergeKeys k.inst.nextAddr cells (w.keys.getD []) := by
    cases w.keys with
    | none => exact ⟨[], by simp, by simp [mergeKeys, hk.keys]⟩
    | some ws =>
      dsimp only
      split
      · exact ⟨_, by rw [hk.keys]; simpa using hk.spareKeys, rfl⟩
      · exact ⟨[], by simp, rfl⟩
  obtain ⟨cells, hz, e⟩ := hk1
  refine ⟨cells, hz, ?_, ?_⟩
  · rw [← e]; rfl
  · have hm1 : ∀ a, ∃ mcells, (∀ x ∈ mcells, x = Msg.zero) ∧
        (match w.messages with
          | none => ((k.inst.messages, a), k.spareMsgs)
          | some ws =>
            if ws.length ≤ (k.inst.messages ++ k.spareMsgs).length then
              (mergeMsgs a (k.inst.messages ++ k.spareMsgs) ws, (k.inst.messages ++ k.spareMsgs).drop ws.length)
            else (mergeMsgs a [] ws, [])).1 = mergeMsgs a mcells (w.messages.getD []) := by
      intro a
      cases w.messages with
      | none => exact ⟨[], by simp, by simp [mergeMsgs, hk.messages]⟩
      | some ws =>
        dsimp only
        split
        · exact ⟨_, by rw [hk.messages]; simpa using hk.spareMsgs, rfl⟩
        · exact ⟨[], by simp, rfl⟩
    obtain ⟨mcells, hmz, e2⟩ := hm1 (mergeKeys k.inst.nextAddr cells (w.keys.getD [])).2
    rw [← e] at e2
    refine ⟨mcells, hmz, ?_, ?_⟩
    · rw [← e, ← e2]; rfl
    · rw [← e, ← e2]; rfl

/-- After decoding into a blank instance no arrays are shared. -/
theorem gobDecode_apart {k : Krypto} (hk : Blank k) (ha : 1 ≤ k.inst.nextAddr) (w : Wire) : Apart (gobDecode w k).inst := by
  obtain ⟨cells, hz, e1, mcells, hmz, e2, e3⟩ := gobDecode_normal hk w
  obtain ⟨a1, a2, a3, a4, a5⟩ := mergeKeys_sep (w.keys.getD []) k.inst.nextAddr cells hz ha
  obtain ⟨b1, b2, b3⟩ := mergeMsgs_sep (w.messages.getD []) (mergeKeys k.inst.nextAddr cells (w.keys.getD [])).2 mcells hmz (by omega)
  constructor
  · rw [e1]; exact a4
  · rw [e1, e3]; intro x hx
    rcases a2 x hx with h | h <;> omega
  · rw [e1]; exact a5
  · rw [e1, e2]; intro m hm hne x hx
    rcases a2 x hx with h | h <;> rcases b2 m hm with g | g
    · omega
    · exact absurd g.2 hne
    · omega
    · exact absurd g.2 hne
  · rw [e1, e2]; intro m hm x hx hne
    rcases a2 x hx with h | h <;> rcases b2 m hm with g | g
    · omega
    · omega
    · exact absurd h.2 hne
    · exact absurd h.2 hne
  · rw [e2]; exact b3

/-! ## Opening the store -/

/-- a successful `Load` -/
theorem load_ok {C : Codec} {E : PwEnv} {W : World} {disk : Disk} {k k' : Krypto} (h : load C E W disk k = some (.ok (), k')) :
    ∃ path key c w, resolvePath W k.persistence = some path ∧ disk path = some c ∧ 32 ≤ key.length ∧ C.dec (key.take 32) c = some w ∧
      k' = { gobDecode w { k with persistence := path, pfk := some key } with overwrite := true } ∧
      (k.pfk = some key ∨ k.pfk = none ∧ k.interactive = true ∧ W.terminal = true ∧
        ∃ pw n salt, askForPassword 0 W.inputs = some (some pw, n) ∧ k.salt = some salt ∧ 32 ≤ salt.length ∧ key = E.kdf pw salt) := by
  rcases load_cases h with ⟨h1, -⟩ | ⟨path, key, h1, -, -, h2, h3⟩
  · exact absurd rfl h1
  · unfold loadRead at h2
    split at h2
    · simp at h2
    · split at h2
      · simp at h2
      · rename_i hl
        dsimp only at h2
        cases hd : disk path with
        | none => rw [hd] at h2; simp at h2
        | some c =>
          rw [hd] at h2
          dsimp only at h2
          cases hx : C.dec (key.take 32) c with
          | none => rw [hx] at h2; simp at h2
          | some w =>
            rw [hx] at h2
            simp only [Prod.mk.injEq, true_and] at h2
            exact ⟨path, key, c, w, h1, hd, by omega, hx, h2, h3⟩

theorem setSalt_frame (s : List Nat) (k : Krypto) : ∃ a, (setSaltFromString s k).2 = { k with salt := a } := by
  unfold setSaltFromString
  cases hexDecode s with
  | none => exact ⟨k.salt, rfl⟩
  | some b => dsimp only; split; exacts [⟨k.salt, rfl⟩, ⟨_, rfl⟩]

theorem setPFK_frame (s : List Nat) (k : Krypto) : ∃ a, (setPFKFromString s k).2 = { k with pfk := a } := by
  unfold setPFKFromString
  cases hexDecode s with
  | none => exact ⟨k.pfk, rfl⟩
  | some b => dsimp only; split; exacts [⟨k.pfk, rfl⟩, ⟨_, rfl⟩]

theorem derive_frame (E : PwEnv) (v : Bool) (n : Option (Nat → Nat)) (pw : Option Buf) (k : Krypto) :
    ∃ a, (derivePFK E v n pw k).2.1 = { k with pfk := a } := by
  unfold derivePFK
  cases pw with
  | none => exact ⟨k.pfk, rfl⟩
  | some b =>
    dsimp only
    split
    · exact ⟨k.pfk, rfl⟩
    · split
      · exact ⟨k.pfk, rfl⟩
      · split
        · exact ⟨k.pfk, rfl⟩
        · exact ⟨_, rfl⟩

theorem setPassword_frame (E : PwEnv) (s : List Nat) (k : Krypto) : ∃ a, (setPFKFromPassword E s k).2 = { k with pfk := a } :=
  derive_frame E false none _ k

theorem setSaltAndPFK_frame (E : PwEnv) (a : Access) (k : Krypto) : ∃ x y, (setSaltAndPFK E a k).2 = { k with salt := x, pfk := y } := by
  unfold setSaltAndPFK
  split
  · exact ⟨k.salt, k.pfk, rfl⟩
  · have key : ∀ k1 : Krypto, ∃ y, (match a.pfk with
        | some s => setPFKFromString s k1
        | none => match a.password with
          | some p => setPFKFromPassword E p k1
          | none => (.ok (), k1) : Outcome Unit × Krypto).2 = { k1 with pfk := y } := by
      intro k1
      cases a.pfk with
      | some s => exact setPFK_frame s k1
      | none =>
        cases a.password with
        | some p => exact setPassword_frame E p k1
        | none => exact ⟨k1.pfk, rfl⟩
    cases a.salt with
    | none =>
      dsimp only
      obtain ⟨y, h⟩ := key k
      exact ⟨k.salt, y, h⟩
    | some s =>
      dsimp only
      obtain ⟨x, hx⟩ := setSalt_frame s k
      rcases hr : setSaltFromString s k with ⟨o, k1⟩
      rw [hr] at hx
      dsimp only at hx
      subst hx
      cases o with
      | ok u =>
        dsimp only
        obtain ⟨y, h⟩ := key { k with salt := x }
        exact ⟨x, y, h⟩
      | err e => exact ⟨x, k.pfk, rfl⟩
      | panic => exact ⟨x, k.pfk, rfl⟩

theorem newBase_blank : Blank newBase :=
  ⟨rfl, rfl, rfl, fun _ hx => List.eq_of_mem_replicate hx, fun _ hx => List.eq_of_mem_replicate hx⟩

theorem prepared_frame (E : PwEnv) (a : Access) (file : List Nat) : ∃ x y, (prepared E a file).2 =
    { newBase with persistence := file, interactive := true, salt := x, pfk := y } :=
  setSaltAndPFK_frame E a _

theorem preparedOld_frame (E : PwEnv) (a : Access) (old : Option (List Nat)) (file : List Nat) : ∃ x y, (preparedOld E a old file).2 =
    { newBase with persistence := file, interactive := true, salt := x, pfk := y } := by
  unfold preparedOld
  obtain ⟨x, y, h⟩ := prepared_frame E a file
  rcases hp : prepared E a file with ⟨o, k⟩
  rw [hp] at h
  dsimp only at h
  subst h
  cases o with
  | ok u =>
    dsimp only
    cases old with
    | none => exact ⟨x, y, rfl⟩
    | some pw =>
      dsimp only
      obtain ⟨z, hz⟩ := setPassword_frame E pw { newBase with persistence := file, interactive := true, salt := x, pfk := y }
      exact ⟨x, z, hz⟩
  | err e => exact ⟨x, y, rfl⟩
  | panic => exact ⟨x, y, rfl⟩

/-- what a command holds after `Load` -/
structure Opened (C : Codec) (disk : Disk) (k : Krypto) : Prop where
  overwrite : k.overwrite = true
  interactive : k.interactive = true
  apart : Apart k.inst
  key : ∃ key c w, k.pfk = some key ∧ 32 ≤ key.length ∧ disk k.persistence = some c ∧ C.dec (key.take 32) c = some w

theorem gobDecode_frame (w : Wire) (k : Krypto) : (gobDecode w k).persistence = k.persistence ∧ (gobDecode w k).pfk = k.pfk ∧
    (gobDecode w k).interactive = k.interactive ∧ (gobDecode w k).salt = k.salt := ⟨rfl, rfl, rfl, rfl⟩

theorem load_opened {C : Codec} {E : PwEnv} {W : World} {disk : Disk} {k k' : Krypto} (hb : Blank k) (ha : 1 ≤ k.inst.nextAddr)
    (hi : k.interactive = true) (h : load C E W disk k = some (.ok (), k')) : Opened C disk k' := by
  obtain ⟨path, key, c, w, h1, h2, h3, h4, rfl, -⟩ := load_ok h
  refine ⟨rfl, hi, ?_, key, c, w, rfl, h3, h2, h4⟩
  exact gobDecode_apart (k := { k with persistence := path, pfk := some key }) ⟨hb.keys, hb.messages, hb.callSign, hb.spareKeys, hb.spareMsgs⟩ ha w

theorem check_ok {o : Outcome Unit} (h : o = .ok ()) (s : Cmd) : check o s = .go s := by subst h; rfl

theorem check_stop {o : Outcome Unit} (h : o ≠ .ok ()) (s : Cmd) : check o s = .stop o s := by
  cases o with
  | ok u => exact absurd rfl h
  | err e => rfl
  | panic => rfl

theorem check_state (o : Outcome Unit) (s : Cmd) : (check o s).state = s := by
  cases o <;> rfl

theorem check_outcome (o : Outcome Unit) (s : Cmd) : (check o s).outcome = o := by
  cases o <;> rfl

/-- opening the store: it fails without touching anything, or the store is loaded -/
theorem openStore_cases {C : Codec} {E : PwEnv} {W : World} {a : Access} {file : List Nat} {disk : Disk} {r : Course}
    (h : openStore C E W a file disk = some r) :
    (∃ o k, o ≠ .ok () ∧ r = .stop o ⟨disk, k, [], []⟩) ∨
    ∃ k, (prepared E a file).1 = .ok () ∧ load C E W disk (prepared E a file).2 = some (.ok (), k) ∧ Opened C disk k ∧
      r = .go ⟨disk, k, [], []⟩ := by
  unfold openStore at h
  dsimp only at h
  obtain ⟨x, y, hf⟩ := prepared_frame E a file
  by_cases ho : (prepared E a file).1 = .ok ()
  · rw [check_ok ho] at h
    simp only [andThen, loadStep] at h
    cases hl : load C E W disk (prepared E a file).2 with
    | none => rw [hl] at h; simp at h
    | some p =>
      obtain ⟨o, k⟩ := p
      rw [hl] at h
      simp only [Option.map_some, Option.some.injEq] at h
      by_cases hok : o = .ok ()
      · subst hok
        right
        refine ⟨k, ho, rfl, ?_, h.symm⟩
        rw [hf] at hl
        refine load_opened ?_ ?_ rfl hl
        · exact ⟨newBase_blank.keys, newBase_blank.messages, newBase_blank.callSign, newBase_blank.spareKeys, newBase_blank.spareMsgs⟩
        · exact Nat.le_refl 1
      · left
        rw [check_stop hok] at h
        exact ⟨o, k, hok, h.symm⟩
  · rw [check_stop ho] at h
    simp only [andThen, Option.some.injEq] at h
    exact Or.inl ⟨_, _, ho, h.symm⟩

/-! ## Saving -/

theorem save_opened {C : Codec} {E : PwEnv} {W : World} {disk : Disk} {k : Krypto} {path key : List Nat} (hr : Reads W k path)
    (hk : k.pfk = some key) (ho : k.overwrite = true) :
    save C E W disk k = some (saveWrite C W key { k with persistence := path }) := by
  unfold save
  rw [if_neg (by simpa using hr.named), hr.path]
  dsimp only
  rw [if_neg (by simp [hr.stat])]
  have : saveKey C E W { k with persistence := path } = some (saveWrite C W key { k with persistence := path }) := by
    unfold saveKey; dsimp only; rw [hk]
  cases disk path with
  | none => exact this
  | some c => dsimp only; rw [if_pos ho]; exact this

/-- the files a command has touched after a run of `Save` -/
theorem saveStep_some {C : Codec} {E : PwEnv} {W : World} {s : Cmd} {r : Course} (h : saveStep C E W s = some r) :
    ∃ q, save C E W s.disk s.k = some q ∧ r = check q.outcome (s.saved q) := by
  unfold saveStep at h
  cases hs : save C E W s.disk s.k with
  | none => rw [hs] at h; simp at h
  | some q => rw [hs] at h; simp only [Option.map_some, Option.some.injEq] at h; exact ⟨q, rfl, h.symm⟩

/-- saving an opened store to a disk with room -/
theorem saveStep_done {C : Codec} (hC : C.Lawful) {E : PwEnv} {W : World} {s : Cmd} {path key : List Nat} (hr : Reads W s.k path)
    (hk : s.k.pfk = some key) (hl : key.length = 32) (ho : s.k.overwrite = true) (hroom : W.room = none) :
    ∃ s', saveStep C E W s = some (.go s') ∧ (∃ cs, cs ≠ [] ∧ s'.touched = s.touched ++ [⟨path, cs⟩]) ∧ s'.printed = s.printed ∧
      s'.k = { s.k with persistence := path } ∧ (∀ p, p ≠ path → s'.disk p = s.disk p) ∧
      (s.k.inst.groupSize ≠ 0 → s.k.inst.keyLength ≠ 0 → s.k.inst.columns ≠ 0 → s.k.inst.keyColumns ≠ 0 →
        Stored C s'.disk path key s.k.inst) := by
  obtain ⟨a, b⟩ := saveWrite_done C W key { s.k with persistence := path } hl hr.opens hroom s.disk
  refine ⟨s.saved (saveWrite C W key { s.k with persistence := path }), ?_, ⟨(saveWrite C W key { s.k with persistence := path }).contents, ?_, ?_⟩, rfl, ?_, ?_, ?_⟩
  · unfold saveStep
    rw [save_opened hr hk ho, Option.map_some, check_ok a]
  · unfold saveWrite
    rw [if_neg (by simp [hr.opens]), if_neg (by omega), hroom]
    simp
  · simp only [Cmd.saved, saveWrite_k]
  · simp only [Cmd.saved, saveWrite_k]
  · intro p hp
    simp only [Cmd.saved]
    rw [b]; exact set_other _ _ hp
  · intro h0 h1 h2 h3
    simp only [Cmd.saved]
    rw [b]
    exact stored_of_dec hl (set_same _ _ _) (hC.right _ _ _ hl) h0 h1 h2 h3

/-! ## Deleting from a store without shared arrays -/

theorem Apart.storeOk {U : Unicode} {inst : Inst} (h : Apart inst) (hd : DistinctNames U (inst.keys.map (fun k => k.id.val))) : StoreOk U inst := by
  refine ⟨hd, ?_, h.fresh⟩
  unfold DistinctNames at hd
  rw [List.pairwise_map] at hd
  rw [List.Nodup, List.pairwise_map]
  refine (h.ids.and hd).imp ?_
  rintro x y ⟨h1, h2⟩ e
  obtain ⟨a, b⟩ := h1 e
  exact h2 (by rw [a, b]; rfl)

theorem not_inFold_nil {U : Unicode} (hU : U.Lawful) (args : List Runes) : ¬ InFold U [] (vettedKeepers U args) := by
  rintro ⟨b, hb, hs⟩
  obtain ⟨hne, -⟩ := vetted_mem hU hb
  unfold SameFold at hs
  simp only [List.map_nil] at hs
  exact hne (List.map_eq_nil_iff.1 hs.symm)

theorem pairwise_both {α : Type} {R : α → α → Prop} (hs : ∀ x y, R x y → R y x) : ∀ {l : List α}, l.Pairwise R → ∀ {x y}, x ∈ l → y ∈ l → x ≠ y → R x y
  | [], _, _, _, hx, _, _ => by simp at hx
  | a :: l, h, x, y, hx, hy, hne => by
    rw [List.pairwise_cons] at h
    rcases List.mem_cons.1 hx with e | hx' <;> rcases List.mem_cons.1 hy with e' | hy'
    · exact absurd (e.trans e'.symm) hne
    · rw [e]; exact h.1 y hy'
    · rw [e']; exact hs _ _ (h.1 x hx')
    · exact pairwise_both hs h.2 hx' hy' hne

theorem share_symm {x y : Key} (h : ShareKeeper x y) : ShareKeeper y x := by
  obtain ⟨s, hs, t, ht, e⟩ := h
  exact ⟨t, ht, s, hs, e.symm⟩

/-- `DeleteKey` on a store without shared arrays -/
theorem deleteKey_apart {U : Unicode} {inst : Inst} (h : Apart inst) (hd : DistinctNames U (inst.keys.map (fun k => k.id.val)))
    (noise : Nat → Noise) (ids : List Runes) (hn : ¬ InFold U [] ids) :
    (deleteKey U noise inst ids).2.keys.Perm (inst.keys.filter (fun k => !decide (InFold U k.id.val ids))) ∧
    (deleteKey U noise inst ids).1 = (inst.keys.filter (fun k => decide (InFold U k.id.val ids))).length ∧
    (deleteKey U noise inst ids).2 = { inst with keys := (deleteKey U noise inst ids).2.keys } := by
  obtain ⟨-, a, b, g, hg, e⟩ := C26_partial U noise inst ids (h.storeOk hd)
  refine ⟨a ?_, b, ?_⟩
  · intro k hk x hx hki hxi hs
    have hne : k ≠ x := by rintro rfl; exact hxi hki
    have := pairwise_both (fun x y h => ⟨h.2, h.1⟩) h.keepers hk hx hne
    exact this.1 hs
  · rw [e]
    have : inst.messages.map (fun m => { m with keyId := g m.keyId }) = inst.messages := by
      conv => rhs; rw [← List.map_id inst.messages]
      apply List.map_congr_left
      intro m hm
      rw [hg m.keyId]
      · rfl
      · intro k hk hi
        exact h.empty m hm k hk (fun hnil => hn (by rw [← hnil]; exact hi))
    rw [this]

/-- `DeleteMessage` on a store without shared arrays -/
theorem deleteMessage_apart {inst : Inst} (h : Apart inst) (hd : (inst.messages.map Msg.id).Nodup) (noise : Nat → Nat → Rune) (ids : List Runes) :
    (deleteMessage noise inst ids).2.messages.Perm (inst.messages.filter (fun m => !decide (m.id ∈ ids))) ∧
    (deleteMessage noise inst ids).1 = (inst.messages.filter (fun m => decide (m.id ∈ ids))).length ∧
    (deleteMessage noise inst ids).2 = { inst with messages := (deleteMessage noise inst ids).2.messages } := by
  obtain ⟨a, -, b⟩ := C27_partial noise inst ids hd
  obtain ⟨c, d⟩ := b (by
    intro m hm hi hne
    refine ⟨fun k hk => h.messages m hm hne k hk, ?_⟩
    intro m' hm' hi' e
    have hmm : m ≠ m' := by rintro rfl; exact hi' hi
    have := pairwise_both (fun x y h e => (h e.symm).symm) h.keyIds hm hm' hmm e.symm
    exact hne this.1)
  exact ⟨d, a, c⟩

/-! ## The commands -/

theorem sent_congr {r c : Course} (h : r.state.printed = c.state.printed) : r.sent = c.sent := by unfold Course.sent; rw [h]

theorem sent_of {r : Course} {m : Msg} (h : r.state.printed = [.message m]) : r.sent = [m] := by unfold Course.sent; rw [h]; rfl

/-- what `--list` and a missing `--output` leave of a state -/
theorem keysRest {U : Unicode} {V : KeysEnv} {o : KeysCmd} (ho : o.output = none) (s : Cmd) {r : Course}
    (h : andThen (andThen (some (.go s)) (fun s => some (keysList U V o s)))
      (fun s => some (outputStep V.outputW o.type V.render o.output (s.k.inst.keys.filter (keyFilter U V.now o.filter)) s)) = some r) :
    (∃ p, r.state = { s with printed := p }) ∧ r.outcome = .ok () := by
  simp only [andThen, keysList, ho, outputStep] at h
  split at h
  · simp at h
  · rename_i s' hs
    split at hs
    · split at hs
      · simp at hs
      · split at hs
        · simp at hs
        · simp only [Option.some.injEq, Course.go.injEq] at hs h; subst hs; subst h; exact ⟨⟨_, rfl⟩, rfl⟩
    · simp only [Option.some.injEq, Course.go.injEq] at hs h; subst hs; subst h; exact ⟨⟨_, rfl⟩, rfl⟩
  · rename_i oc s' hs
    split at hs
    · split at hs
      · simp only [Option.some.injEq, Course.stop.injEq] at hs h; obtain ⟨rfl, rfl⟩ := hs; subst h; exact ⟨⟨_, rfl⟩, rfl⟩
      · split at hs
        · simp only [Option.some.injEq, Course.stop.injEq] at hs h; obtain ⟨rfl, rfl⟩ := hs; subst h; exact ⟨⟨_, rfl⟩, rfl⟩
        · simp at hs
    · simp at hs

theorem andThen_stop (o : Outcome Unit) (s : Cmd) (f : Cmd → Option Course) : andThen (some (.stop o s)) f = some (.stop o s) := rfl

theorem andThen_go (s : Cmd) (f : Cmd → Option Course) : andThen (some (.go s)) f = f s := rfl

theorem openStore_ok {C : Codec} {E : PwEnv} {W : World} {a : Access} {file : List Nat} {disk : Disk} {k : Krypto}
    (hp : (prepared E a file).1 = .ok ()) (hl : load C E W disk (prepared E a file).2 = some (.ok (), k)) :
    openStore C E W a file disk = some (.go ⟨disk, k, [], []⟩) := by
  unfold openStore
  dsimp only
  rw [check_ok hp, andThen_go]
  unfold loadStep
  dsimp only
  rw [hl]; rfl

theorem prepared_opened {C : Codec} {E : PwEnv} {W : World} {a : Access} {file : List Nat} {disk : Disk} {k : Krypto}
    (hl : load C E W disk (prepared E a file).2 = some (.ok (), k)) : Opened C disk k := by
  obtain ⟨x, y, hf⟩ := prepared_frame E a file
  rw [hf] at hl
  refine load_opened ?_ ?_ rfl hl
  · exact ⟨newBase_blank.keys, newBase_blank.messages, newBase_blank.callSign, newBase_blank.spareKeys, newBase_blank.spareMsgs⟩
  · exact Nat.le_refl 1

/-- an opened store is saved or not, but nothing is asked -/
theorem saveStep_total {C : Codec} {E : PwEnv} {W : World} {s : Cmd} {key : List Nat} (hk : s.k.pfk = some key) (ho : s.k.overwrite = true) :
    ∃ r, saveStep C E W s = some r := by
  have : ∃ q, save C E W s.disk s.k = some q := by
    unfold save
    split
    · exact ⟨_, rfl⟩
    · split
      · exact ⟨_, rfl⟩
      · dsimp only
        split
        · exact ⟨_, rfl⟩
        · rename_i path _ _
          have hsk : ∃ q, saveKey C E W { s.k with persistence := path } = some q := by
            unfold saveKey; dsimp only; rw [hk]; exact ⟨_, rfl⟩
          split
          · exact hsk
          · exact hsk
  obtain ⟨q, hq⟩ := this
  unfold saveStep
  rw [hq]
  exact ⟨_, rfl⟩

/-- `keys --delete --yes` runs through -/
theorem keysCommand_runs {C : Codec} {E : PwEnv} {U : Unicode} {V : KeysEnv} {o : KeysCmd} {disk : Disk} {k : Krypto} (hdel : o.delete = true) (hyes : o.yes = true)
    (hnew : o.newKeys = none) (himp : o.importFile = none) (hexp : o.exportFile = none)
    (hp : (prepared E o.access o.file).1 = .ok ()) (hl : load C E V.loadW disk (prepared E o.access o.file).2 = some (.ok (), k)) :
    ∃ r, keysCommand C E U V o disk = some r := by
  have hop := prepared_opened hl
  obtain ⟨key, -, -, hkey, -⟩ := hop.key
  have hnone : ∀ s : Cmd, keysNew C E U V o s = some (.go s) := fun s => by unfold keysNew; rw [hnew]
  have hinone : ∀ s : Cmd, keysImport C E U V o s = some (.go s) := fun s => by unfold keysImport; rw [himp]
  have hxnone : ∀ s : Cmd, keysExport C E U V o s = some (.go s) := fun s => by unfold keysExport; rw [hexp]
  have hrest : ∀ f : Course, ∃ r, andThen (andThen (andThen (andThen (andThen (some f) (keysNew C E U V o)) (keysImport C E U V o)) (keysExport C E U V o))
      (fun s => some (keysList U V o s)))
      (fun s => some (outputStep V.outputW o.type V.render o.output (s.k.inst.keys.filter (keyFilter U V.now o.filter)) s)) = some r := by
    intro f
    cases f with
    | stop oc s => exact ⟨_, rfl⟩
    | go s =>
      rw [andThen_go, hnone, andThen_go, hinone, andThen_go, hxnone, andThen_go]
      cases keysList U V o s with
      | go s => exact ⟨_, rfl⟩
      | stop oc s => exact ⟨_, rfl⟩
  unfold keysCommand
  rw [if_neg (by simp [KeysCmd.any, hdel]), openStore_ok hp hl, andThen_go]
  have : ∃ f, keysDelete C E U V o ⟨disk, k, [], []⟩ = some f := by
    unfold keysDelete
    rw [if_pos hdel]
    split
    · exact ⟨_, rfl⟩
    · dsimp only
      rw [if_neg (by simp [hyes])]
      split
      · exact saveStep_total (key := key) hkey hop.overwrite
      · exact ⟨_, rfl⟩
  obtain ⟨f, hf⟩ := this
  rw [hf]
  exact hrest f

/-- listing messages touches nothing -/
theorem messagesRest {U : Unicode} {V : MsgsEnv} {o : MsgsCmd} (ho : o.output = none) (s : Cmd) {r : Course}
    (h : andThen (andThen (some (.go s)) (fun s => some (messagesList U V o s)))
      (fun s => some (outputStep V.outputW o.type V.render o.output (s.k.inst.messages.filter (msgFilter U o.filter)) s)) = some r) :
    r.state.disk = s.disk ∧ r.state.touched = s.touched ∧ (o.list = false → r.outcome = .ok ()) := by
  rw [andThen_go] at h
  have hout : ∀ s : Cmd, outputStep V.outputW o.type V.render o.output (s.k.inst.messages.filter (msgFilter U o.filter)) s = .go s := by
    intro s; unfold outputStep; rw [ho]
  have hl : (messagesList U V o s).state.disk = s.disk ∧ (messagesList U V o s).state.touched = s.touched ∧ (o.list = false → (messagesList U V o s).outcome = .ok ()) := by
    unfold messagesList
    split
    · rename_i hl
      refine ⟨?_, ?_, fun h => by rw [h] at hl; simp at hl⟩ <;>
      · split
        · rfl
        · split
          · rfl
          · rfl
          · dsimp only; split <;> rfl
    · exact ⟨rfl, rfl, fun _ => rfl⟩
  cases hm : messagesList U V o s with
  | go s' => rw [hm, andThen_go, hout, Option.some.injEq] at h; subst h; rw [hm] at hl; exact hl
  | stop oc s' => rw [hm, andThen_stop, Option.some.injEq] at h; subst h; rw [hm] at hl; exact hl

/-- `messages --delete --yes` runs through -/
theorem messagesCommand_runs {C : Codec} {E : PwEnv} {U : Unicode} {V : MsgsEnv} {o : MsgsCmd} {disk : Disk} {k : Krypto} (hdel : o.delete = true) (hyes : o.yes = true)
    (hnew : o.new = false)
    (hp : (prepared E o.access o.file).1 = .ok ()) (hl : load C E V.loadW disk (prepared E o.access o.file).2 = some (.ok (), k)) :
    ∃ r, messagesCommand C E U V o disk = some r := by
  have hop := prepared_opened hl
  obtain ⟨key, -, -, hkey, -⟩ := hop.key
  have hnone : ∀ s : Cmd, messagesNew C E U V o s = some (.go s) := fun s => by unfold messagesNew; rw [hnew]; rfl
  unfold messagesCommand
  rw [if_neg (by simp [MsgsCmd.any, hdel]), openStore_ok hp hl, andThen_go]
  have : ∃ f, messagesDelete C E U V o ⟨disk, k, [], []⟩ = some f := by
    unfold messagesDelete
    rw [if_pos hdel]
    split
    · exact ⟨_, rfl⟩
    · dsimp only
      rw [if_neg (by simp [hyes])]
      split
      · exact saveStep_total (key := key) hkey hop.overwrite
      · exact ⟨_, rfl⟩
  obtain ⟨f, hf⟩ := this
  rw [hf]
  cases f with
  | stop oc s => exact ⟨_, rfl⟩
  | go s =>
    rw [andThen_go, hnone, andThen_go]
    cases messagesList U V o s with
    | go s => exact ⟨_, rfl⟩
    | stop oc s => exact ⟨_, rfl⟩

end K431
