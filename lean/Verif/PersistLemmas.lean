import Verif.SpecPersist

/-! # Lemmas about saving and loading -/

namespace K431

/-! ## gob -/

theorem sent_getD {α : Type} [DecidableEq α] (z x : α) : (sent z x).getD z = x := by
  unfold sent; split
  · simp; symm; assumption
  · rfl

theorem sent_getD_of_ne {α : Type} [DecidableEq α] {z x : α} (y : α) (h : x ≠ z) : (sent z x).getD y = x := by
  unfold sent; rw [if_neg h]; rfl

theorem allocSls_val (a : Nat) (l : List Runes) : (allocSls a l).map Sl.val = l := by
  induction l generalizing a with
  | nil => rfl
  | cons x l ih => simp [allocSls, ih]

theorem mergeKey_zero (a : Nat) (k : Key) : SameKey (mergeKey a Key.zero (gobKey k)) k := by
  refine ⟨?_, ?_, ?_, ?_, ?_, ?_, ?_, ?_⟩
  · simp only [mergeKey, gobKey, sent]
    by_cases h : k.id.val = []
    · rw [if_pos h, h]; rfl
    · rw [if_neg h]
  · exact sent_getD [] k.runes
  · simp only [mergeKey, gobKey, sent]
    by_cases h : k.names = []
    · rw [if_pos h]; exact h.symm
    · rw [if_neg h]; exact allocSls_val _ _
  · exact sent_getD 0 k.created
  · exact sent_getD 0 k.expires
  · exact sent_getD false k.used
  · exact sent_getD false k.compromised
  · exact sent_getD [] k.comment

theorem mergeMsg_zero (a : Nat) (m : Msg) : SameMsg (mergeMsg a Msg.zero (gobMsg m)) m := by
  refine ⟨sent_getD [] m.id, sent_getD [] m.recipients, sent_getD [] m.from_, sent_getD 0 m.dtg, ?_, sent_getD [] m.plainText,
    sent_getD [] m.cipherText, sent_getD [] m.radiogram⟩
  simp only [mergeMsg, gobMsg, sent]
  by_cases h : m.keyId.val = []
  · rw [if_pos h, h]; rfl
  · rw [if_neg h]

theorem headD_zero {α : Type} {z : α} : ∀ {cells : List α}, (∀ x ∈ cells, x = z) → cells.headD z = z
  | [], _ => rfl
  | x :: _, h => h x (by simp)

theorem tail_all {α : Type} {p : α → Prop} {cells : List α} (h : ∀ x ∈ cells, p x) : ∀ x ∈ cells.tail, p x :=
  fun x hx => h x (List.mem_of_mem_tail hx)

theorem mergeKeys_zero : ∀ (keys : List Key) (a : Nat) (cells : List Key), (∀ x ∈ cells, x = Key.zero) →
    List.Forall₂ SameKey (mergeKeys a cells (keys.map gobKey)).1 keys ∧ a ≤ (mergeKeys a cells (keys.map gobKey)).2 ∧
    (∀ x ∈ (mergeKeys a cells (keys.map gobKey)).1, x.id.val ≠ [] → a ≤ x.id.addr ∧ x.id.addr < (mergeKeys a cells (keys.map gobKey)).2) ∧
    ((mergeKeys a cells (keys.map gobKey)).1.filter (fun x => x.id.val ≠ [])).Pairwise (fun x y => x.id.addr ≠ y.id.addr)
  | [], a, cells, _ => by simp [mergeKeys]
  | k :: ks, a, cells, h => by
    obtain ⟨h1, h2, h3, h4⟩ := mergeKeys_zero ks (a + 1 + ((gobKey k).keepers.getD []).length) cells.tail (tail_all h)
    simp only [List.map_cons, mergeKeys, headD_zero h]
    have haddr : (mergeKey a Key.zero (gobKey k)).id.val ≠ [] → (mergeKey a Key.zero (gobKey k)).id.addr = a := by
      simp only [mergeKey]
      cases (gobKey k).id with
      | none => simp [Key.zero, Sl.nil]
      | some r => simp
    refine ⟨List.Forall₂.cons (mergeKey_zero a k) h1, by omega, ?_, ?_⟩
    · intro x hx hne
      rcases List.mem_cons.1 hx with rfl | hx
      · rw [haddr hne]; omega
      · have := h3 x hx hne; omega
    · rw [List.filter_cons]
      split
      · rename_i hne
        simp only [ne_eq, decide_not, Bool.not_eq_true', decide_eq_false_iff_not] at hne
        refine List.Pairwise.cons ?_ h4
        intro y hy
        have hy' := List.mem_filter.1 hy
        have := h3 y hy'.1 (by simpa using hy'.2)
        rw [haddr hne]; omega
      · exact h4

theorem mergeMsgs_zero : ∀ (msgs : List Msg) (a : Nat) (cells : List Msg), (∀ x ∈ cells, x = Msg.zero) →
    List.Forall₂ SameMsg (mergeMsgs a cells (msgs.map gobMsg)).1 msgs ∧ a ≤ (mergeMsgs a cells (msgs.map gobMsg)).2 ∧
    (∀ x ∈ (mergeMsgs a cells (msgs.map gobMsg)).1, x.keyId.val ≠ [] →
      a ≤ x.keyId.addr ∧ x.keyId.addr < (mergeMsgs a cells (msgs.map gobMsg)).2)
  | [], a, cells, _ => by simp [mergeMsgs]
  | m :: ms, a, cells, h => by
    obtain ⟨h1, h2, h3⟩ := mergeMsgs_zero ms (a + 1) cells.tail (tail_all h)
    simp only [List.map_cons, mergeMsgs, headD_zero h]
    have haddr : (mergeMsg a Msg.zero (gobMsg m)).keyId.val ≠ [] → (mergeMsg a Msg.zero (gobMsg m)).keyId.addr = a := by
      simp only [mergeMsg]
      cases (gobMsg m).keyId with
      | none => simp [Msg.zero, Sl.nil]
      | some r => simp
    refine ⟨List.Forall₂.cons (mergeMsg_zero a m) h1, by omega, ?_⟩
    intro x hx hne
    rcases List.mem_cons.1 hx with rfl | hx
    · rw [haddr hne]; omega
    · have := h3 x hx hne; omega

/-- what a blank instance holds after decoding -/
theorem gobDecode_blank {k : Krypto} (hk : Blank k) (i : Inst) (h0 : i.groupSize ≠ 0) (h1 : i.keyLength ≠ 0) (h2 : i.columns ≠ 0)
    (h3 : i.keyColumns ≠ 0) :
    SameStore (gobDecode (gobInst i) k).inst i ∧
    (∀ x ∈ (gobDecode (gobInst i) k).inst.keys, x.id.val ≠ [] → x.id.addr < (gobDecode (gobInst i) k).inst.nextAddr) ∧
    ((gobDecode (gobInst i) k).inst.keys.filter (fun x => x.id.val ≠ [])).Pairwise (fun x y => x.id.addr ≠ y.id.addr) ∧
    (∀ m ∈ (gobDecode (gobInst i) k).inst.messages, m.keyId.val ≠ [] →
      ∀ x ∈ (gobDecode (gobInst i) k).inst.keys, x.id.val ≠ [] → x.id.addr ≠ m.keyId.addr) := by
  -- the two slices, in normal form
  have hkeys : ∃ cells, (∀ x ∈ cells, x = Key.zero) ∧ (gobDecode (gobInst i) k).inst.keys = (mergeKeys k.inst.nextAddr cells (i.keys.map gobKey)).1 ∧
      ∃ mcells, (∀ x ∈ mcells, x = Msg.zero) ∧
        (gobDecode (gobInst i) k).inst.messages = (mergeMsgs (mergeKeys k.inst.nextAddr cells (i.keys.map gobKey)).2 mcells (i.messages.map gobMsg)).1 ∧
        (gobDecode (gobInst i) k).inst.nextAddr = (mergeMsgs (mergeKeys k.inst.nextAddr cells (i.keys.map gobKey)).2 mcells (i.messages.map gobMsg)).2 := by
    by_cases hk0 : i.keys = []
    · refine ⟨[], by simp, ?_, ?_⟩
      · simp [gobDecode, gobInst, sent, hk0, mergeKeys, hk.keys]
      · by_cases hm0 : i.messages = []
        · refine ⟨[], by simp, ?_, ?_⟩ <;> simp [gobDecode, gobInst, sent, hk0, hm0, mergeKeys, mergeMsgs, hk.messages]
        · by_cases hl : i.messages.length ≤ (k.inst.messages ++ k.spareMsgs).length
          · refine ⟨k.inst.messages ++ k.spareMsgs, by rw [hk.messages]; simpa using hk.spareMsgs, ?_, ?_⟩ <;>
            simp [gobDecode, gobInst, sent, hk0, hm0, mergeKeys, hk.messages] at hl ⊢ <;> rw [if_pos hl]
          · refine ⟨[], by simp, ?_, ?_⟩ <;>
            simp only [gobDecode, gobInst, sent, hk0, List.map_nil, if_true, List.map_eq_nil_iff, hm0, if_false, List.length_map] <;> rw [if_neg hl] <;> rfl
    · by_cases hkl : i.keys.length ≤ (k.inst.keys ++ k.spareKeys).length
      · refine ⟨k.inst.keys ++ k.spareKeys, by rw [hk.keys]; simpa using hk.spareKeys, ?_, ?_⟩
        · simp only [gobDecode, gobInst, sent, List.map_eq_nil_iff, hk0, if_false, List.length_map]; rw [if_pos hkl]
        · by_cases hm0 : i.messages = []
          · refine ⟨[], by simp, ?_, ?_⟩ <;>
            simp only [gobDecode, gobInst, sent, List.map_eq_nil_iff, hk0, hm0, if_false, if_true, List.length_map, List.map_nil, mergeMsgs]
            · exact hk.messages
            · rw [if_pos hkl]
          · by_cases hl : i.messages.length ≤ (k.inst.messages ++ k.spareMsgs).length
            · refine ⟨k.inst.messages ++ k.spareMsgs, by rw [hk.messages]; simpa using hk.spareMsgs, ?_, ?_⟩ <;>
              simp only [gobDecode, gobInst, sent, List.map_eq_nil_iff, hk0, hm0, if_false, List.length_map] <;> rw [if_pos hl, if_pos hkl]
            · refine ⟨[], by simp, ?_, ?_⟩ <;>
              simp only [gobDecode, gobInst, sent, List.map_eq_nil_iff, hk0, hm0, if_false, List.length_map] <;> rw [if_neg hl, if_pos hkl]
      · refine ⟨[], by simp, ?_, ?_⟩
        · simp only [gobDecode, gobInst, sent, List.map_eq_nil_iff, hk0, if_false, List.length_map]; rw [if_neg hkl]
        · by_cases hm0 : i.messages = []
          · refine ⟨[], by simp, ?_, ?_⟩ <;>
            simp only [gobDecode, gobInst, sent, List.map_eq_nil_iff, hk0, hm0, if_false, if_true, List.length_map, List.map_nil, mergeMsgs]
            · exact hk.messages
            · rw [if_neg hkl]
          · by_cases hl : i.messages.length ≤ (k.inst.messages ++ k.spareMsgs).length
            · refine ⟨k.inst.messages ++ k.spareMsgs, by rw [hk.messages]; simpa using hk.spareMsgs, ?_, ?_⟩ <;>
              simp only [gobDecode, gobInst, sent, List.map_eq_nil_iff, hk0, hm0, if_false, List.length_map] <;> rw [if_pos hl, if_neg hkl]
            · refine ⟨[], by simp, ?_, ?_⟩ <;>
              simp only [gobDecode, gobInst, sent, List.map_eq_nil_iff, hk0, hm0, if_false, List.length_map] <;> rw [if_neg hl, if_neg hkl]
  obtain ⟨cells, hz, e1, mcells, hmz, e2, e3⟩ := hkeys
  obtain ⟨a1, a2, a3, a4⟩ := mergeKeys_zero i.keys k.inst.nextAddr cells hz
  obtain ⟨b1, b2, b3⟩ := mergeMsgs_zero i.messages (mergeKeys k.inst.nextAddr cells (i.keys.map gobKey)).2 mcells hmz
  refine ⟨⟨?_, ?_, ?_, ?_, ?_, by rw [e1]; exact a1, by rw [e2]; exact b1⟩, ?_, by rw [e1]; exact a4, ?_⟩
  · exact sent_getD_of_ne _ h0
  · exact sent_getD_of_ne _ h1
  · exact sent_getD_of_ne _ h2
  · exact sent_getD_of_ne _ h3
  · show (sent [] i.callSign).getD k.inst.callSign = _
    rw [hk.callSign]; exact sent_getD _ _
  · rw [e1, e3]
    intro x hx hne
    have := a3 x hx hne; omega
  · rw [e1, e2]
    intro m hm hne x hx hxne
    have h1 := a3 x hx hxne
    have h2 := b3 m hm hne
    omega

/-! ## Save -/

theorem saveWrite_k (C : Codec) (W : World) (key : List Nat) (k : Krypto) : (saveWrite C W key k).k = k := by
  unfold saveWrite
  split
  · rfl
  · split
    · rfl
    · dsimp only
      split
      · rfl
      · split <;> rfl

/-- the contents the file goes through are beginnings of the complete file -/
theorem saveWrite_contents (C : Codec) (W : World) (key : List Nat) (k : Krypto) :
    ∀ c ∈ (saveWrite C W key k).contents, c = [] ∨
      32 ≤ key.length ∧ ∃ i, c = (C.enc (key.take 32) W.nonce (gobInst k.inst)).take i := by
  unfold saveWrite
  split
  · simp
  · split
    · simp
    · rename_i hl
      have hl : 32 ≤ key.length := by omega
      dsimp only
      have main : ∀ n, ∀ c ∈ (List.range n).map (C.enc (key.take 32) W.nonce (gobInst k.inst)).take,
          c = [] ∨ 32 ≤ key.length ∧ ∃ i, c = (C.enc (key.take 32) W.nonce (gobInst k.inst)).take i := by
        intro n c hc
        obtain ⟨i, -, rfl⟩ := List.mem_map.1 hc
        exact Or.inr ⟨hl, i, rfl⟩
      split
      · exact main _
      · split
        · exact main _
        · exact main _

theorem saveKey_cases {C : Codec} {E : PwEnv} {W : World} {k : Krypto} {r : SaveRun} (h : saveKey C E W k = some r) :
    (r.contents = [] ∧ r.k.inst = k.inst ∧ r.k.persistence = k.persistence ∧ r.k.overwrite = k.overwrite ∧ r.outcome ≠ .ok ()) ∨
    ∃ key, r = saveWrite C W key { k with pfk := some key } ∧
      (k.pfk = some key ∨ k.pfk = none ∧ k.interactive = true ∧ W.terminal = true ∧
        ∃ a pw salt, askAndConfirm E.strong W.inputs = some a ∧ a.result = .ok pw ∧ k.salt = some salt ∧ 32 ≤ salt.length ∧
          key = E.kdf pw salt) := by
  unfold saveKey at h
  cases hp : k.pfk with
  | some key =>
    rw [hp] at h
    simp only [Option.some.injEq] at h
    right; refine ⟨key, ?_, Or.inl rfl⟩
    rw [← h]; congr 1; rw [← hp]
  | none =>
    rw [hp] at h
    dsimp only at h
    by_cases hi : (k.interactive && W.terminal) = true
    · rw [if_pos hi] at h
      cases ha : askAndConfirm E.strong W.inputs with
      | none => rw [ha] at h; simp at h
      | some a =>
        rw [ha] at h; dsimp only at h
        cases hr : a.result with
        | err e => rw [hr] at h; simp only [Option.some.injEq] at h; subst h; left; simp
        | panic => rw [hr] at h; simp only [Option.some.injEq] at h; subst h; left; simp
        | ok pw =>
          rw [hr] at h; dsimp only at h
          unfold derivePFK at h
          dsimp only at h
          cases hs : k.salt with
          | none => rw [hs] at h; simp only [Option.some.injEq] at h; subst h; left; simp
          | some salt =>
            rw [hs] at h; dsimp only at h
            by_cases hl : salt.length < 32
            · rw [if_pos hl] at h; simp only [Option.some.injEq] at h; subst h; left; simp
            · rw [if_neg hl] at h
              simp only [Bool.false_and, Bool.false_eq_true, if_false, Option.some.injEq] at h
              right
              refine ⟨E.kdf pw salt, ?_, Or.inr ⟨rfl, ?_, ?_, a, pw, salt, rfl, hr, rfl, by omega, rfl⟩⟩
              · rw [← h]; rfl
              · simp at hi; exact hi.1
              · simp at hi; exact hi.2
    · rw [if_neg hi] at h
      simp only [Option.some.injEq] at h; subst h; left; simp

/-- A run of `Save` either leaves the file alone or writes it, with permission. -/
theorem save_cases {C : Codec} {E : PwEnv} {W : World} {disk : Disk} {k : Krypto} {r : SaveRun} (h : save C E W disk k = some r) :
    (r.contents = [] ∧ r.k.inst = k.inst ∧ r.k.overwrite = k.overwrite ∧ (r.outcome = .ok () →
      ∃ path c, resolvePath W k.persistence = some path ∧ disk path = some c ∧ k.overwrite = false ∧ W.confirm = some false)) ∨
    ∃ path key, resolvePath W k.persistence = some path ∧ k.persistence ≠ [] ∧ W.statFails = false ∧ (disk path = none ∨ Permitted W k) ∧
      r = saveWrite C W key { k with persistence := path, pfk := some key } ∧
      (k.pfk = some key ∨ k.pfk = none ∧ k.interactive = true ∧ W.terminal = true ∧
        ∃ a pw salt, askAndConfirm E.strong W.inputs = some a ∧ a.result = .ok pw ∧ k.salt = some salt ∧ 32 ≤ salt.length ∧
          key = E.kdf pw salt) := by
  unfold save at h
  by_cases h0 : k.persistence.length = 0
  · rw [if_pos h0] at h; simp only [Option.some.injEq] at h; subst h; left; simp
  · rw [if_neg h0] at h
    cases hp : resolvePath W k.persistence with
    | none => rw [hp] at h; simp only [Option.some.injEq] at h; subst h; left; simp
    | some path =>
      rw [hp] at h; dsimp only at h
      by_cases hs : W.statFails = true
      · rw [if_pos hs] at h; simp only [Option.some.injEq] at h; subst h; left; simp
      · rw [if_neg hs] at h
        have go : saveKey C E W { k with persistence := path } = some r → (disk path = none ∨ Permitted W k) →
            (r.contents = [] ∧ r.k.inst = k.inst ∧ r.k.overwrite = k.overwrite ∧ (r.outcome = .ok () →
              ∃ path' c, some path = some path' ∧ disk path' = some c ∧ k.overwrite = false ∧ W.confirm = some false)) ∨
            ∃ path' key, some path = some path' ∧ k.persistence ≠ [] ∧ W.statFails = false ∧ (disk path' = none ∨ Permitted W k) ∧
              r = saveWrite C W key { k with persistence := path', pfk := some key } ∧
              (k.pfk = some key ∨ k.pfk = none ∧ k.interactive = true ∧ W.terminal = true ∧
                ∃ a pw salt, askAndConfirm E.strong W.inputs = some a ∧ a.result = .ok pw ∧ k.salt = some salt ∧ 32 ≤ salt.length ∧
                  key = E.kdf pw salt) := by
          intro h hperm
          rcases saveKey_cases h with ⟨e1, e2, -, e3, e4⟩ | ⟨key, e1, e2⟩
          · left; exact ⟨e1, e2, e3, fun h => absurd h e4⟩
          · right; exact ⟨path, key, rfl, by intro e; simp [e] at h0, by simpa using hs, hperm, e1, e2⟩
        cases hd : disk path with
        | none => rw [hd] at h; exact go h (Or.inl hd)
        | some c =>
          rw [hd] at h; dsimp only at h
          by_cases ho : k.overwrite = true
          · rw [if_pos ho] at h; exact go h (Or.inr (Or.inl ho))
          · rw [if_neg ho] at h
            by_cases hi : (k.interactive && W.terminal) = true
            · rw [if_pos hi] at h
              simp only [Bool.and_eq_true] at hi
              cases hc : W.confirm with
              | none => rw [hc] at h; simp only [Option.some.injEq] at h; subst h; left; simp
              | some b =>
                rw [hc] at h
                cases b with
                | false =>
                  simp only [Option.some.injEq] at h; subst h; left
                  refine ⟨rfl, rfl, rfl, fun _ => ⟨path, c, rfl, hd, by simpa using ho, rfl⟩⟩
                | true =>
                  rcases go h (Or.inr (Or.inr ⟨hi.1, hi.2, hc⟩)) with g | g
                  · left; rw [hc] at g; exact g
                  · right; exact g
            · rw [if_neg hi] at h
              simp only [Option.some.injEq] at h; subst h; left; simp

/-! ## Load -/

theorem loadRead_err {C : Codec} {W : World} {disk : Disk} {key : List Nat} {k : Krypto} (h : (loadRead C W disk key k).1 ≠ .ok ()) :
    (loadRead C W disk key k).2 = k := by
  unfold loadRead at h ⊢
  by_cases h1 : W.openFails = true
  · rw [if_pos h1]
  · rw [if_neg h1] at h ⊢
    by_cases h2 : key.length < 32
    · rw [if_pos h2]
    · rw [if_neg h2] at h ⊢
      cases hd : disk k.persistence with
      | none => rfl
      | some c =>
        rw [hd] at h
        dsimp only at h ⊢
        cases he : C.dec (key.take 32) c with
        | none => rfl
        | some w => rw [he] at h; exact absurd rfl h

/-- A run of `Load` gets its key from the instance or from the terminal, and reads the file with it, or fails. -/
theorem load_cases {C : Codec} {E : PwEnv} {W : World} {disk : Disk} {k k' : Krypto} {o : Outcome Unit}
    (h : load C E W disk k = some (o, k')) :
    (o ≠ .ok () ∧ ∃ path, k' = { k with persistence := path }) ∨
    ∃ path key, resolvePath W k.persistence = some path ∧ W.statFails = false ∧ disk path ≠ none ∧
      (o, k') = loadRead C W disk key { k with persistence := path, pfk := some key } ∧
      (k.pfk = some key ∨ k.pfk = none ∧ k.interactive = true ∧ W.terminal = true ∧
        ∃ pw n salt, askForPassword 0 W.inputs = some (some pw, n) ∧ k.salt = some salt ∧ 32 ≤ salt.length ∧ key = E.kdf pw salt) := by
  unfold load at h
  by_cases h0 : k.persistence.length = 0
  · rw [if_pos h0] at h; simp only [Option.some.injEq, Prod.mk.injEq] at h; left; exact ⟨by simp [← h.1], k.persistence, h.2.symm⟩
  · rw [if_neg h0] at h
    cases hp : resolvePath W k.persistence with
    | none => rw [hp] at h; simp only [Option.some.injEq, Prod.mk.injEq] at h; left; exact ⟨by simp [← h.1], k.persistence, h.2.symm⟩
    | some path =>
      rw [hp] at h; dsimp only at h
      by_cases hs : W.statFails = true
      · rw [if_pos hs] at h; simp only [Option.some.injEq, Prod.mk.injEq] at h; left; exact ⟨by simp [← h.1], path, h.2.symm⟩
      · rw [if_neg hs] at h
        have hs : W.statFails = false := by simpa using hs
        cases hd : disk path with
        | none => rw [hd] at h; simp only [Option.some.injEq, Prod.mk.injEq] at h; left; exact ⟨by simp [← h.1], path, h.2.symm⟩
        | some c =>
          rw [hd] at h; dsimp only at h
          cases hpf : k.pfk with
          | some key =>
            rw [hpf] at h
            simp only [Option.some.injEq] at h
            right
            refine ⟨path, key, rfl, hs, by rw [hd]; simp, ?_, Or.inl rfl⟩
            rw [← h, ← hpf]
          | none =>
            rw [hpf] at h; dsimp only at h
            by_cases hi : (k.interactive && W.terminal) = true
            · rw [if_pos hi] at h
              cases ha : askForPassword 0 W.inputs with
              | none => rw [ha] at h; simp at h
              | some a =>
                obtain ⟨pw, n⟩ := a
                rw [ha] at h
                cases pw with
                | none => simp only [Option.some.injEq, Prod.mk.injEq] at h; left; exact ⟨by simp [← h.1], path, h.2.symm⟩
                | some pw =>
                  dsimp only at h
                  unfold derivePFK at h
                  dsimp only at h
                  cases hsl : k.salt with
                  | none =>
                    rw [hsl] at h; simp only [Option.some.injEq, Prod.mk.injEq] at h
                    left; exact ⟨by simp [← h.1], path, h.2.symm.trans (by rw [← hsl])⟩
                  | some salt =>
                    rw [hsl] at h; dsimp only at h
                    by_cases hl : salt.length < 32
                    · rw [if_pos hl] at h; simp only [Option.some.injEq, Prod.mk.injEq] at h
                      left; exact ⟨by simp [← h.1], path, h.2.symm.trans (by rw [← hsl])⟩
                    · rw [if_neg hl] at h
                      simp only [Bool.false_and, Bool.false_eq_true, if_false, Option.some.injEq] at h
                      right
                      simp only [Bool.and_eq_true] at hi
                      refine ⟨path, E.kdf pw salt, rfl, hs, by rw [hd]; simp, ?_, Or.inr ⟨rfl, hi.1, hi.2, pw, n, salt, rfl, rfl, by omega, rfl⟩⟩
                      rw [← h]; rfl
            · rw [if_neg hi] at h; simp only [Option.some.injEq, Prod.mk.injEq] at h; left; exact ⟨by simp [← h.1], path, h.2.symm⟩

theorem load_key {C : Codec} {E : PwEnv} {W : World} {disk : Disk} {k : Krypto} {path key : List Nat} (hr : Reads W k path)
    (hk : LoadsWith E W k key) (hd : disk path ≠ none) :
    load C E W disk k = some (loadRead C W disk key { k with persistence := path, pfk := some key }) := by
  obtain ⟨c, hc⟩ := Option.ne_none_iff_exists'.1 hd
  unfold load
  rw [if_neg (by simpa using hr.named), hr.path]
  dsimp only
  rw [if_neg (by simp [hr.stat]), hc]
  dsimp only
  rcases hk with hk | ⟨h1, h2, h3, pw, rest, salt, h4, h5, h6, h7⟩
  · rw [hk]
  · rw [h1]; dsimp only
    rw [if_pos (by simp [h2, h3]), h4]
    simp only [askForPassword, Nat.not_lt_zero, if_false]
    unfold derivePFK
    dsimp only
    rw [h5]; dsimp only
    rw [if_neg (by omega), if_neg (by simp)]
    subst h7
    rfl

theorem getLast?_range {α : Type} (f : Nat → α) (n : Nat) : ((List.range (n + 1)).map f).getLast? = some (f n) := by
  rw [List.range_succ, List.map_append]; simp

theorem set_same (d : Disk) (p c : List Nat) : d.set p c p = some c := by simp [Disk.set]

theorem set_other (d : Disk) {p q : List Nat} (c : List Nat) (h : q ≠ p) : d.set p c q = d q := by simp [Disk.set, h]

/-- a blank instance reads a file that decodes to an image -/
theorem stored_of_dec {C : Codec} {disk : Disk} {path key c : List Nat} {i : Inst} (hl : key.length = 32) (hd : disk path = some c)
    (hc : C.dec key c = some (gobInst i)) (h0 : i.groupSize ≠ 0) (h1 : i.keyLength ≠ 0) (h2 : i.columns ≠ 0) (h3 : i.keyColumns ≠ 0) :
    Stored C disk path key i := by
  intro E W k hb hr hk
  rw [load_key hr hk (by rw [hd]; simp)]
  unfold loadRead
  rw [if_neg (by simp [hr.opens]), if_neg (by omega)]
  dsimp only
  rw [hd]
  dsimp only
  rw [List.take_of_length_le (by omega), hc]
  refine ⟨_, rfl, ?_⟩
  exact (gobDecode_blank (k := { k with persistence := path, pfk := some key }) ⟨hb.keys, hb.messages, hb.callSign, hb.spareKeys, hb.spareMsgs⟩
    i h0 h1 h2 h3).1

/-- a file that no key opens -/
theorem lost_of_dec {C : Codec} {disk : Disk} {path c : List Nat} (hd : disk path = some c) (hc : ∀ key, C.dec key c = none) :
    Lost C disk path := by
  intro E W k k' hr h
  rcases load_cases h with ⟨h1, -⟩ | ⟨p, key, h1, -, -, h2, -⟩
  · exact h1 rfl
  · rw [hr.path] at h1
    obtain rfl : path = p := by simpa using h1
    unfold loadRead at h2
    rw [if_neg (by simp [hr.opens])] at h2
    split at h2
    · simp at h2
    · dsimp only at h2
      rw [hd] at h2
      dsimp only at h2
      rw [hc] at h2
      simp at h2

/-- what a complete write leaves -/
theorem saveWrite_done (C : Codec) (W : World) (key : List Nat) (k : Krypto) (hl : key.length = 32) (ho : W.openFails = false)
    (hr : W.room = none) (disk : Disk) :
    (saveWrite C W key k).outcome = .ok () ∧
    (saveWrite C W key k).disk disk = disk.set k.persistence (C.enc key W.nonce (gobInst k.inst)) := by
  unfold saveWrite
  rw [if_neg (by simp [ho]), if_neg (by omega), hr]
  dsimp only
  refine ⟨rfl, ?_⟩
  unfold SaveRun.disk
  dsimp only
  rw [getLast?_range]
  simp [List.take_of_length_le (show key.length ≤ 32 by omega)]

/-- what a write leaves that fails after `Encode` has returned -/
theorem saveWrite_room (C : Codec) (W : World) (key : List Nat) (k : Krypto) (hl : key.length = 32) (ho : W.openFails = false)
    {n : Nat} (hr : W.room = some n) (h1 : n < (C.enc key W.nonce (gobInst k.inst)).length) (h2 : C.early key W.nonce (gobInst k.inst) = n) :
    saveWrite C W key k = ⟨.ok (), k, (List.range (n + 1)).map (C.enc key W.nonce (gobInst k.inst)).take⟩ := by
  unfold saveWrite
  rw [if_neg (by simp [ho]), if_neg (by omega), hr, List.take_of_length_le (show key.length ≤ 32 by omega)]
  dsimp only
  rw [if_neg (by omega), h2, if_neg (by omega)]

theorem derivePFK_overwrite (E : PwEnv) (v : Bool) (n : Option (Nat → Nat)) (pw : Option Buf) (k : Krypto) :
    (derivePFK E v n pw k).2.1.overwrite = k.overwrite := by
  unfold derivePFK
  split
  · rfl
  · split
    · rfl
    · split
      · rfl
      · split <;> rfl

theorem kstep_flag {C : Codec} {E : PwEnv} {U : Unicode} {s t : Disk × Krypto × Bool} (h : KStep C E U s t)
    (hs : s.2.1.overwrite = true → s.2.2 = true) : t.2.1.overwrite = true → t.2.2 = true := by
  cases h with
  | save h =>
    rcases save_cases h with ⟨-, -, e, -⟩ | ⟨path, key, -, -, -, -, e, -⟩
    · intro ho; rw [e] at ho; exact hs ho
    · subst e; intro ho; rw [saveWrite_k] at ho; exact hs ho
  | load h => intro _; rfl
  | loadFails h ho =>
    intro h2
    rcases load_cases h with ⟨-, p, e⟩ | ⟨path, key, -, -, -, e, -⟩
    · subst e; exact hs h2
    · have : (loadRead _ _ _ key _).2 = _ := loadRead_err (by rw [← e]; exact ho)
      rw [← e] at this
      replace this := congrArg Krypto.overwrite this
      exact hs (this.symm.trans h2)
  | overwrite v => intro h; simp [withOverwrite] at h; simp [h]
  | persistence f => exact hs
  | interactive v => exact hs
  | overwriteKeys v => exact hs
  | pfk x =>
    intro h; apply hs
    simp only [setPFKFromString] at h
    split at h
    · exact h
    · split at h <;> exact h
  | pfkOption x =>
    intro h; apply hs
    simp only [withPFK] at h
    split at h
    · exact h
    · split at h <;> exact h
  | salt x =>
    intro h; apply hs
    simp only [setSaltFromString] at h
    split at h
    · exact h
    · split at h <;> exact h
  | saltOption x =>
    intro h; apply hs
    simp only [withSalt] at h
    split at h
    · exact h
    · split at h <;> exact h
  | password x =>
    intro h; apply hs
    simp only [setPFKFromPassword, derivePFK_overwrite] at h
    exact h
  | callSign x =>
    intro h; apply hs
    simp only [setCallSign] at h
    split at h <;> exact h
  | store i => exact hs
  | wipe n => exact hs
  | files d => exact hs

/-- saving with a key that is too short loses the file -/
theorem save_short {C : Codec} (hC : C.Lawful) {E : PwEnv} {W : World} {disk : Disk} {k : Krypto} {path key : List Nat} (hr : Reads W k path)
    (hk : k.pfk = some key) (hl : key.length < 32) (ho : k.overwrite = true) :
    ∃ r, save C E W disk k = some r ∧ r.outcome = .panic ∧ r.disk disk path = some [] ∧ Lost C (r.disk disk) path := by
  refine ⟨⟨.panic, { k with persistence := path }, [[]]⟩, ?_, rfl, set_same _ _ _, lost_of_dec (set_same _ _ _) hC.empty⟩
  unfold save
  rw [if_neg (by simpa using hr.named), hr.path]
  dsimp only
  rw [if_neg (by simp [hr.stat])]
  have key : saveKey C E W { k with persistence := path } = some ⟨.panic, { k with persistence := path }, [[]]⟩ := by
    simp [saveKey, saveWrite, hk, hr.opens, hl]
  split
  · exact key
  · rw [if_pos ho]; exact key

/-! ## Importing from a file -/

theorem deleteKeyOnce_frame (U : Unicode) (noise : Noise) (inst : Inst) (id : Runes) :
    ∃ ks ms nx, (deleteKeyOnce U noise inst id).2 = { inst with keys := ks, messages := ms, nextAddr := nx } := by
  unfold deleteKeyOnce
  repeat' split
  all_goals exact ⟨_, _, _, rfl⟩

theorem deleteKey_frame (U : Unicode) : ∀ (ids : List Runes) (noise : Nat → Noise) (inst : Inst),
    ∃ ks ms nx, (deleteKey U noise inst ids).2 = { inst with keys := ks, messages := ms, nextAddr := nx }
  | [], noise, inst => ⟨_, _, _, rfl⟩
  | id :: ids, noise, inst => by
    obtain ⟨ks, ms, nx, e⟩ := deleteKeyOnce_frame U (noise 0) inst id
    obtain ⟨ks', ms', nx', e'⟩ := deleteKey_frame U ids (fun i => noise (i + 1)) (deleteKeyOnce U (noise 0) inst id).2
    refine ⟨ks', ms', nx', ?_⟩
    simp only [deleteKey]
    rw [e', e]

/-- importing changes only keys and messages (and the allocator) -/
theorem importLoop_frame (U : Unicode) (o : ImportOpts) (filter : Key → Bool) (call : Sl) : ∀ (l : List Key) (noise : Nat → Noise) (n : Nat) (inst : Inst),
    ∃ ks ms nx, (importLoop U noise o filter call l n inst).2.2 = { inst with keys := ks, messages := ms, nextAddr := nx }
  | [], noise, n, inst => ⟨_, _, _, rfl⟩
  | k :: l, noise, n, inst => by
    have next := fun n inst => importLoop_frame U o filter call l (fun i => noise (i + 1)) n inst
    have add : ∀ i' : Inst, (∃ ks ms nx, i' = { inst with keys := ks, messages := ms, nextAddr := nx }) →
        ∃ ks ms nx, (importLoop U (fun i => noise (i + 1)) o filter call l (n + 1) { i' with
          keys := i'.keys ++ [importedKey U i' call k], nextAddr := i'.nextAddr + 1 + k.keepers.length }).2.2 =
          { inst with keys := ks, messages := ms, nextAddr := nx } := by
      rintro i' ⟨ks, ms, nx, rfl⟩
      obtain ⟨ks', ms', nx', e⟩ := next (n + 1) { ({ inst with keys := ks, messages := ms, nextAddr := nx } : Inst) with
        keys := ks ++ [importedKey U { inst with keys := ks, messages := ms, nextAddr := nx } call k], nextAddr := nx + 1 + k.keepers.length }
      exact ⟨ks', ms', nx', e⟩
    have del := deleteKey_frame U [k.id.val] (fun _ => noise 0) inst
    simp only [importLoop]
    repeat' split
    all_goals first
      | exact next _ _
      | exact add _ del
      | exact add _ ⟨_, _, _, rfl⟩
      | exact ⟨_, _, _, rfl⟩

theorem importKeys_frame (U : Unicode) (noise : Nat → Noise) (o : ImportOpts) (filter : Key → Bool) (x : Outcome (List Key × Runes)) (inst : Inst) :
    ∃ ks ms nx, (importKeys U noise o filter x inst).2.2 = { inst with keys := ks, messages := ms, nextAddr := nx } := by
  unfold importKeys
  split
  · obtain ⟨ks, ms, nx, e⟩ := importLoop_frame U o filter ⟨inst.nextAddr, ‹Runes›⟩ ‹List Key› noise 0 { inst with nextAddr := inst.nextAddr + 1 }
    exact ⟨ks, ms, nx, e⟩
  · exact ⟨_, _, _, rfl⟩
  · exact ⟨_, _, _, rfl⟩

/-- without the options that share pointers nothing is shared -/
theorem newIncoming_own {U : Unicode} {own : Krypto} {opts : List Opt} (h : Opt.pfkOwn ∉ opts ∧ Opt.saltOwn ∉ opts) :
    (newIncoming U own opts).sharesPFK = false ∧ (newIncoming U own opts).sharesSalt = false := by
  have main : ∀ (l : List Opt) (n : Incoming), Opt.pfkOwn ∉ l ∧ Opt.saltOwn ∉ l → n.sharesPFK = false ∧ n.sharesSalt = false →
      (l.foldl (Opt.apply U own) n).sharesPFK = false ∧ (l.foldl (Opt.apply U own) n).sharesSalt = false := by
    intro l
    induction l with
    | nil => intro n _ h; exact h
    | cons o l ih =>
      intro n hl hn
      simp only [List.mem_cons, not_or] at hl
      refine ih _ ⟨hl.1.2, hl.2.2⟩ ?_
      cases o <;> first | exact hn | exact ⟨rfl, hn.2⟩ | exact ⟨hn.1, rfl⟩ | exact absurd rfl hl.1.1 | exact absurd rfl hl.2.1
  exact main opts _ h ⟨rfl, rfl⟩

end K431
