import Verif.HandCmdLemmas
import Verif.PropsSummary

/-! # Helper lemmas: deleting what was ticked -/

namespace K431
open Spec

/-- deleting the ticked keys of a store without shared arrays -/
theorem deleteSummary_apart {U : Unicode} (hU : U.Lawful) {inst : Inst} (h : Apart inst) (hd : DistinctNames U (inst.keys.map (fun k => k.id.val))) (date : Int → Runes)
    (filter : Key → Bool) (hids : ∀ k ∈ inst.keys, filter k = true → Printable U k.id.val ∧ k.id.val.length ≤ inst.groupSize) (noise : Nat → Nat → Noise) (response : List Runes)
    (hr : ∀ r ∈ response, r ∈ ((summaryOfKeys date filter inst).2.map goStr)) :
    let shown := inst.keys.filter filter
    let lines := (summaryOfKeys date filter inst).2
    let result := deleteKeysBySummary U noise inst response
    result.2.keys.Perm (inst.keys.filter (fun k => !decide (Chosen shown lines response k))) ∧
    result.1 = (inst.keys.filter (fun k => decide (Chosen shown lines response k))).length ∧
    result.2 = { inst with keys := result.2.keys } := by
  intro shown lines result
  have hresp : ∀ r ∈ response, ∃ l ∈ lines, r = goStr l := by
    intro r hr'
    obtain ⟨l, hl, e⟩ := List.mem_map.1 (hr r hr')
    exact ⟨l, hl, e.symm⟩
  obtain ⟨-, hcut, H⟩ := C55_keys U hU date filter inst hids
  obtain ⟨⟨f, h1, h2⟩, h3⟩ := H response noise (h.storeOk hd) hresp
  refine ⟨?_, h3, ?_⟩
  · refine h1.trans (List.Perm.of_eq ?_)
    conv => rhs; rw [← List.map_id (inst.keys.filter _)]
    refine List.map_congr_left (fun x hx => ?_)
    obtain ⟨hx, hn⟩ := List.mem_filter.1 hx
    refine (h2 x).2 (fun y hy hc hs => ?_)
    have hne : y ≠ x := by
      rintro rfl
      simp only [Bool.not_eq_eq_eq_not, Bool.not_true, decide_eq_false_iff_not] at hn
      exact hn hc
    exact (pairwise_both (fun x y h => ⟨h.2, h.1⟩) h.keepers hy hx hne).1 hs
  · have hz : ∀ r ∈ response, Printable U (cutBlank r) := by
      intro r hr'
      obtain ⟨l, hl, rfl⟩ := hresp r hr'
      obtain ⟨k, hk, rfl⟩ := List.mem_map.1 hl
      obtain ⟨a, b⟩ := List.mem_filter.1 hk
      rw [keyLine_cut hU date hk (hids k a b).1 (hids k a b).2]
      exact (hids k a b).1
    have hv : ∀ l ∈ response, vettedKeepers U [cutBlank l] = [toUpperStr U (cutBlank l)] := fun l hl => (vetted_printable hU (hz l hl)).1
    have hres : result = deleteKey U (fun i => noise i 0) inst (response.map (fun l => toUpperStr U (cutBlank l))) :=
      deleteKeysBySummary_eq U _ response noise inst hv
    rw [hres]
    refine (deleteKey_apart h hd _ _ ?_).2.2
    rintro ⟨b, hb, hs⟩
    obtain ⟨r, hr', rfl⟩ := List.mem_map.1 hb
    unfold SameFold toUpperStr at hs
    simp only [List.map_nil] at hs
    have := List.map_eq_nil_iff.1 (List.map_eq_nil_iff.1 hs.symm)
    exact (hz r hr').1 this

/-- something is deleted if something shown is ticked -/
theorem chosen_pos {α : Type} [DecidableEq α] {l : List α} {p : α → Bool} {f : α → Runes} {response : List Runes} (hne : response ≠ [])
    (hr : ∀ r ∈ response, r ∈ ((l.filter p).map f).map goStr) :
    0 < (l.filter (fun x => decide (Chosen (l.filter p) ((l.filter p).map f) response x))).length := by
  obtain ⟨r, hr'⟩ := List.exists_mem_of_ne_nil _ hne
  obtain ⟨s, hs, rfl⟩ := List.mem_map.1 (hr r hr')
  obtain ⟨x, hx, rfl⟩ := List.mem_map.1 hs
  refine List.length_pos_of_mem (a := x) (List.mem_filter.2 ⟨(List.mem_filter.1 hx).1, decide_eq_true ⟨(x, f x), (mem_zip_map f _ _).2 ⟨hx, rfl⟩, rfl, hr'⟩⟩)

/-- without `--output`, what follows succeeds -/
theorem keysTail_ok {U : Unicode} {V : KeysEnv} {o : KeysCmd} {s : Cmd} {r : Course} (ho : o.output = none)
    (h : andThen (andThen (some (.go s)) (fun s => some (keysList U V o s)))
      (fun s => some (outputStep V.outputW o.type V.render o.output (s.k.inst.keys.filter (keyFilter U V.now o.filter)) s)) = some r) : r.outcome = .ok () :=
  (keysRest ho s h).2

/-! ## Messages -/

theorem forall₂_chain {α : Type} {R : α → α → Prop} (h : ∀ a b c, R a b → R b c → R a c) :
    ∀ {l m n : List α}, List.Forall₂ R l m → List.Forall₂ R m n → List.Forall₂ R l n
  | _, _, _, .nil, .nil => .nil
  | _, _, _, .cons a as, .cons b bs => .cons (h _ _ _ a b) (forall₂_chain h as bs)

theorem markedSince_stack (stack : List Nat) (keys : List Key) : List.Forall₂ MarkedSince keys (stack.foldl (fun ks j => setUsed ks j true) keys) := by
  rw [List.forall₂_iff_get]
  refine ⟨(foldl_setUsed_length stack keys).symm, fun i h1 h2 => ?_⟩
  have := foldl_setUsed stack keys i
  rw [List.getElem?_eq_getElem h2, List.getElem?_eq_getElem h1, Option.map_some, Option.some.injEq] at this
  simp only [List.get_eq_getElem]
  rw [this]
  exact ⟨rfl, fun h => by simp [h]⟩

theorem markedSince_refl (keys : List Key) : List.Forall₂ MarkedSince keys keys := by
  induction keys with
  | nil => exact .nil
  | cons a l ih => exact .cons ⟨rfl, id⟩ ih

theorem MarkedSince.trans {x y z : Key} (h1 : MarkedSince x y) (h2 : MarkedSince y z) : MarkedSince x z := by
  obtain ⟨a, b⟩ := h1
  obtain ⟨c, d⟩ := h2
  refine ⟨?_, d ∘ b⟩
  rw [c, a]

theorem markedSince_ids {a b : List Key} (h : List.Forall₂ MarkedSince a b) : b.map Key.id = a.map Key.id := by
  induction h with
  | nil => rfl
  | cons h _ ih => rw [List.map_cons, List.map_cons, ih, h.1]

theorem SameMsg.refl' (m : Msg) : SameMsg m m := ⟨rfl, rfl, rfl, rfl, rfl, rfl, rfl, rfl⟩

theorem SeenAs.trans {ids : List Runes} {a b c : Msg} (h1 : SeenAs ids a b) (h2 : SeenAs ids b c) : SeenAs ids a c := by
  rcases h1 with h1 | ⟨p1, p2, p3, p4, p5, p6, p7⟩ <;> rcases h2 with h2 | ⟨q1, q2, q3, q4, q5, q6, q7⟩
  · exact .inl ⟨h2.id.trans h1.id, h2.recipients.trans h1.recipients, h2.from_.trans h1.from_, h2.dtg.trans h1.dtg, h2.keyId.trans h1.keyId, h2.plainText.trans h1.plainText,
      h2.cipherText.trans h1.cipherText, h2.radiogram.trans h1.radiogram⟩
  · exact .inr ⟨h1.keyId ▸ q1, q2, q3.trans h1.id, q4.trans h1.recipients, q5.trans h1.from_, q6.trans h1.dtg, q7.trans h1.radiogram⟩
  · exact .inr ⟨p1, h2.keyId ▸ p2, h2.id.trans p3, h2.recipients.trans p4, h2.from_.trans p5, h2.dtg.trans p6, h2.radiogram.trans p7⟩
  · exact .inr ⟨p1, q2, q3.trans p3, q4.trans p4, q5.trans p5, q6.trans p6, q7.trans p7⟩

/-- no two messages, and no message and key, share an array of a key id -/
structure KeyIdsApart (inst : Inst) : Prop where
  keys : ∀ x ∈ inst.keys, x.id.addr < inst.nextAddr
  fresh : ∀ m ∈ inst.messages, m.keyId.addr < inst.nextAddr
  nonzero : ∀ m ∈ inst.messages, m.keyId.val ≠ [] → m.keyId.addr ≠ 0
  other : ∀ m ∈ inst.messages, m.keyId.val ≠ [] → ∀ x ∈ inst.keys, x.id.addr ≠ m.keyId.addr
  keyIds : inst.messages.Pairwise (fun m n => m.keyId.addr = n.keyId.addr → m.keyId.val = [] ∧ n.keyId.val = [])

/-- what trying to decipher the message `m` may do -/
def TryEffect (inst : Inst) (m : Msg) (inst' : Inst) (m' : Msg) : Prop :=
  ∃ keys' nx, inst' = { inst with keys := keys', nextAddr := nx } ∧ inst.nextAddr ≤ nx ∧ List.Forall₂ MarkedSince inst.keys keys' ∧
    SeenAs (inst.keys.map (fun x => x.id.val)) m m' ∧
    (m'.keyId = m.keyId ∨ m'.keyId.addr = 0 ∧ m'.keyId.val = [] ∨ (m'.keyId.addr = inst.nextAddr ∧ inst.nextAddr < nx))

theorem tryDecipher_effect {U : Unicode} {f : Runes} {dry : Bool} {inst inst' : Inst} {m m' : Msg} {o : Outcome Unit} (hm : m.id ≠ [])
    (h : tryDecipher U f dry inst m = (o, inst', m')) : TryEffect inst m inst' m' := by
  have hw : ∀ m1 : Msg, m1.id ≠ [] → withId f m1 = m1 := by
    intro m1 h1
    unfold withId
    rw [if_neg (by simpa using h1)]
  have base : TryEffect inst m inst m :=
    ⟨inst.keys, inst.nextAddr, rfl, Nat.le_refl _, markedSince_refl _, .inl (SameMsg.refl' m), .inl rfl⟩
  unfold tryDecipher at h
  rw [hw m hm] at h
  dsimp only at h
  by_cases h0 : m.keyId.val.length > 0
  · rw [if_pos h0] at h; cases h; exact base
  rw [if_neg h0] at h
  have hk0 : m.keyId.val = [] := List.length_eq_zero_iff.1 (by omega)
  cases h1 : filterText U m.plainText with
  | none => rw [h1] at h; cases h; exact base
  | some filtered =>
    rw [h1] at h
    dsimp only at h
    split at h
    · cases h; exact base
    cases h2 : getKey U inst.keys (filtered.take inst.groupSize) with
    | none => rw [h2] at h; cases h; exact base
    | some i =>
      rw [h2] at h
      dsimp only at h
      split at h
      · cases h; exact base
      cases h3 : inst.keys[i]? with
      | none => rw [h3] at h; cases h; exact base
      | some k =>
        rw [h3] at h
        dsimp only at h
        have hmem : k.id.val ∈ inst.keys.map (fun x => x.id.val) := List.mem_map.2 ⟨k, List.mem_of_getElem? h3, rfl⟩
        rcases hd : decipher U f { inst with nextAddr := inst.nextAddr + 1 } { m with keyId := ⟨inst.nextAddr, k.id.val⟩, cipherText := filtered.drop inst.groupSize } with ⟨oc, i2, m2⟩
        rw [hd] at h
        obtain ⟨e1, e2, e3⟩ := decipher_fail hd
        have hw2 := hw { m with keyId := ⟨inst.nextAddr, k.id.val⟩, cipherText := filtered.drop inst.groupSize } hm
        rw [hw2] at e2
        have failed : (i2 = { inst with nextAddr := inst.nextAddr + 1 }) →
            TryEffect inst m i2 { m2 with keyId := Sl.nil, plainText := m.plainText, cipherText := m.cipherText } := by
          intro e
          rw [e, e2]
          exact ⟨inst.keys, inst.nextAddr + 1, rfl, by omega, markedSince_refl _, .inl ⟨rfl, rfl, rfl, rfl, by rw [hk0]; rfl, rfl, rfl, rfl⟩, .inr (.inl ⟨rfl, rfl⟩)⟩
        cases oc with
        | ok u =>
          simp only [Prod.mk.injEq] at h
          obtain ⟨-, rfl, rfl⟩ := h
          have hkeys : List.Forall₂ MarkedSince inst.keys i2.keys := by
            unfold decipher at hd
            rw [hw2] at hd
            dsimp only at hd
            repeat' split at hd
            all_goals simp only [Prod.mk.injEq, reduceCtorEq, false_and] at hd
            obtain ⟨-, rfl, -⟩ := hd
            exact markedSince_stack _ _
          obtain ⟨keys', e3⟩ := e3
          refine ⟨keys', inst.nextAddr + 1, e3, by omega, by rw [e3] at hkeys; exact hkeys, .inr ⟨hk0, by rw [e2]; exact hmem, by rw [e2], by rw [e2], by rw [e2], by rw [e2], by rw [e2]⟩,
            .inr (.inr ⟨by rw [e2], by omega⟩)⟩
        | err e =>
          simp only [Prod.mk.injEq] at h
          obtain ⟨-, rfl, rfl⟩ := h
          exact failed (e1 (by simp))
        | panic =>
          simp only [Prod.mk.injEq] at h
          obtain ⟨-, rfl, rfl⟩ := h
          exact failed (e1 (by simp))

/-- messages after the i-th has been replaced -/
theorem KeyIdsApart.step {inst : Inst} (h : KeyIdsApart inst) {inst' : Inst} {m m' : Msg} {i : Nat} (hi : inst.messages[i]? = some m) (he : TryEffect inst m inst' m') :
    KeyIdsApart { inst' with messages := inst'.messages.set i m' } := by
  obtain ⟨keys', nx, rfl, hn, hk, -, ha⟩ := he
  have hids := markedSince_ids hk
  have hkey : ∀ x ∈ keys', ∃ y ∈ inst.keys, y.id = x.id := by
    intro x hx
    have : x.id ∈ inst.keys.map Key.id := by rw [← hids]; exact List.mem_map.2 ⟨x, hx, rfl⟩
    obtain ⟨y, hy, e⟩ := List.mem_map.1 this
    exact ⟨y, hy, e⟩
  have hmem := List.mem_of_getElem? hi
  have hset : ∀ y ∈ inst.messages.set i m', y ∈ inst.messages ∨ y = m' := fun y hy => List.mem_or_eq_of_mem_set hy
  refine ⟨?_, ?_, ?_, ?_, ?_⟩
  · intro x hx
    obtain ⟨y, hy, e⟩ := hkey x hx
    have := h.keys y hy
    rw [e] at this
    exact Nat.lt_of_lt_of_le this hn
  · intro y hy
    rcases hset y hy with hy | rfl
    · exact Nat.lt_of_lt_of_le (h.fresh y hy) hn
    · show y.keyId.addr < nx
      rcases ha with e | ⟨e, -⟩ | ⟨e, e'⟩
      · rw [e]; exact Nat.lt_of_lt_of_le (h.fresh m hmem) hn
      · have := h.fresh m hmem; omega
      · omega
  · intro y hy hne
    rcases hset y hy with hy | rfl
    · exact h.nonzero y hy hne
    · rcases ha with e | ⟨-, e⟩ | ⟨e, -⟩
      · rw [e] at hne ⊢; exact h.nonzero m hmem hne
      · exact absurd e hne
      · have := h.fresh m hmem; omega
  · intro y hy hne x hx
    obtain ⟨z, hz, e⟩ := hkey x hx
    rw [← e]
    rcases hset y hy with hy | rfl
    · exact h.other y hy hne z hz
    · rcases ha with e | ⟨-, e⟩ | ⟨e, -⟩
      · rw [e] at hne ⊢; exact h.other m hmem hne z hz
      · exact absurd e hne
      · have := h.keys z hz; omega
  · have key : ∀ n ∈ inst.messages, (n.keyId.addr = m.keyId.addr → n.keyId.val = [] ∧ m.keyId.val = []) → n.keyId.addr = m'.keyId.addr → n.keyId.val = [] ∧ m'.keyId.val = [] := by
      intro n hn' hnm he
      rcases ha with e | ⟨e0, e⟩ | ⟨e, -⟩
      · rw [e] at he ⊢; exact hnm he
      · refine ⟨?_, e⟩
        by_contra hne
        exact h.nonzero n hn' hne (he.trans e0)
      · have := h.fresh n hn'; omega
    rw [List.pairwise_iff_getElem]
    have hp := List.pairwise_iff_getElem.1 h.keyIds
    obtain ⟨hil, him⟩ := List.getElem?_eq_some_iff.1 hi
    intro a b hab hbb hlt e
    simp only [List.length_set] at hab hbb
    simp only [List.getElem_set] at e ⊢
    by_cases ha : i = a
    · by_cases hb : i = b
      · omega
      · rw [if_pos ha, if_neg hb] at e ⊢
        subst ha
        have := key inst.messages[b] (List.getElem_mem _) (fun e => (hp i b hab hbb hlt (by rw [him]; exact e.symm)).symm.imp id (fun x => by rw [him] at x; exact x)) e.symm
        exact this.symm
    · by_cases hb : i = b
      · rw [if_neg ha, if_pos hb] at e ⊢
        subst hb
        exact key inst.messages[a] (List.getElem_mem _) (fun e => (hp a i hab hbb hlt (by rw [him]; exact e)).imp id (fun x => by rw [him] at x; exact x)) e
      · rw [if_neg ha, if_neg hb] at e ⊢
        exact hp a b hab hbb hlt e

theorem forall₂_seenAs_refl (ids : List Runes) (l : List Msg) : List.Forall₂ (SeenAs ids) l l := by
  induction l with
  | nil => exact .nil
  | cons a l ih => exact .cons (.inl (SameMsg.refl' a)) ih

theorem forall₂_seenAs_set {ids : List Runes} {l : List Msg} {i : Nat} {m m' : Msg} (hi : l[i]? = some m) (h : SeenAs ids m m') : List.Forall₂ (SeenAs ids) l (l.set i m') := by
  induction l generalizing i with
  | nil => exact .nil
  | cons a l ih =>
    cases i with
    | zero =>
      simp only [List.getElem?_cons_zero, Option.some.injEq] at hi
      subst hi
      exact .cons h (forall₂_seenAs_refl ids l)
    | succ i => exact .cons (.inl (SameMsg.refl' a)) (ih (by simpa using hi))

/-- what deciphering for the summary does to the whole instance -/
structure ScanEffect (inst inst' : Inst) : Prop where
  frame : ∃ nx, inst' = { inst with keys := inst'.keys, messages := inst'.messages, nextAddr := nx }
  keys : List.Forall₂ MarkedSince inst.keys inst'.keys
  messages : List.Forall₂ (SeenAs (inst.keys.map (fun x => x.id.val))) inst.messages inst'.messages
  apart : KeyIdsApart inst'
  named : ∀ m ∈ inst'.messages, m.id ≠ []

theorem seenAs_id {ids : List Runes} {m m' : Msg} (h : SeenAs ids m m') : m'.id = m.id := by
  rcases h with h | ⟨-, -, h, -⟩
  · exact h.id
  · exact h

theorem ScanEffect.trans {a b c : Inst} (h1 : ScanEffect a b) (h2 : ScanEffect b c) : ScanEffect a c := by
  obtain ⟨n1, e1⟩ := h1.frame
  obtain ⟨n2, e2⟩ := h2.frame
  refine ⟨⟨n2, ?_⟩, forall₂_chain (R := MarkedSince) (fun _ _ _ a b => MarkedSince.trans a b) h1.keys h2.keys, ?_, h2.apart, h2.named⟩
  · rw [e2, e1]
  · have : b.keys.map (fun x => x.id.val) = a.keys.map (fun x => x.id.val) := by
      have := congrArg (List.map Sl.val) (markedSince_ids h1.keys)
      simpa [List.map_map, Function.comp_def] using this
    have h := h2.messages
    rw [this] at h
    exact forall₂_chain (R := SeenAs _) (fun _ _ _ a b => SeenAs.trans a b) h1.messages h

theorem ScanEffect.step {inst inst' : Inst} {m m' : Msg} {i : Nat} (h : KeyIdsApart inst) (hn : ∀ m ∈ inst.messages, m.id ≠ []) (hi : inst.messages[i]? = some m)
    (he : TryEffect inst m inst' m') : ScanEffect inst { inst' with messages := inst'.messages.set i m' } := by
  have hap := h.step hi he
  obtain ⟨keys', nx, rfl, hnx, hk, hs, ha⟩ := he
  refine ⟨⟨nx, rfl⟩, hk, forall₂_seenAs_set hi hs, hap, ?_⟩
  intro y hy
  rcases List.mem_or_eq_of_mem_set hy with hy | rfl
  · exact hn y hy
  · rw [seenAs_id hs]
    exact hn m (List.mem_of_getElem? hi)

theorem scan_effect {U : Unicode} {fresh : Nat → Runes} {filter : Msg → Bool} : ∀ (is : List Nat) (inst inst' : Inst) (sel : List Nat),
    KeyIdsApart inst → (∀ m ∈ inst.messages, m.id ≠ []) → scanMessages U fresh filter is inst = .ok (inst', sel) → ScanEffect inst inst'
  | [], inst, inst', sel, ha, hne, h => by
    simp only [scanMessages, Outcome.ok.injEq, Prod.mk.injEq] at h
    obtain ⟨rfl, rfl⟩ := h
    exact ⟨⟨inst.nextAddr, rfl⟩, markedSince_refl _, forall₂_seenAs_refl _ _, ha, hne⟩
  | i :: is, inst, inst', sel, ha, hne, h => by
    simp only [scanMessages] at h
    rcases hm : inst.messages[i]? with _ | m
    · rw [hm] at h; cases h
    rw [hm] at h
    simp only at h
    have hmem := List.mem_of_getElem? hm
    by_cases hf : filter m = true
    · rw [if_pos hf] at h
      have rest : ∀ inst2, ScanEffect inst inst2 → (match scanMessages U fresh filter is inst2 with
          | .ok (inst3, sel) => Outcome.ok (inst3, i :: sel)
          | .err e => .err e
          | .panic => .panic) = .ok (inst', sel) → ScanEffect inst inst' := by
        intro inst2 h2 hr
        rcases hs : scanMessages U fresh filter is inst2 with ⟨i3, s3⟩ | e | _
        · rw [hs] at hr
          simp only [Outcome.ok.injEq, Prod.mk.injEq] at hr
          obtain ⟨rfl, rfl⟩ := hr
          exact h2.trans (scan_effect is inst2 _ _ h2.apart h2.named hs)
        · rw [hs] at hr; cases hr
        · rw [hs] at hr; cases hr
      rcases hr1 : tryDecipher U (fresh i) true inst m with ⟨o1, i1, m1⟩
      rw [hr1] at h
      simp only at h
      have he1 := tryDecipher_effect (hne m hmem) hr1
      have s1 := ScanEffect.step ha hne hm he1
      have hm1 : ({ i1 with messages := i1.messages.set i m1 } : Inst).messages[i]? = some m1 := by
        obtain ⟨keys', nx, rfl, -⟩ := he1
        obtain ⟨hlt, -⟩ := List.getElem?_eq_some_iff.1 hm
        simp [hlt]
      cases o1 with
      | panic => simp at h
      | err e => exact rest _ s1 h
      | ok u =>
        simp only at h
        rcases hr2 : tryDecipher U (fresh i) false { i1 with messages := i1.messages.set i m1 } m1 with ⟨o2, i2, m2⟩
        rw [hr2] at h
        simp only at h
        have he2 := tryDecipher_effect (s1.named m1 (List.mem_of_getElem? hm1)) hr2
        have s2 := ScanEffect.step s1.apart s1.named hm1 he2
        cases o2 with
        | panic => simp at h
        | err e => exact rest _ (s1.trans s2) h
        | ok u => exact rest _ (s1.trans s2) h
    · rw [if_neg hf] at h
      exact scan_effect is inst inst' sel ha hne h

theorem mergeMsgs_below : ∀ (ws : List WireMsg) (a : Nat) (cells : List Msg), (∀ x ∈ cells, x = Msg.zero) → 1 ≤ a →
    ∀ x ∈ (mergeMsgs a cells ws).1, x.keyId.addr < (mergeMsgs a cells ws).2
  | [], a, cells, _, _ => by simp [mergeMsgs]
  | w :: ws, a, cells, h, ha => by
    obtain ⟨h1, -⟩ := mergeMsgs_sep ws (a + 1) cells.tail (tail_all h) (by omega)
    have ih := mergeMsgs_below ws (a + 1) cells.tail (tail_all h) (by omega)
    simp only [mergeMsgs, headD_zero h]
    intro x hx
    rcases List.mem_cons.1 hx with rfl | hx
    · have i : (mergeMsg a Msg.zero w).keyId.addr = a ∨ (mergeMsg a Msg.zero w).keyId.addr = 0 := by
        unfold mergeMsg
        dsimp only
        cases w.keyId with
        | none => exact Or.inr rfl
        | some r => exact Or.inl rfl
      omega
    · exact ih x hx

/-- the arrays of key ids of a loaded store -/
theorem load_keyIds {C : Codec} {E : PwEnv} {W : World} {a : Access} {file : List Nat} {disk : Disk} {k : Krypto}
    (hl : load C E W disk (prepared E a file).2 = some (.ok (), k)) : KeyIdsApart k.inst := by
  have hop := (prepared_opened hl).apart
  obtain ⟨x, y, hf⟩ := prepared_frame E a file
  rw [hf] at hl
  obtain ⟨path, key, c, w, h1, h2, h3, h4, rfl, -⟩ := load_ok hl
  have hb : K431.Blank ({ newBase with persistence := path, interactive := true, salt := x, pfk := some key } : Krypto) :=
    ⟨newBase_blank.keys, newBase_blank.messages, newBase_blank.callSign, newBase_blank.spareKeys, newBase_blank.spareMsgs⟩
  obtain ⟨cells, hz, e1, mcells, hmz, e2, e3⟩ := gobDecode_normal hb w
  have ha : 1 ≤ (mergeKeys 1 cells (w.keys.getD [])).2 := Nat.le_trans (Nat.le_refl 1) (mergeKeys_sep (w.keys.getD []) 1 cells hz (Nat.le_refl 1)).1
  have hbl := mergeMsgs_below (w.messages.getD []) (mergeKeys 1 cells (w.keys.getD [])).2 mcells hmz ha
  obtain ⟨b1, b2, -⟩ := mergeMsgs_sep (w.messages.getD []) (mergeKeys 1 cells (w.keys.getD [])).2 mcells hmz ha
  have e2' : (gobDecode w { newBase with persistence := path, interactive := true, salt := x, pfk := some key }).inst.messages =
    (mergeMsgs (mergeKeys 1 cells (w.keys.getD [])).2 mcells (w.messages.getD [])).1 := e2
  have e3' : (gobDecode w { newBase with persistence := path, interactive := true, salt := x, pfk := some key }).inst.nextAddr =
    (mergeMsgs (mergeKeys 1 cells (w.keys.getD [])).2 mcells (w.messages.getD [])).2 := e3
  refine ⟨hop.fresh, ?_, ?_, hop.messages, hop.keyIds⟩
  · intro m hm
    dsimp only at hm ⊢
    rw [e2'] at hm
    rw [e3']
    exact hbl m hm
  · intro m hm hne
    dsimp only at hm
    rw [e2'] at hm
    rcases b2 m hm with g | g
    · omega
    · exact absurd g.2 hne

/-- the summary and deleting what was ticked -/
theorem deleteMsgSummary_apart {U : Unicode} (hU : U.Lawful) {fresh : Nat → Runes} {date : Int → Runes} {digest : Msg → Runes} {filter : Msg → Bool} {inst inst' : Inst} {header : Runes}
    {lines : List Runes} (ha : KeyIdsApart inst) (hnd : (inst.messages.map Msg.id).Nodup) (hne : ∀ m ∈ inst.messages, m.id ≠ [])
    (hids : ∀ m ∈ inst.messages, filter m = true → Printable U m.id ∧ m.id.length ≤ 4) (h : summaryOfMessages U fresh date digest filter inst = .ok (inst', header, lines)) :
    ScanEffect inst inst' ∧ lines.length = (inst.messages.filter filter).length ∧
    ∀ (noise : Nat → Nat → Nat → Rune) (response : List Runes), response ≠ [] → (∀ r ∈ response, r ∈ lines.map goStr) →
      let shown := (inst.messages.filter filter).map Msg.id
      let result := deleteMessagesBySummary U noise inst' response
      result.2.messages.Perm (inst'.messages.filter (fun m => !decide (Chosen shown lines response m.id))) ∧ result.1 > 0 ∧
      result.2 = { inst' with messages := result.2.messages } := by
  obtain ⟨hmid, hlen, hcut, H⟩ := C55_messages U hU fresh date digest filter inst inst' header lines hnd hne hids h
  have hscan : ScanEffect inst inst' := by
    unfold summaryOfMessages at h
    rcases hs : scanMessages U fresh filter (List.range inst.messages.length) inst with ⟨i1, sel⟩ | e | _
    · rw [hs] at h
      simp only [Outcome.ok.injEq, Prod.mk.injEq] at h
      obtain ⟨rfl, -⟩ := h
      exact scan_effect _ _ _ _ ha hne hs
    · rw [hs] at h; cases h
    · rw [hs] at h; cases h
  refine ⟨hscan, by rw [hlen, List.length_map], ?_⟩
  intro noise response hr0 hresp shown result
  have hresp' : ∀ r ∈ response, ∃ l ∈ lines, r = goStr l := by
    intro r hr'
    obtain ⟨l, hl, e⟩ := List.mem_map.1 (hresp r hr')
    exact ⟨l, hl, e.symm⟩
  obtain ⟨c1, g, g1, g2, g3⟩ := H response noise hresp'
  have own : ∀ m' ∈ inst'.messages, ¬ Chosen shown lines response m'.id → ¬ ∃ m ∈ inst'.messages, Chosen shown lines response m.id ∧ m.keyId.val ≠ [] ∧ m.keyId.addr = m'.keyId.addr := by
    rintro m' hm' hn ⟨m, hm, hc, hv, e⟩
    have hmm : m ≠ m' := by rintro rfl; exact hn hc
    exact hv (pairwise_both (fun x y h e => (h e.symm).symm) hscan.apart.keyIds hm hm' hmm e).1
  refine ⟨?_, ?_, ?_⟩
  · refine g3.trans (List.Perm.of_eq ?_)
    conv => rhs; rw [← List.map_id (inst'.messages.filter _)]
    refine List.map_congr_left (fun m hm => ?_)
    obtain ⟨hm, hn⟩ := List.mem_filter.1 hm
    rw [g1 m.keyId (own m hm (by simpa using hn))]
    rfl
  · rw [c1]
    obtain ⟨r, hr'⟩ := List.exists_mem_of_ne_nil _ hr0
    obtain ⟨l, hl, rfl⟩ := hresp' r hr'
    obtain ⟨n, hn, hn'⟩ := List.getElem_of_mem hl
    have hn2 : n < shown.length := hlen ▸ hn
    have hz : (shown[n], l) ∈ shown.zip lines := by
      rw [← hn']
      have : (shown.zip lines)[n]'(by simp [hn, hn2]) = (shown[n], lines[n]) := List.getElem_zip
      rw [← this]
      exact List.getElem_mem _
    have hin : shown[n] ∈ inst'.messages.map Msg.id := by
      rw [hmid]
      obtain ⟨m, hm, e⟩ := List.mem_map.1 (List.getElem_mem hn2)
      rw [← e]
      exact List.mem_map.2 ⟨m, (List.mem_filter.1 hm).1, rfl⟩
    obtain ⟨m, hm, e⟩ := List.mem_map.1 hin
    exact List.length_pos_of_mem (List.mem_filter.2 ⟨hm, decide_eq_true ⟨_, hz, e.symm, hr'⟩⟩)
  · show result.2 = _
    rw [g2]
    have : inst'.keys.map (fun k => { k with id := g k.id }) = inst'.keys := by
      conv => rhs; rw [← List.map_id inst'.keys]
      refine List.map_congr_left (fun k hk => ?_)
      rw [g1 k.id]
      · rfl
      rintro ⟨m, hm, -, hv, e⟩
      exact hscan.apart.other m hm hv k hk e.symm
    rw [this]

/-- `keys --delete` runs through, asking or not -/
theorem keysCommand_asks {C : Codec} {E : PwEnv} {U : Unicode} {V : KeysEnv} {o : KeysCmd} {disk : Disk} {k : Krypto} (hdel : o.delete = true)
    (hnew : o.newKeys = none) (himp : o.importFile = none) (hexp : o.exportFile = none)
    (hp : (prepared E o.access o.file).1 = .ok ()) (hl : load C E V.loadW disk (prepared E o.access o.file).2 = some (.ok (), k)) :
    ∃ r, keysCommand C E U V o disk = some r := by
  have hop := prepared_opened hl
  obtain ⟨key, -, -, hkey, -⟩ := hop.key
  unfold keysCommand
  rw [if_neg (by simp [KeysCmd.any, hdel]), openStore_ok hp hl, andThen_go,
    andThen_skip (f := keysNew C E U V o) (fun s => by unfold keysNew; rw [hnew]),
    andThen_skip (f := keysImport C E U V o) (fun s => by unfold keysImport; rw [himp]),
    andThen_skip (f := keysExport C E U V o) (fun s => by unfold keysExport; rw [hexp])]
  have : ∃ f, keysDelete C E U V o ⟨disk, k, [], []⟩ = some f := by
    unfold keysDelete
    rw [if_pos hdel]
    split
    · exact ⟨_, rfl⟩
    dsimp only
    split
    · split
      · exact ⟨_, rfl⟩
      · split
        · exact ⟨_, rfl⟩
        · split
          · split
            · exact saveStep_total (key := key) hkey hop.overwrite
            · exact ⟨_, rfl⟩
          · exact ⟨_, rfl⟩
    · split
      · exact saveStep_total (key := key) hkey hop.overwrite
      · exact ⟨_, rfl⟩
  obtain ⟨f, hf⟩ := this
  rw [hf]
  cases f with
  | stop oc s => exact ⟨_, rfl⟩
  | go s =>
    rw [andThen_go]
    cases keysList U V o s with
    | go s => exact ⟨_, rfl⟩
    | stop oc s => exact ⟨_, rfl⟩

/-- `messages --delete` runs through, asking or not -/
theorem messagesCommand_asks {C : Codec} {E : PwEnv} {U : Unicode} {V : MsgsEnv} {o : MsgsCmd} {disk : Disk} {k : Krypto} (hdel : o.delete = true) (hnew : o.new = false)
    (hp : (prepared E o.access o.file).1 = .ok ()) (hl : load C E V.loadW disk (prepared E o.access o.file).2 = some (.ok (), k)) :
    ∃ r, messagesCommand C E U V o disk = some r := by
  have hop := prepared_opened hl
  obtain ⟨key, -, -, hkey, -⟩ := hop.key
  unfold messagesCommand
  rw [if_neg (by simp [MsgsCmd.any, hdel]), openStore_ok hp hl, andThen_go,
    andThen_skip (f := messagesNew C E U V o) (fun s => by unfold messagesNew; rw [hnew]; rfl)]
  have : ∃ f, messagesDelete C E U V o ⟨disk, k, [], []⟩ = some f := by
    unfold messagesDelete
    rw [if_pos hdel]
    split
    · exact ⟨_, rfl⟩
    dsimp only
    split
    · split
      · exact ⟨_, rfl⟩
      · exact ⟨_, rfl⟩
      · split
        · exact ⟨_, rfl⟩
        · split
          · exact ⟨_, rfl⟩
          · split
            · split
              · exact saveStep_total (key := key) hkey hop.overwrite
              · exact ⟨_, rfl⟩
            · exact ⟨_, rfl⟩
    · split
      · exact saveStep_total (key := key) hkey hop.overwrite
      · exact ⟨_, rfl⟩
  obtain ⟨f, hf⟩ := this
  rw [hf]
  cases f with
  | stop oc s => exact ⟨_, rfl⟩
  | go s =>
    rw [andThen_go]
    cases messagesList U V o s with
    | go s => exact ⟨_, rfl⟩
    | stop oc s => exact ⟨_, rfl⟩

/-- without keys nothing is taken for ciphertext -/
theorem tryDecipher_noKeys {U : Unicode} {fresh : Runes} {inst : Inst} {m : Msg} (hk : inst.keys = []) (hm : m.id ≠ []) :
    tryDecipher U fresh true inst m = (.err .notCipherText, inst, m) := by
  have hw : withId fresh m = m := by
    unfold withId
    rw [if_neg (fun e => hm (List.length_eq_zero_iff.1 e))]
  unfold tryDecipher
  rw [hw]
  dsimp only
  split
  · rfl
  · split
    · rfl
    · split
      · rfl
      · rw [hk]; rfl

/-- without keys the scan for the summary changes nothing -/
theorem scan_noKeys {U : Unicode} {fresh : Nat → Runes} {filter : Msg → Bool} {inst : Inst} (hk : inst.keys = []) (hm : ∀ m ∈ inst.messages, m.id ≠ []) :
    ∀ is : List Nat, (∀ i ∈ is, i < inst.messages.length) → ∃ sel, scanMessages U fresh filter is inst = .ok (inst, sel)
  | [], _ => ⟨[], rfl⟩
  | i :: is, h => by
    obtain ⟨sel, hs⟩ := scan_noKeys (U := U) (fresh := fresh) (filter := filter) hk hm is (fun j hj => h j (List.mem_cons_of_mem _ hj))
    have hi := h i List.mem_cons_self
    unfold scanMessages
    rw [List.getElem?_eq_getElem hi]
    dsimp only
    split
    · rw [tryDecipher_noKeys hk (hm _ (List.getElem_mem hi))]
      dsimp only
      rw [List.set_getElem_self, hs]
      exact ⟨_, rfl⟩
    · exact ⟨sel, hs⟩

/-- without keys there is always a summary -/
theorem summary_noKeys {U : Unicode} {fresh : Nat → Runes} {date : Int → Runes} {digest : Msg → Runes} {filter : Msg → Bool} {inst : Inst} (hk : inst.keys = [])
    (hm : ∀ m ∈ inst.messages, m.id ≠ []) : ∃ header lines, summaryOfMessages U fresh date digest filter inst = .ok (inst, header, lines) := by
  obtain ⟨sel, hs⟩ := scan_noKeys (U := U) (fresh := fresh) (filter := filter) hk hm (List.range inst.messages.length) (fun i hi => List.mem_range.1 hi)
  unfold summaryOfMessages
  rw [hs]
  exact ⟨_, _, rfl⟩

end K431
