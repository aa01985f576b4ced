import Verif.PropsTold

/-!
# Ids read off a listing
-/

namespace K431
open Spec

/-- The first words of the lines below the heading, if a listing has been printed. -/
def Spec.listedIds (r : Course) : List Runes :=
  match r.state.printed with
  | [.listing _ _ _ _ (_ :: rows)] => rows.map (fun l => l.takeWhile (fun c => c != 32))
  | _ => []

/-- the first words are the ids of the keys selected (C135) -/
theorem listedIds_keys {C : Codec} {E : PwEnv} {U : Unicode} (hU : U.Lawful) {V : KeysEnv} {o : KeysCmd} {disk : Disk} {r : Course} {k : Krypto} (h : keysCommand C E U V o disk = some r)
    (hl : o.list = true) (hd : o.delete = false) (hn : o.newKeys = none) (hi : o.importFile = none) (he : o.exportFile = none)
    (hp : (prepared E o.access o.file).1 = .ok ()) (hk : load C E V.loadW disk (prepared E o.access o.file).2 = some (.ok (), k))
    (hids : ∀ x ∈ k.inst.keys, keyFilter U V.now o.filter x = true → Printable U x.id.val ∧ x.id.val.length ≤ k.inst.groupSize) :
    listedIds r = (k.inst.keys.filter (keyFilter U V.now o.filter)).map (fun x => x.id.val) := by
  obtain ⟨t1, t2⟩ := C135_keys hU h hl hd hn hi he hp hk hids
  by_cases h0 : k.inst.keys.filter (keyFilter U V.now o.filter) = []
  · unfold listedIds; rw [t1 h0, h0]; rfl
  · obtain ⟨header, rows, e, hrows⟩ := t2 h0
    unfold listedIds; rw [e]; exact hrows

/-- the ids read off, after vetting, name exactly the keys selected -/
theorem inFold_listed {C : Codec} {E : PwEnv} {U : Unicode} (hU : U.Lawful) {V : KeysEnv} {o : KeysCmd} {disk : Disk} {r : Course} {k : Krypto} (h : keysCommand C E U V o disk = some r)
    (hl : o.list = true) (hd : o.delete = false) (hn : o.newKeys = none) (hi : o.importFile = none) (he : o.exportFile = none)
    (hp : (prepared E o.access o.file).1 = .ok ()) (hk : load C E V.loadW disk (prepared E o.access o.file).2 = some (.ok (), k))
    (hids : ∀ x ∈ k.inst.keys, keyFilter U V.now o.filter x = true → Printable U x.id.val ∧ x.id.val.length ≤ k.inst.groupSize)
    (hdist : DistinctNames U (k.inst.keys.map (fun x => x.id.val))) :
    ∀ x ∈ k.inst.keys, (InFold U x.id.val (vettedKeepers U (listedIds r)) ↔ keyFilter U V.now o.filter x = true) := by
  have hlisted := listedIds_keys hU h hl hd hn hi he hp hk hids
  have hvet : ∀ l : List Key, (∀ x ∈ l, Printable U x.id.val) → vettedKeepers U (l.map (fun x => x.id.val)) = l.map (fun x => toUpperStr U x.id.val) := by
    intro l
    induction l with
    | nil => intro _; rfl
    | cons x l ih =>
      intro hx
      have e1 := (vetted_printable hU (hx x List.mem_cons_self)).1
      have e2 := ih (fun y hy => hx y (List.mem_cons_of_mem _ hy))
      unfold vettedKeepers at e1 e2 ⊢
      rw [List.map_cons, List.flatMap_cons, e2, List.map_cons]
      simp only [List.flatMap_cons, List.flatMap_nil, List.append_nil] at e1
      rw [e1]
      rfl
  have hv : vettedKeepers U (listedIds r) = (k.inst.keys.filter (keyFilter U V.now o.filter)).map (fun x => toUpperStr U x.id.val) := by
    rw [hlisted]
    refine hvet _ (fun x hx => ?_)
    obtain ⟨q1, q2⟩ := List.mem_filter.1 hx
    exact (hids x q1 q2).1
  intro x hx
  rw [hv]
  constructor
  · rintro ⟨b, hb, hs⟩
    obtain ⟨y, hy, rfl⟩ := List.mem_map.1 hb
    obtain ⟨q1, q2⟩ := List.mem_filter.1 hy
    have hxy : SameFold U x.id.val y.id.val := by
      unfold SameFold at hs ⊢
      rw [hs]
      unfold toUpperStr
      rw [List.map_map]
      exact List.map_congr_left (fun c _ => hU.toUpper_idem c)
    by_cases e : x = y
    · rw [e]; exact q2
    · have hdif := List.pairwise_map.1 hdist
      have : Std.Symm (fun a b : Key => ¬ SameFold U a.id.val b.id.val) := ⟨fun a b hab hba => hab hba.symm⟩
      exact absurd hxy (hdif.forall hx q1 e)
  · intro hx'
    refine ⟨_, List.mem_map.2 ⟨x, List.mem_filter.2 ⟨hx, hx'⟩, rfl⟩, ?_⟩
    unfold SameFold toUpperStr
    rw [List.map_map]
    exact (List.map_congr_left (fun c _ => hU.toUpper_idem c)).symm

/-- the first words are the ids of the messages selected (C135) -/
theorem listedIds_messages {C : Codec} {E : PwEnv} {U : Unicode} (hU : U.Lawful) {V : MsgsEnv} {o : MsgsCmd} {disk : Disk} {r : Course} {k : Krypto} (h : messagesCommand C E U V o disk = some r)
    (hl : o.list = true) (hd : o.delete = false) (hn : o.new = false) (hp : (prepared E o.access o.file).1 = .ok ()) (hk : load C E V.loadW disk (prepared E o.access o.file).2 = some (.ok (), k))
    (hok : r.outcome = .ok ()) (hnd : (k.inst.messages.map Msg.id).Nodup) (hne : ∀ m ∈ k.inst.messages, m.id ≠ [])
    (hids : ∀ m ∈ k.inst.messages, msgFilter U o.filter m = true → Printable U m.id ∧ m.id.length ≤ 4) :
    listedIds r = (k.inst.messages.filter (msgFilter U o.filter)).map Msg.id := by
  obtain ⟨t1, t2⟩ := C135_messages hU h hl hd hn hp hk hok hnd hne hids
  by_cases h0 : (k.inst.messages.filter (msgFilter U o.filter)).map Msg.id = []
  · unfold listedIds; rw [t1 h0, h0]
  · obtain ⟨header, rows, e, hrows⟩ := t2 h0
    unfold listedIds; rw [e]; exact hrows

/-- the ids read off, after vetting, name exactly the messages selected -/
theorem mem_listed {C : Codec} {E : PwEnv} {U : Unicode} (hU : U.Lawful) {V : MsgsEnv} {o : MsgsCmd} {disk : Disk} {r : Course} {k : Krypto} (h : messagesCommand C E U V o disk = some r)
    (hl : o.list = true) (hd : o.delete = false) (hn : o.new = false) (hp : (prepared E o.access o.file).1 = .ok ()) (hk : load C E V.loadW disk (prepared E o.access o.file).2 = some (.ok (), k))
    (hok : r.outcome = .ok ()) (hnd : (k.inst.messages.map Msg.id).Nodup) (hne : ∀ m ∈ k.inst.messages, m.id ≠ [])
    (hids : ∀ m ∈ k.inst.messages, msgFilter U o.filter m = true → Printable U m.id ∧ m.id.length ≤ 4) :
    ∀ m ∈ k.inst.messages, (m.id ∈ vettedMessageIds U (listedIds r) ↔ msgFilter U o.filter m = true) := by
  have hlisted := listedIds_messages hU h hl hd hn hp hk hok hnd hne hids
  have hvet : ∀ l : List Msg, (∀ x ∈ l, Printable U x.id) → vettedMessageIds U (l.map Msg.id) = l.map Msg.id := by
    intro l
    induction l with
    | nil => intro _; rfl
    | cons x l ih =>
      intro hx
      have e1 := (vetted_printable hU (hx x List.mem_cons_self)).2
      have e2 := ih (fun y hy => hx y (List.mem_cons_of_mem _ hy))
      unfold vettedMessageIds at e1 e2 ⊢
      rw [List.map_cons, List.flatMap_cons, e2]
      simp only [List.flatMap_cons, List.flatMap_nil, List.append_nil] at e1
      rw [e1]
      rfl
  intro m hm
  rw [hlisted, hvet _ (fun x hx => (hids x (List.mem_filter.1 hx).1 (List.mem_filter.1 hx).2).1)]
  constructor
  · intro hb
    obtain ⟨y, hy, e⟩ := List.mem_map.1 hb
    obtain ⟨q1, q2⟩ := List.mem_filter.1 hy
    rw [← List.inj_on_of_nodup_map hnd q1 hm e]
    exact q2
  · intro hq
    exact List.mem_map.2 ⟨m, List.mem_filter.2 ⟨hm, hq⟩, rfl⟩

/-- what the filters of `messages` look at -/
def selector (m : Msg) : Runes × Runes × List Runes := (m.id, m.from_, m.recipients)

theorem msgFilter_selector {U : Unicode} {f : MsgOpts} {m m' : Msg} (h : selector m = selector m') : msgFilter U f m = msgFilter U f m' := by
  unfold selector at h
  simp only [Prod.mk.injEq] at h
  obtain ⟨h1, h2, h3⟩ := h
  unfold msgFilter
  rw [h1, h2, h3]

theorem tryDecipher_selector {U : Unicode} {f : Runes} {dry : Bool} {inst : Inst} {m : Msg} (hm : m.id ≠ []) :
    (tryDecipher U f dry inst m).2.1.messages = inst.messages ∧ selector (tryDecipher U f dry inst m).2.2 = selector m := by
  have hw : withId f m = m := by
    unfold withId
    rw [if_neg (by simpa using hm)]
  have hd : ∀ (i : Inst) (m1 : Msg), m1.id ≠ [] → (decipher U f i m1).2.1.messages = i.messages ∧ selector (decipher U f i m1).2.2 = selector m1 := by
    intro i m1 h1
    have hw1 : withId f m1 = m1 := by
      unfold withId
      rw [if_neg (by simpa using h1)]
    unfold decipher
    simp only [hw1]
    repeat' split
    all_goals exact ⟨rfl, rfl⟩
  unfold tryDecipher
  simp only [hw]
  split
  · exact ⟨rfl, rfl⟩
  split
  · exact ⟨rfl, rfl⟩
  split
  · exact ⟨rfl, rfl⟩
  split
  · exact ⟨rfl, rfl⟩
  split
  · exact ⟨rfl, rfl⟩
  split
  · exact ⟨rfl, rfl⟩
  · rename_i filtered _ _ _ _ _ _ _ k _
    have := hd { inst with nextAddr := inst.nextAddr + 1 }
      { m with keyId := ⟨inst.nextAddr, k.id.val⟩, cipherText := filtered.drop inst.groupSize } hm
    split <;> rename_i heq <;> rw [heq] at this <;> exact this

theorem map_selector_set {l : List Msg} {i : Nat} {m m' : Msg} (h : l[i]? = some m) (he : selector m' = selector m) : (l.set i m').map selector = l.map selector := by
  rw [List.map_set, he]
  obtain ⟨hlt, rfl⟩ := List.getElem?_eq_some_iff.1 h
  have : selector l[i] = (l.map selector)[i]'(by simpa using hlt) := by simp
  rw [this, List.set_getElem_self]

/-- Filters that agree on the messages there have the same effect; what filters look at stays. -/
theorem scan_agree {U : Unicode} {fresh : Nat → Runes} {F G : Msg → Bool} {L : List (Runes × Runes × List Runes)} (hFG : ∀ m, selector m ∈ L → F m = G m) (hL : ∀ x ∈ L, x.1 ≠ []) :
    ∀ (is : List Nat) (inst : Inst), inst.messages.map selector = L → scanMessages U fresh F is inst = scanMessages U fresh G is inst ∧
      ∀ r, scanMessages U fresh F is inst = .ok r → r.1.messages.map selector = L
  | [], inst, h => ⟨rfl, by rintro r hr; simp only [scanMessages, Outcome.ok.injEq] at hr; rw [← hr]; exact h⟩
  | i :: is, inst, h => by
    unfold scanMessages
    rcases hm : inst.messages[i]? with _ | m
    · exact ⟨rfl, nofun⟩
    have hmem : selector m ∈ L := by rw [← h]; exact List.mem_map_of_mem (List.mem_of_getElem? hm)
    have hid : m.id ≠ [] := hL _ hmem
    dsimp only
    rw [hFG m hmem]
    by_cases hg : G m = true
    · rw [if_pos hg, if_pos hg]
      obtain ⟨a1, b1⟩ := tryDecipher_selector (U := U) (f := fresh i) (dry := true) (inst := inst) hid
      rcases hr1 : tryDecipher U (fresh i) true inst m with ⟨o1, i1, m1⟩
      rw [hr1] at a1 b1
      dsimp only at a1 b1 ⊢
      have hs1 : (i1.messages.set i m1).map selector = L := by rw [a1, map_selector_set hm b1, h]
      have fin : ∀ inst2 : Inst, inst2.messages.map selector = L →
          ((match scanMessages U fresh F is inst2 with | .ok (inst3, sel) => Outcome.ok (inst3, i :: sel) | .err e => .err e | .panic => .panic) =
            (match scanMessages U fresh G is inst2 with | .ok (inst3, sel) => Outcome.ok (inst3, i :: sel) | .err e => .err e | .panic => .panic)) ∧
          ∀ r, (match scanMessages U fresh F is inst2 with | .ok (inst3, sel) => Outcome.ok (inst3, i :: sel) | .err e => .err e | .panic => .panic) = .ok r → r.1.messages.map selector = L := by
        intro inst2 h2
        obtain ⟨e1, e2⟩ := scan_agree hFG hL is inst2 h2
        refine ⟨by rw [e1], ?_⟩
        intro r hr
        rcases hs : scanMessages U fresh F is inst2 with ⟨i3, s3⟩ | e | _
        · rw [hs] at hr
          simp only [Outcome.ok.injEq] at hr
          rw [← hr]
          exact e2 (i3, s3) hs
        · rw [hs] at hr; cases hr
        · rw [hs] at hr; cases hr
      rcases o1 with u | e | _
      · dsimp only
        have hid1 : m1.id ≠ [] := by rw [show m1.id = m.id from congrArg Prod.fst b1]; exact hid
        obtain ⟨a2, b2⟩ := tryDecipher_selector (U := U) (f := fresh i) (dry := false) (inst := { i1 with messages := i1.messages.set i m1 }) hid1
        rcases hr2 : tryDecipher U (fresh i) false { i1 with messages := i1.messages.set i m1 } m1 with ⟨o2, i2, m2⟩
        rw [hr2] at a2 b2
        dsimp only at a2 b2 ⊢
        have hs2 : (i2.messages.set i m2).map selector = L := by rw [a2, List.set_set, a1, map_selector_set hm (b2.trans b1), h]
        rcases o2 with u | e | _
        · exact fin _ hs2
        · exact fin _ hs2
        · exact ⟨rfl, nofun⟩
      · exact fin _ hs1
      · exact ⟨rfl, nofun⟩
    · rw [if_neg hg, if_neg hg]
      exact scan_agree hFG hL is inst h

end K431
