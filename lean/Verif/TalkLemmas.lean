import Verif.SpecTalk
import Verif.PropsHandCmd
import Verif.PropsStoreCmd
import Verif.OrderLemmas

/-!
# Lemmas for two stations that talk to each other
-/

namespace K431
open Spec

/-! ## Equal stores -/

theorem SameKey.symm {x y : Key} (h : SameKey x y) : SameKey y x :=
  ⟨h.id.symm, h.runes.symm, h.keepers.symm, h.created.symm, h.expires.symm, h.used.symm, h.compromised.symm, h.comment.symm⟩

theorem SameKey.trans {x y z : Key} (h : SameKey x y) (g : SameKey y z) : SameKey x z :=
  ⟨h.id.trans g.id, h.runes.trans g.runes, h.keepers.trans g.keepers, h.created.trans g.created, h.expires.trans g.expires, h.used.trans g.used, h.compromised.trans g.compromised,
    h.comment.trans g.comment⟩

theorem SameMsg.symm {x y : Msg} (h : SameMsg x y) : SameMsg y x :=
  ⟨h.id.symm, h.recipients.symm, h.from_.symm, h.dtg.symm, h.keyId.symm, h.plainText.symm, h.cipherText.symm, h.radiogram.symm⟩

theorem SameMsg.trans {x y z : Msg} (h : SameMsg x y) (g : SameMsg y z) : SameMsg x z :=
  ⟨h.id.trans g.id, h.recipients.trans g.recipients, h.from_.trans g.from_, h.dtg.trans g.dtg, h.keyId.trans g.keyId, h.plainText.trans g.plainText, h.cipherText.trans g.cipherText,
    h.radiogram.trans g.radiogram⟩

theorem same_flip {α : Type} {R : α → α → Prop} (hR : ∀ x y, R x y → R y x) : ∀ {l m : List α}, List.Forall₂ R l m → List.Forall₂ R m l
  | _, _, .nil => .nil
  | _, _, .cons a as => .cons (hR _ _ a) (same_flip hR as)

theorem same_trans {α : Type} {R : α → α → Prop} (hR : ∀ x y z, R x y → R y z → R x z) : ∀ {l m n : List α}, List.Forall₂ R l m → List.Forall₂ R m n → List.Forall₂ R l n
  | _, _, _, .nil, .nil => .nil
  | _, _, _, .cons a as, .cons b bs => .cons (hR _ _ _ a b) (same_trans hR as bs)

theorem SameStore.symm {x y : Inst} (h : SameStore x y) : SameStore y x :=
  ⟨h.groupSize.symm, h.keyLength.symm, h.columns.symm, h.keyColumns.symm, h.callSign.symm, same_flip (fun _ _ => SameKey.symm) h.keys, same_flip (fun _ _ => SameMsg.symm) h.messages⟩

theorem SameStore.trans {x y z : Inst} (h : SameStore x y) (g : SameStore y z) : SameStore x z :=
  ⟨h.groupSize.trans g.groupSize, h.keyLength.trans g.keyLength, h.columns.trans g.columns, h.keyColumns.trans g.keyColumns, h.callSign.trans g.callSign,
    same_trans (R := SameKey) (fun _ _ _ a b => a.trans b) h.keys g.keys, same_trans (R := SameMsg) (fun _ _ _ a b => a.trans b) h.messages g.messages⟩

theorem Stored.same {C : Codec} {disk : Disk} {path key : List Nat} {i x : Inst} (h : Stored C disk path key i) (hs : SameStore x i) : Stored C disk path key x := by
  intro E W k hb hr hk
  obtain ⟨k', hl, h'⟩ := h E W k hb hr hk
  exact ⟨k', hl, h'.trans hs.symm⟩

theorem same_texts {x y : List Msg} (h : List.Forall₂ SameMsg x y) : x.map Msg.plainText = y.map Msg.plainText := by
  induction h with
  | nil => rfl
  | cons a _ ih => simp only [List.map_cons, ih, a.plainText]

theorem SameKey.keptBy {x y : Key} (h : SameKey x y) (r : List Runes) : KeptBy r x ↔ KeptBy r y := by
  have e : x.keepers.map Sl.val = y.keepers.map Sl.val := h.keepers
  have hnil : x.keepers = [] ↔ y.keepers = [] := by
    rw [← List.map_eq_nil_iff (f := Sl.val) (l := x.keepers), e, List.map_eq_nil_iff]
  have hmem : ∀ n, (∃ s ∈ x.keepers, s.val = n) ↔ ∃ s ∈ y.keepers, s.val = n := by
    intro n
    rw [← List.mem_map (f := Sl.val), ← List.mem_map (f := Sl.val), e]
  unfold KeptBy
  split
  · exact hnil
  · exact ⟨fun h r hr => (hmem r).1 (h r hr), fun h r hr => (hmem r).2 (h r hr)⟩

theorem SameKey.selectable {x y : Key} (h : SameKey x y) {g : Nat} {r : List Runes} (hx : Selectable g r x) : Selectable g r y :=
  ⟨by rw [← h.used]; exact hx.1, by rw [← h.id]; exact hx.2.1, (h.keptBy r).1 hx.2.2⟩

/-- all pads of the one are in the other -/
def HasAll (l m : List Key) : Prop := ∀ id pad, Holds l id pad → Holds m id pad

theorem HasAll.refl (l : List Key) : HasAll l l := fun _ _ h => h
theorem HasAll.trans {l m n : List Key} (h : HasAll l m) (g : HasAll m n) : HasAll l n := fun a b x => g a b (h a b x)

theorem same_keeps {l m : List Key} (h : List.Forall₂ SameKey l m) : HasAll l m := by
  rintro id pad ⟨x, hx, rfl, rfl⟩
  obtain ⟨y, hy, hs⟩ := forall₂_left h x hx
  exact ⟨y, hy, hs.id.symm, hs.runes.symm⟩

/-! ## Letters -/

theorem letters_fold {U : Unicode} (hU : U.Lawful) {a b : Runes} (ha : ∀ c ∈ a, IsLetter c) (hb : ∀ c ∈ b, IsLetter c) (h : SameFold U a b) : a = b := by
  have e : ∀ {l : Runes}, (∀ c ∈ l, IsLetter c) → l.map U.toUpper = l := by
    intro l hl
    conv => rhs; rw [← List.map_id l]
    exact List.map_congr_left (fun c hc => toUpper_letter hU (hl c hc))
  have := h
  unfold SameFold at this
  rwa [e ha, e hb] at this

theorem wellFormed_distinct {U : Unicode} (hU : U.Lawful) {keys : List Key} (h : WellFormed keys) : DistinctNames U (keys.map (fun k => k.id.val)) := by
  have hl : ∀ a ∈ keys.map (fun k => k.id.val), ∀ c ∈ a, IsLetter c := by
    intro a ha
    obtain ⟨k, hk, rfl⟩ := List.mem_map.1 ha
    exact h.letters k hk
  have hd := h.distinct
  generalize keys.map (fun k => k.id.val) = l at hl hd
  unfold DistinctNames
  refine List.Pairwise.imp_of_mem ?_ hd
  intro a b ha hb hne hs
  exact hne (letters_fold hU (hl a ha) (hl b hb) hs)

theorem WellFormed.same {a b : List Key} (h : WellFormed a) (e : List.Forall₂ SameKey b a) : WellFormed b := by
  refine ⟨by rw [sameKeys_ids e]; exact h.distinct, ?_⟩
  intro k hk
  obtain ⟨y, hy, hs⟩ := forall₂_left e k hk
  rw [hs.id]
  exact h.letters y hy

theorem WellFormed.eq_of_id {keys : List Key} (h : WellFormed keys) {x y : Key} (hx : x ∈ keys) (hy : y ∈ keys) (he : x.id.val = y.id.val) : x = y := by
  obtain ⟨i, hi⟩ := List.mem_iff_getElem?.1 hx
  obtain ⟨j, hj⟩ := List.mem_iff_getElem?.1 hy
  have := h.inj hi hj he
  subst this
  rw [hi] at hj
  exact Option.some.inj hj

/-! ## The state of the two stations -/

theorem SideOk.same {g : Nat} {s : Side} {i x : Inst} (h : SideOk g s i) (e : SameStore x i) : SideOk g s x where
  size := by rw [e.groupSize]; exact h.size
  call := by rw [e.callSign]; exact h.call
  key := h.key
  settings := by rw [e.groupSize, e.keyLength, e.columns, e.keyColumns]; exact h.settings
  keys := h.keys.same e.keys
  ids := by
    intro k hk
    obtain ⟨y, hy, hs⟩ := forall₂_left e.keys k hk
    rw [hs.id]
    exact h.ids y hy

/-- every one of these pads is in the store and marked as used -/
def Spent (i : Inst) (pads : List Runes) : Prop := ∀ p ∈ pads, ∃ x ∈ i.keys, x.id.val = p ∧ x.used = true

theorem Spent.same {i x : Inst} {pads : List Runes} (h : Spent i pads) (e : SameStore x i) : Spent x pads := by
  intro p hp
  obtain ⟨y, hy, h1, h2⟩ := h p hp
  obtain ⟨z, hz, hs⟩ := forall₂_right e.keys y hy
  exact ⟨z, hz, hs.id.trans h1, hs.used.trans h2⟩

/-- all of `Linked` but the pads that the second station has -/
structure Semi (C : Codec) (U : Unicode) (groupSize : Nat) (a b : Side) (disk disk' : Disk) (i j : Inst) : Prop where
  stored : Stored C disk a.path a.key i
  stored' : Stored C disk' b.path b.key j
  ok : SideOk groupSize a i
  ok' : SideOk groupSize b j
  calls : ¬ SameFold U a.call b.call
  pads' : ∀ x ∈ j.keys, Selectable groupSize [a.call] x → Holds i.keys x.id.val x.runes

theorem Linked.semi {C : Codec} {U : Unicode} {g : Nat} {a b : Side} {d d' : Disk} {i j : Inst} (h : Linked C U g a b d d' i j) : Semi C U g a b d d' i j :=
  ⟨h.stored, h.stored', h.ok, h.ok', h.calls, h.pads'⟩

theorem Linked.symm {C : Codec} {U : Unicode} {g : Nat} {a b : Side} {d d' : Disk} {i j : Inst} (h : Linked C U g a b d d' i j) : Linked C U g b a d' d j i :=
  ⟨h.stored', h.stored, h.ok', h.ok, fun e => h.calls e.symm, h.pads', h.pads⟩

theorem Semi.same {C : Codec} {U : Unicode} {g : Nat} {a b : Side} {d d' : Disk} {i j x y : Inst} (h : Semi C U g a b d d' i j) (hx : SameStore x i) (hy : SameStore y j) :
    Semi C U g a b d d' x y where
  stored := h.stored.same hx
  stored' := h.stored'.same hy
  ok := h.ok.same hx
  ok' := h.ok'.same hy
  calls := h.calls
  pads' := by
    intro z hz hs
    obtain ⟨w, hw, e⟩ := forall₂_left hy.keys z hz
    rw [e.id, e.runes]
    exact same_keeps hx.symm.keys _ _ (h.pads' w hw (e.selectable hs))

theorem Linked.same {C : Codec} {U : Unicode} {g : Nat} {a b : Side} {d d' : Disk} {i j x y : Inst} (h : Linked C U g a b d d' i j) (hx : SameStore x i) (hy : SameStore y j) :
    Linked C U g a b d d' x y :=
  have s := h.semi.same hx hy
  have s' := h.symm.semi.same hy hx
  ⟨s.stored, s.stored', s.ok, s.ok', s.calls, s'.pads', s.pads'⟩

/-- the file of a station can be loaded -/
theorem opens_load {C : Codec} {E : PwEnv} {W : World} {a : Access} {file : List Nat} {s : Side} {disk : Disk} {i : Inst} (h : Opens E W a file s) (hs : Stored C disk s.path s.key i) :
    ∃ k, load C E W disk (prepared E a file).2 = some (.ok (), k) ∧ SameStore k.inst i ∧ k.persistence = s.path ∧ k.pfk = some s.key := by
  obtain ⟨k, hl, hsame⟩ := hs E W _ (prepared_blank E a file) h.reads h.key
  obtain ⟨p, -, c, -, hp, hc, -⟩ := load_ok hl
  rw [h.reads.path] at hp
  cases hp
  have hl' := hl
  rw [load_key h.reads h.key (by rw [hc]; simp), Option.some.injEq] at hl'
  refine ⟨k, hl, hsame, ?_⟩
  unfold loadRead at hl'
  split at hl'
  · simp at hl'
  · split at hl'
    · simp at hl'
    · dsimp only at hl'
      split at hl'
      · simp at hl'
      · split at hl'
        · simp at hl'
        · simp only [Prod.mk.injEq, true_and] at hl'
          subst hl'
          exact ⟨rfl, rfl⟩

theorem writes_reads {W : World} {k : Krypto} {path : List Nat} (h : Writes W path) (hk : k.persistence = path) : Reads W k path :=
  ⟨by rw [hk]; exact h.named, by rw [hk]; exact h.path, h.stat, h.opens⟩

/-! ## A message -/

theorem command_id {C : Codec} {E : PwEnv} {U : Unicode} {V : MsgsEnv} {o : MsgsCmd} {disk : Disk} {r : Course} {k : Krypto} {rad : Runes} (hdel : o.delete = false) (hnew : o.new = true)
    (hp : (prepared E o.access o.file).1 = .ok ()) (hl : load C E V.loadW disk (prepared E o.access o.file).2 = some (.ok (), k)) (hrad : V.radiogram = some rad)
    (h : messagesCommand C E U V o disk = some r) : ∃ id t', newUniqueMessageId k.inst.messages V.tape = some (id, t') := by
  rcases hid : newUniqueMessageId k.inst.messages V.tape with _ | ⟨id, t'⟩
  · have hpar : parseRadiogram U V.radio k.inst.messages rad V.tape = none := by unfold parseRadiogram; dsimp only; rw [hid]
    have hrun : newTextMessageRun U V.wipeNoise V.radio V.freshId k.inst [rad] V.tape = none := by unfold newTextMessageRun; dsimp only; rw [hpar]
    have : messagesNew C E U V o ⟨disk, k, [], []⟩ = none := by unfold messagesNew; rw [if_pos hnew, hrad]; dsimp only; rw [hrun]
    rw [newCommand_eq hdel hnew hp hl, this] at h
    cases h
  · exact ⟨id, t', rfl⟩

theorem Marked.mem {a b : List Key} (h : Marked a b) {y : Key} (hy : y ∈ b) : ∃ x ∈ a, ∃ z, y = { x with used := x.used || z } := by
  obtain ⟨j, hj⟩ := List.mem_iff_getElem?.1 hy
  have hlt : j < a.length := by rw [← h.1]; exact (List.getElem?_eq_some_iff.1 hj).1
  obtain ⟨z, hz⟩ := h.2 j a[j] (List.getElem?_eq_getElem hlt)
  rw [hj] at hz
  exact ⟨a[j], List.getElem_mem hlt, z, Option.some.inj hz⟩

theorem Marked.mem' {a b : List Key} (h : Marked a b) {x : Key} (hx : x ∈ a) : ∃ z, { x with used := x.used || z } ∈ b := by
  obtain ⟨j, hj⟩ := List.mem_iff_getElem?.1 hx
  obtain ⟨z, hz⟩ := h.2 j x hj
  exact ⟨z, List.mem_of_getElem? hz⟩

theorem Marked.keeps {a b : List Key} (h : Marked a b) : HasAll a b := by
  rintro id pad ⟨x, hx, rfl, rfl⟩
  obtain ⟨z, hz⟩ := h.mem' hx
  exact ⟨_, hz, rfl, rfl⟩

theorem Marked.wellFormed {a b : List Key} (h : Marked a b) (hw : WellFormed a) : WellFormed b := hw.congr h.sameMat.symm

theorem SideOk.marked {g : Nat} {s : Side} {i : Inst} (h : SideOk g s i) {keys : List Key} (hm : Marked i.keys keys) (msgs : List Msg) :
    SideOk g s { i with keys := keys, messages := msgs } where
  size := h.size
  call := h.call
  key := h.key
  settings := h.settings
  keys := hm.wellFormed h.keys
  ids := by
    intro y hy
    obtain ⟨x, hx, z, rfl⟩ := hm.mem hy
    exact h.ids x hx

theorem Spent.marked {i : Inst} {pads : List Runes} (h : Spent i pads) {keys : List Key} (hm : Marked i.keys keys) (msgs : List Msg) : Spent { i with keys := keys, messages := msgs } pads := by
  intro p hp
  obtain ⟨x, hx, h1, h2⟩ := h p hp
  obtain ⟨z, hz⟩ := hm.mem' hx
  exact ⟨_, hz, h1, by simp [h2]⟩

theorem pads_marked {g : Nat} {call : Runes} {a b a' b' : List Key} (ha : Marked a a') (hb : Marked b b') (h : ∀ x ∈ a, Selectable g [call] x → Holds b x.id.val x.runes) :
    ∀ x ∈ a', Selectable g [call] x → Holds b' x.id.val x.runes := by
  intro y hy hs
  obtain ⟨x, hx, z, rfl⟩ := ha.mem hy
  refine hb.keeps _ _ (h x hx ⟨?_, hs.2.1, hs.2.2⟩)
  exact (Bool.or_eq_false_iff.1 hs.1).1

/-- a message: its text is in both files, and the pads were unused -/
theorem sends_step {C : Codec} (hC : C.Lawful) {U : Unicode} (hU : U.Lawful) {g : Nat} {s t : Side} {d d' e e' : Disk} {i j : Inst} {text : Runes} {used pads : List Runes}
    (h : Linked C U g s t d d' i j) (hs : Sends C U g s t d d' text used e e') (hsp : Spent i pads) (hsp' : Spent j pads) (hn : pads.Nodup) :
    (pads ++ used).Nodup ∧ ∃ i' j', Linked C U g s t e e' i' j' ∧ Spent i' (pads ++ used) ∧ Spent j' (pads ++ used) ∧ HasAll i.keys i'.keys ∧ HasAll j.keys j'.keys ∧
      i'.messages.map Msg.plainText = i.messages.map Msg.plainText ++ [text] ∧ j'.messages.map Msg.plainText = j.messages.map Msg.plainText ++ [text] := by
  cases hs with
  | @mk E E' V V' o o' _ _ r r' entered entered' _ m P time hen hrad hal hpr hlong hdate hwrap hen' hwords htime =>
    obtain ⟨names, sender, dtg, instr, count, rest, hform, hend, hzone, hnames, hown⟩ := hrad
    obtain ⟨k, hl, hk1, hk2, hk3⟩ := opens_load hen.access h.stored
    obtain ⟨k', hl', hk1', hk2', hk3'⟩ := opens_load hen'.access h.stored'
    have h0 := h
    replace h := h.same hk1 hk1'
    replace hsp := hsp.same hk1
    replace hsp' := hsp'.same hk1'
    -- the sender
    have hg : k.inst.groupSize ≠ 0 := h.ok.settings.1
    obtain ⟨id, t', hid⟩ := command_id hen'.keep hen'.new hen'.access.access hl' hen'.entered hen'.run
    rcases newCommand_cases hen.keep hen.new hen.access.access hl hen.run with ⟨-, -, -, hno⟩ | ⟨rad, inst', m0, t0, c0, hrad0, hrun0, -, -, hpr0⟩
    · unfold Course.sent at hpr; rw [hno] at hpr; cases hpr
    have hpads : printedPads C E U V o d = newPads U V k.inst := by unfold printedPads; rw [if_pos hen.new, openStore_ok hen.access.access hl]
    rcases newPads_spec hU hrad0 h.ok.keys hg hrun0 with ⟨hne, -⟩ | ⟨-, q2, q3, -⟩
    · exact absurd rfl (hne m0)
    rw [← hpads] at q2 q3
    have hsent : Sent C E U V o d k m := ⟨hen.new, hen.keep, hen.access.access, hl, r, hen.run, hpr⟩
    rcases C76_stored hC hU hen.run hen.keep hen.new hen.access.access hl hg h.ok.keys with ⟨-, -, -, hno⟩ | ⟨m1, hpr1, hst⟩
    · unfold Course.sent at hpr; rw [hno] at hpr; cases hpr
    rw [hpr] at hpr1
    simp only [List.cons.injEq, and_true] at hpr1
    subst hpr1
    obtain ⟨-, keys, hmk, hall, hstored⟩ := hst s.path s.key (writes_reads hen.writes hk2) hen.writes.room hk3 h.ok.key h.ok.settings.2.1 h.ok.settings.2.2.1 h.ok.settings.2.2.2 hen.output
    -- the receiver
    have hother : ¬ SameFold U (sender.map U.toUpper) k'.inst.callSign := by
      rw [h.ok'.call]
      intro he
      exact h.calls (hown.symm.trans he)
    obtain ⟨hm1, r1, msg, keys', hrun', hpr', -, -, hmsg, -, -, -, hmk', hmarks, hstored'⟩ := C76_delivered hC hU hsent hen.entered hform hend hzone (by rw [h.ok.call]; exact hown) hal
      (by rw [h.ok.size]; exact hlong) hdate hwrap hen'.new hen'.keep hen'.access.access hl' (by rw [h.ok.size, h.ok'.size]) h.ok'.keys
      (by rw [hnames, h.ok.size]; exact .inr ⟨h.ok.keys, rfl, h.pads⟩) hother hen'.entered (by rw [h.ok.size]; exact hwords) htime hid
      (writes_reads hen'.writes hk2') hen'.writes.room hk3' h.ok'.key h.ok'.settings.2.1 h.ok'.settings.2.2.1 h.ok'.settings.2.2.2 hen'.output
    rw [hen'.run, Option.some.injEq] at hrun'
    subst hrun'
    replace hmarks := hmarks h.ok.keys
    refine ⟨?_, { k.inst with keys := keys, messages := k.inst.messages ++ [m] }, { k'.inst with keys := keys', messages := k'.inst.messages ++ [msg] }, ?_, ?_, ?_, ?_, ?_, ?_, ?_⟩
    · refine List.nodup_append.2 ⟨hn, q2, ?_⟩
      rintro p hp _ hq rfl
      obtain ⟨x, hx, x1, x2⟩ := hsp p hp
      obtain ⟨y, hy, y1, y2⟩ := q3 p hq
      have := h.ok.keys.eq_of_id hx hy (x1.trans y1.symm)
      subst this
      rw [x2] at y2
      cases y2
    · exact ⟨hstored, hstored', h.ok.marked hmk _, h.ok'.marked hmk' _, h.calls, pads_marked hmk hmk' h.pads, pads_marked hmk' hmk h.pads'⟩
    · intro p hp
      rcases List.mem_append.1 hp with hp | hp
      · exact hsp.marked hmk _ p hp
      · obtain ⟨x, hx, x1, -⟩ := q3 p hp
        obtain ⟨z, hz⟩ := hmk.mem' hx
        exact ⟨_, hz, x1, hall _ hz (by rw [x1]; exact hp)⟩
    · intro p hp
      rcases List.mem_append.1 hp with hp | hp
      · exact hsp'.marked hmk' _ p hp
      · exact hmarks p hp
    · exact (same_keeps hk1.symm.keys).trans hmk.keeps
    · exact (same_keeps hk1'.symm.keys).trans hmk'.keeps
    · simp only [List.map_append, List.map_cons, List.map_nil, hm1, same_texts hk1.messages]
    · simp only [List.map_append, List.map_cons, List.map_nil, hmsg, same_texts hk1'.messages]

/-! ## Keys -/

/-- new keys -/
theorem makes_step {C : Codec} (hC : C.Lawful) {U : Unicode} (hU : U.Lawful) {g : Nat} {s t : Side} {d d' e : Disk} {i j : Inst} {pads : List Runes}
    (h : Semi C U g s t d d' i j) (hm : Makes C U s d e) (hsp : Spent i pads) :
    ∃ i', Semi C U g s t e d' i' j ∧ Spent i' pads ∧ HasAll i.keys i'.keys ∧ i'.messages.map Msg.plainText = i.messages.map Msg.plainText := by
  cases hm with
  | @mk E V o _ r n hrun hdel hnew hn himp hexp hexpire hop hw hout =>
    obtain ⟨k, hl, hk1, hk2, hk3⟩ := opens_load hop h.stored
    obtain ⟨y, hy, hy2⟩ : ∃ y : Inst, y = j ∧ SameStore y j := by
      refine ⟨j, rfl, ⟨rfl, rfl, rfl, rfl, rfl, ?_, ?_⟩⟩
      · exact List.forall₂_same.2 (fun x _ => ⟨rfl, rfl, rfl, rfl, rfl, rfl, rfl, rfl⟩)
      · exact List.forall₂_same.2 (fun x _ => ⟨rfl, rfl, rfl, rfl, rfl, rfl, rfl, rfl⟩)
    subst hy
    replace h := h.same hk1 hy2
    replace hsp := hsp.same hk1
    obtain ⟨-, H⟩ := C75_new_keys hC hrun hdel hnew hn himp hexp hop.access hl h.ok.settings.1
    obtain ⟨-, -, new, exp, -, -, -, hfresh, hdist, hst⟩ := H s.path s.key (writes_reads hw hk2) hw.room hk3 h.ok.key h.ok.settings.2.1 h.ok.settings.2.2.1 h.ok.settings.2.2.2 hexpire hout
    have hkeeps : HasAll k.inst.keys (k.inst.keys ++ new) := by
      rintro id pad ⟨x, hx, h1, h2⟩
      exact ⟨x, List.mem_append_left _ hx, h1, h2⟩
    refine ⟨_, ⟨hst, h.stored', ?_, h.ok', h.calls, ?_⟩, ?_, (same_keeps hk1.symm.keys).trans hkeeps, same_texts hk1.messages⟩
    · refine ⟨h.ok.size, h.ok.call, h.ok.key, h.ok.settings, ⟨nodup_of_distinctNames (hdist (wellFormed_distinct hU h.ok.keys)), ?_⟩, ?_⟩
      · intro x hx
        rcases List.mem_append.1 hx with hx | hx
        · exact h.ok.keys.letters x hx
        · exact (hfresh x hx).1.idLetters
      · intro x hx
        rcases List.mem_append.1 hx with hx | hx
        · exact h.ok.ids x hx
        · rw [(hfresh x hx).1.idLength, h.ok.size]
    · intro x hx hs
      exact hkeeps _ _ (h.pads' x hx hs)
    · intro p hp
      obtain ⟨x, hx, h1, h2⟩ := hsp p hp
      exact ⟨x, List.mem_append_left _ hx, h1, h2⟩

/-- keys handed over -/
theorem hands_step {C : Codec} (hC : C.Lawful) {U : Unicode} (hU : U.Lawful) {g : Nat} {s t : Side} {d d' e e' : Disk} {i j : Inst} {pads : List Runes}
    (h : Semi C U g s t d d' i j) (hh : HandsOver C U g s t d d' e e') (hsp : Spent i pads) (hsp' : Spent j pads) :
    ∃ i' j', Linked C U g s t e e' i' j' ∧ Spent i' pads ∧ Spent j' pads ∧ HasAll i.keys i'.keys ∧ HasAll j.keys j'.keys ∧
      i'.messages.map Msg.plainText = i.messages.map Msg.plainText ∧ j'.messages.map Msg.plainText = j.messages.map Msg.plainText := by
  cases hh with
  | @mk E E' V V' o o' _ _ copied r r' f f' path path' hrun hdel hnew himp hexp hsel hop hmay hpath hout1 hout2 hgot hleft hrun' hdel' hnew' himp' hexp' hall hans hop' hreads hkey hw hout' hagree =>
    obtain ⟨k, hl, hk1, hk2, hk3⟩ := opens_load hop h.stored
    obtain ⟨k', hl', hk1', hk2', hk3'⟩ := opens_load hop' (stored_congr hleft h.stored')
    replace h := h.same hk1 hk1'
    replace hsp := hsp.same hk1
    replace hsp' := hsp'.same hk1'
    have hx : Exports C E V o d k f s.key := ⟨hdel, hnew, himp, hexp, hop.access, hl, hk3, h.ok.key, h.ok.settings⟩
    obtain ⟨-, hoth, c, hc, hdec, -⟩ := export_file hC hrun hx hmay hout1
    -- the file on the other computer
    generalize hex : k.inst.keys.filter (keyFilter U V.now o.filter) = sent at hdec
    have hsub : ∀ x ∈ sent, x ∈ k.inst.keys := fun x hx => (List.mem_filter.1 (by rw [hex]; exact hx)).1
    have hwsent : WellFormed sent := by
      refine ⟨?_, fun x hx => h.ok.keys.letters x (hsub x hx)⟩
      rw [← hex]
      exact List.Nodup.sublist (List.Sublist.map _ List.filter_sublist) h.ok.keys.distinct
    have hinc : Stored C copied path' s.key { k.inst with keys := sent, messages := [] } :=
      stored_of_dec h.ok.key (hgot.trans hc) hdec h.ok.settings.1 h.ok.settings.2.1 h.ok.settings.2.2.1 h.ok.settings.2.2.2
    obtain ⟨q, hq, hqs⟩ := hinc E' V'.readW (incomingFor f') ⟨newBase_blank.keys, newBase_blank.messages, newBase_blank.callSign, newBase_blank.spareKeys, newBase_blank.spareMsgs⟩ hreads hkey
    have hwq : WellFormed q.inst.keys := hwsent.same hqs.keys
    -- what is taken
    obtain ⟨-, H⟩ := C77_import hC hrun' hdel' hnew' himp' hexp' hop'.access hl' (wellFormed_distinct hU h.ok'.keys) h.ok'.settings.1
    obtain ⟨-, -, new, keys, hnew, hperm, hst⟩ := H q t.path t.key hq (wellFormed_distinct hU hwq) (fun x _ => hans x) (writes_reads hw hk2') hw.room hk3' h.ok'.key
      h.ok'.settings.2.1 h.ok'.settings.2.2.1 h.ok'.settings.2.2.2 hout'
    generalize hacc : q.inst.keys.filter (fun x => decide (Accepts U ⟨false, V'.readW.terminal, V'.answer⟩ (keyFilter U V'.now o'.filter) k'.inst.groupSize
      (k'.inst.keys.map (fun x => x.id.val)) x)) = acc at hnew
    have hsame := hagree k.inst k'.inst h.stored h.stored'
    -- where a new key comes from
    have horigin : ∀ y ∈ new, ∃ x ∈ k.inst.keys, y.id.val = x.id.val ∧ y.runes = x.runes ∧ y.used = x.used := by
      intro y hy
      obtain ⟨z, hz, himp⟩ := forall₂_right hnew y hy
      rw [← hacc] at hz
      obtain ⟨x, hx, hs⟩ := forall₂_left hqs.keys z (List.mem_filter.1 hz).1
      refine ⟨x, hsub x hx, himp.id.trans hs.id, ?_, ?_⟩
      · rw [himp.same]; exact hs.runes
      · rw [himp.same]; exact hs.used
    have hnl : ∀ y ∈ new, ∀ c ∈ y.id.val, IsLetter c := by
      intro y hy
      obtain ⟨x, hx, e, -⟩ := horigin y hy
      rw [e]
      exact h.ok.keys.letters x hx
    have hfold : ∀ x ∈ k'.inst.keys, InFold U x.id.val (new.map (fun y => y.id.val)) → ∃ y ∈ new, y.id.val = x.id.val := by
      rintro x hx ⟨n, hn, hs⟩
      obtain ⟨y, hy, rfl⟩ := List.mem_map.1 hn
      exact ⟨y, hy, (letters_fold hU (h.ok'.keys.letters x hx) (hnl y hy) hs).symm⟩
    have hmem : ∀ x, x ∈ keys ↔ (x ∈ k'.inst.keys ∧ ¬ InFold U x.id.val (new.map (fun y => y.id.val))) ∨ x ∈ new := by
      intro x
      rw [hperm.mem_iff, List.mem_append, List.mem_filter]
      simp
    -- nothing is lost
    have hkeeps : HasAll k'.inst.keys keys := by
      rintro id pad ⟨x, hx, rfl, rfl⟩
      by_cases hin : InFold U x.id.val (new.map (fun y => y.id.val))
      · obtain ⟨y, hy, he⟩ := hfold x hx hin
        obtain ⟨z, hz, z1, z2, -⟩ := horigin y hy
        exact ⟨y, (hmem y).2 (.inr hy), he, by rw [z2]; exact hsame z hz x hx (by rw [← z1, he])⟩
      · exact ⟨x, (hmem x).2 (.inl ⟨hx, hin⟩), rfl, rfl⟩
    have hwf : WellFormed keys := by
      refine wellFormed_perm hperm ⟨?_, ?_⟩
      · rw [List.map_append]
        refine List.nodup_append.2 ⟨List.Nodup.sublist (List.Sublist.map _ List.filter_sublist) h.ok'.keys.distinct, ?_, ?_⟩
        · have : new.map (fun y => y.id.val) = acc.map (fun x => x.id.val) := by
            clear hmem hkeeps hfold hnl horigin hperm hacc
            induction hnew with
            | nil => rfl
            | cons a _ ih => simp only [List.map_cons, ih, a.id]
          rw [this, ← hacc]
          exact List.Nodup.sublist (List.Sublist.map _ List.filter_sublist) hwq.distinct
        · rintro a ha _ hb rfl
          obtain ⟨x, hx, rfl⟩ := List.mem_map.1 ha
          have := (List.mem_filter.1 hx).2
          simp only [Bool.not_eq_eq_eq_not, Bool.not_true, decide_eq_false_iff_not] at this
          exact this ⟨_, hb, rfl⟩
      · intro x hx
        rcases List.mem_append.1 hx with hx | hx
        · exact h.ok'.keys.letters x (List.mem_filter.1 hx).1
        · exact hnl x hx
    refine ⟨k.inst, { k'.inst with keys := keys }, ⟨stored_congr (hoth _ (fun e => hpath e.symm) hout2) h.stored, hst, h.ok, ?_, h.calls, ?_, ?_⟩, hsp, ?_, same_keeps hk1.symm.keys,
      (same_keeps hk1'.symm.keys).trans hkeeps, same_texts hk1.messages, same_texts hk1'.messages⟩
    · refine ⟨h.ok'.size, h.ok'.call, h.ok'.key, h.ok'.settings, hwf, ?_⟩
      intro x hx
      rcases (hmem x).1 hx with ⟨hx, -⟩ | hx
      · exact h.ok'.ids x hx
      · obtain ⟨y, hy, e, -⟩ := horigin x hx
        rw [e]
        exact h.ok.ids y hy
    · intro x hx hs
      have hxs : x ∈ sent := by rw [← hex]; exact List.mem_filter.2 ⟨hx, hsel x hs⟩
      obtain ⟨z, hz, hzx⟩ := forall₂_right hqs.keys x hxs
      by_cases ha : Accepts U ⟨false, V'.readW.terminal, V'.answer⟩ (keyFilter U V'.now o'.filter) k'.inst.groupSize (k'.inst.keys.map (fun x => x.id.val)) z
      · have hz' : z ∈ acc := by rw [← hacc]; exact List.mem_filter.2 ⟨hz, decide_eq_true ha⟩
        obtain ⟨y, hy, himp⟩ := forall₂_left hnew z hz'
        refine ⟨y, (hmem y).2 (.inr hy), himp.id.trans hzx.id, ?_⟩
        rw [himp.same]; exact hzx.runes
      · have hin : InFold U z.id.val (k'.inst.keys.map (fun x => x.id.val)) := by
          by_contra hno
          exact ha ⟨by rw [hzx.id, hs.2.1, h.ok'.size], hall z, fun hc => absurd hc hno⟩
        obtain ⟨n, hn, hf⟩ := hin
        obtain ⟨y, hy, rfl⟩ := List.mem_map.1 hn
        have hid : y.id.val = x.id.val := by
          rw [hzx.id] at hf
          exact (letters_fold hU (h.ok.keys.letters x hx) (h.ok'.keys.letters y hy) hf).symm
        have := hkeeps y.id.val y.runes ⟨y, hy, rfl, rfl⟩
        rw [hid, ← hsame x hx y hy hid.symm] at this
        exact this
    · intro x hx hs
      rcases (hmem x).1 hx with ⟨hx, -⟩ | hx
      · exact h.pads' x hx hs
      · obtain ⟨y, hy, e1, e2, -⟩ := horigin x hx
        exact ⟨y, hy, e1.symm, e2.symm⟩
    · intro p hp
      obtain ⟨x, hx, h1, h2⟩ := hsp' p hp
      by_cases hin : InFold U x.id.val (new.map (fun y => y.id.val))
      · obtain ⟨y, hy, he⟩ := hfold x hx hin
        obtain ⟨z, hz, z1, -, z3⟩ := horigin y hy
        obtain ⟨w, hw, w1, w2⟩ := hsp p hp
        have : w = z := h.ok.keys.eq_of_id hw hz (by rw [w1, ← z1, he, h1])
        subst this
        exact ⟨y, (hmem y).2 (.inr hy), he.trans h1, z3.trans w2⟩
      · exact ⟨x, (hmem x).2 (.inl ⟨hx, hin⟩), h1, h2⟩

/-- keys made and handed over -/
theorem supplies_step {C : Codec} (hC : C.Lawful) {U : Unicode} (hU : U.Lawful) {g : Nat} {s t : Side} {d d' e e' : Disk} {i j : Inst} {pads : List Runes}
    (h : Linked C U g s t d d' i j) (hs : Supplies C U g s t d d' e e') (hsp : Spent i pads) (hsp' : Spent j pads) :
    ∃ i' j', Linked C U g s t e e' i' j' ∧ Spent i' pads ∧ Spent j' pads ∧ HasAll i.keys i'.keys ∧ HasAll j.keys j'.keys ∧
      i'.messages.map Msg.plainText = i.messages.map Msg.plainText ∧ j'.messages.map Msg.plainText = j.messages.map Msg.plainText := by
  obtain ⟨d1, hd, hh⟩ := hs
  rcases hd with rfl | hm
  · exact hands_step hC hU h.semi hh hsp hsp'
  · obtain ⟨i1, h1, s1, k1, m1⟩ := makes_step hC hU h.semi hm hsp
    obtain ⟨i2, j2, a, b, c, p, q, r, s⟩ := hands_step hC hU h1 hh s1 hsp'
    exact ⟨i2, j2, a, b, c, k1.trans p, q, r.trans m1, s⟩

end K431
