import Verif.SpecRuns
import Verif.CmdEx
import Verif.NetLemmas
import Verif.PropsHistory

/-! # Helper lemmas: what runs of the program do to the file -/

namespace K431
open Spec

/-- ids and flags of the keys in a file -/
def wireKeys (w : Wire) : List (Runes × Bool) := (w.keys.getD []).map (fun x => (x.id.getD [], x.used.getD false))

/-- ids and flags of keys -/
def idFlags (keys : List Key) : List (Runes × Bool) := keys.map (fun k => (k.id.val, k.used))

theorem mergeKeys_wire : ∀ (ws : List WireKey) (a : Nat) (cells : List Key), (∀ x ∈ cells, x = Key.zero) →
    idFlags (mergeKeys a cells ws).1 = ws.map (fun x => (x.id.getD [], x.used.getD false))
  | [], _, _, _ => rfl
  | w :: ws, a, cells, h => by
    have ih := mergeKeys_wire ws (a + 1 + (w.keepers.getD []).length) cells.tail (tail_all h)
    unfold idFlags at ih ⊢
    simp only [mergeKeys, List.map_cons, ih, headD_zero h]
    congr 1
    rcases w with ⟨_ | id, _, _, _, _, _ | u, _, _⟩ <;> rfl

theorem decoded_flags {k : Krypto} (hk : K431.Blank k) (w : Wire) : idFlags (gobDecode w k).inst.keys = wireKeys w := by
  obtain ⟨cells, hz, e, _⟩ := gobDecode_normal hk w
  rw [e, mergeKeys_wire _ _ _ hz]; rfl

theorem gobInst_flags (i : Inst) : wireKeys (gobInst i) = idFlags i.keys := by
  unfold wireKeys gobInst idFlags
  simp only [sent_getD, List.map_map]
  apply List.map_congr_left
  intro k _
  simp only [Function.comp, gobKey, sent_getD]

theorem gobDecode_groupSize (w : Wire) (k : Krypto) : (gobDecode w k).inst.groupSize = w.groupSize.getD k.inst.groupSize := rfl

/-- what is known about the keys in the file -/
structure Good (l : List (Runes × Bool)) (used : List Runes) : Prop where
  distinct : (l.map Prod.fst).Nodup
  letters : ∀ p ∈ l, ∀ c ∈ p.1, IsLetter c
  marked : ∀ p ∈ l, p.1 ∈ used → p.2 = true

theorem Good.wellFormed {keys : List Key} {used : List Runes} (h : Good (idFlags keys) used) : WellFormed keys := by
  refine ⟨?_, ?_⟩
  · have := h.distinct
    simpa [idFlags, List.map_map, Function.comp_def] using this
  · intro k hk
    exact h.letters (k.id.val, k.used) (List.mem_map.2 ⟨k, hk, rfl⟩)

theorem Good.ofWellFormed {keys : List Key} {used : List Runes} (h : WellFormed keys) (hu : ∀ k ∈ keys, k.id.val ∈ used → k.used = true) :
    Good (idFlags keys) used := by
  refine ⟨?_, ?_, ?_⟩
  · have := h.distinct
    simpa [idFlags, List.map_map, Function.comp_def] using this
  · intro p hp
    obtain ⟨k, hk, rfl⟩ := List.mem_map.1 hp
    exact h.letters k hk
  · intro p hp
    obtain ⟨k, hk, rfl⟩ := List.mem_map.1 hp
    exact hu k hk

theorem Good.used {keys : List Key} {used : List Runes} (h : Good (idFlags keys) used) : ∀ k ∈ keys, k.id.val ∈ used → k.used = true :=
  fun k hk => h.marked (k.id.val, k.used) (List.mem_map.2 ⟨k, hk, rfl⟩)

/-- trying to decipher only marks keys -/
theorem tryDecipher_marked {U : Unicode} (hU : U.Lawful) {f : Runes} {dry : Bool} {inst inst' : Inst} {m m' : Msg} {o : Outcome Unit} (hg : inst.groupSize ≠ 0)
    (h : tryDecipher U f dry inst m = (o, inst', m')) : Marked inst.keys inst'.keys := by
  unfold tryDecipher at h
  dsimp only at h
  split at h
  · cases h; exact Marked.refl _
  split at h
  · cases h; exact Marked.refl _
  split at h
  · cases h; exact Marked.refl _
  split at h
  · cases h; exact Marked.refl _
  split at h
  · cases h; exact Marked.refl _
  split at h
  · cases h; exact Marked.refl _
  split at h <;> rename_i hd <;> cases h <;> exact (decipher_marked hU (by exact hg) hd).1

/-- what a new message does to the keys -/
theorem newPads_spec {U : Unicode} (hU : U.Lawful) {V : MsgsEnv} {inst inst' : Inst} {r : Runes} {o : Outcome Msg} {t' : Tape} (hr : V.radiogram = some r)
    (hwf : WellFormed inst.keys) (hg : inst.groupSize ≠ 0)
    (h : newTextMessageRun U V.wipeNoise V.radio V.freshId inst [r] V.tape = some ((o, inst'), t')) :
    (∀ m, o ≠ .ok m) ∧ newPads U V inst = [] ∨
    Marked inst.keys inst'.keys ∧ (newPads U V inst).Nodup ∧ (∀ id ∈ newPads U V inst, ∃ k ∈ inst.keys, k.id.val = id ∧ k.used = false) ∧
      ∀ k ∈ inst'.keys, k.id.val ∈ newPads U V inst → k.used = true := by
  unfold newTextMessageRun at h
  dsimp only at h
  unfold newPads
  rw [hr]
  dsimp only
  rcases hp : parseRadiogram U V.radio inst.messages r V.tape with _ | ⟨p, t1⟩
  · rw [hp] at h; cases h
  rw [hp] at h
  simp only [Option.some.injEq, Prod.mk.injEq] at h
  dsimp only
  obtain ⟨h, -⟩ := h
  unfold newTextMessage at h
  dsimp only at h
  rcases p with p | e | _
  · dsimp only at h
    by_cases hc : isMyCall U inst p = true
    · rw [if_pos hc] at h
      have hh : handed U inst [r] (.ok p) = some (inst, p) := by simp [handed, hc]
      have hauto := handed_auto hp hh
      rw [hh]
      dsimp only
      simp only [List.length_nil, ge_iff_le, Nat.le_zero, Nat.one_ne_zero, if_false] at h
      rcases he : encipherT U V.wipeNoise V.freshId inst p with ⟨oc, i1, m1⟩
      rcases oc with chunks | e | _
      · right
        have e1 : encipher U V.wipeNoise V.freshId inst p = (.ok (), i1, m1) := by unfold encipher; rw [he]
        rw [e1] at h
        simp only [Prod.mk.injEq] at h
        obtain ⟨-, rfl⟩ := h
        have hd := hwf.distinguishable hU
        obtain ⟨c1, c2⟩ := C15_partial U hU _ _ _ _ _ _ _ hd hauto he
        obtain ⟨_, _, _, _, _, ok⟩ := encipherT_ok he
        obtain ⟨-, a2, a3⟩ := ok.auto_flags hU hauto hd
        refine ⟨⟨c1, fun j k hj => ⟨_, c2 j k hj⟩⟩, padsOf_nodup hwf a2, ?_, ?_⟩
        · intro id hid
          obtain ⟨j, k, hj, hk, e⟩ := padsOf_mem hid
          obtain ⟨k1, hk1, el⟩ := a3 j hj
          rw [hk] at hk1; cases hk1
          exact ⟨k, List.mem_of_getElem? hk, e, el.1⟩
        · intro k' hk' hid
          obtain ⟨j, k, hj, hk, e⟩ := padsOf_mem hid
          obtain ⟨j', hj'⟩ := List.mem_iff_getElem?.1 hk'
          have hlt : j' < inst.keys.length := by rw [← c1]; exact (List.getElem?_eq_some_iff.1 hj').1
          have h2 := c2 j' inst.keys[j'] (List.getElem?_eq_getElem hlt)
          have hj2 : i1.keys[j']? = some k' := hj'
          rw [h2] at hj2
          cases hj2
          have : j' = j := hwf.inj (List.getElem?_eq_getElem hlt) hk e.symm
          subst this
          simp [hj]
      all_goals
        left
        obtain ⟨o', ho', e1⟩ := encipherT_encipher he (fun c => by simp)
        rw [e1] at h
        refine ⟨?_, rfl⟩
        intro m hm
        subst hm
        rcases o' with u | e | _
        · exact ho' rfl
        · cases h
        · cases h
    · rw [if_neg hc] at h
      have hh : handed U inst [r] (.ok p) = none := by simp [handed, hc]
      rw [hh]
      dsimp only
      rcases ht : K431.tryDecipher U V.freshId false inst (if p.recipients.length = 0 then
          { p with recipients := addRecipient U p.recipients [inst.callSign] } else p) with ⟨u | e | _, i2, m2⟩
      · rw [ht] at h
        simp only [Prod.mk.injEq] at h
        obtain ⟨-, rfl⟩ := h
        have hm := tryDecipher_marked hU hg ht
        exact .inr ⟨hm, List.nodup_nil, by simp, by simp⟩
      · rw [ht] at h
        simp only [Prod.mk.injEq] at h
        obtain ⟨-, rfl⟩ := h
        have hm := tryDecipher_marked hU hg ht
        exact .inr ⟨hm, List.nodup_nil, by simp, by simp⟩
      · rw [ht] at h
        simp only [Prod.mk.injEq] at h
        exact .inl ⟨fun m hm => by rw [hm] at h; simp at h, rfl⟩
  all_goals
    simp only [Prod.mk.injEq] at h
    exact .inl ⟨fun m hm => by rw [hm] at h; simp at h, rfl⟩

theorem messagesList_state (U : Unicode) (V : MsgsEnv) (o : MsgsCmd) (s : Cmd) :
    (messagesList U V o s).state.disk = s.disk ∧ (messagesList U V o s).state.touched = s.touched := by
  unfold messagesList
  split
  · split
    · exact ⟨rfl, rfl⟩
    · split
      · exact ⟨rfl, rfl⟩
      · exact ⟨rfl, rfl⟩
      · dsimp only; split <;> exact ⟨rfl, rfl⟩
  · exact ⟨rfl, rfl⟩

theorem writeOutput_state (W : World) (file body : List Nat) (s : Cmd) {f : List Nat} (hf : file ≠ f) :
    (writeOutput W file body s).state.disk f = s.disk f ∧ ∃ l, (writeOutput W file body s).state.touched = s.touched ++ l ∧ ∀ t ∈ l, t.path ≠ f := by
  have hs : ∀ c, s.disk.set file c f = s.disk f := fun c => set_other _ _ (Ne.symm hf)
  unfold writeOutput
  split
  · exact ⟨rfl, [], by simp [Course.state], by simp⟩
  · dsimp only
    cases W.room <;> dsimp only <;> split <;>
      exact ⟨hs _, [_], rfl, by simpa using hf⟩

theorem outputStep_state {α : Type} (W : World) (type : Option (List Nat)) (render : OutKind → List α → Option (List Nat)) (file : Option (List Nat))
    (items : List α) (s : Cmd) {f : List Nat} (hf : file ≠ some f) :
    (outputStep W type render file items s).state.disk f = s.disk f ∧
      ∃ l, (outputStep W type render file items s).state.touched = s.touched ++ l ∧ ∀ t ∈ l, t.path ≠ f := by
  have h0 : s.disk f = s.disk f ∧ ∃ l, s.touched = s.touched ++ l ∧ ∀ t ∈ l, t.path ≠ f := ⟨rfl, [], by simp, by simp⟩
  unfold outputStep
  cases file with
  | none => exact h0
  | some file =>
    have hne : file ≠ f := fun e => hf (by rw [e])
    dsimp only
    split
    · exact h0
    · split
      · exact h0
      · split
        · exact h0
        · split
          · exact h0
          · exact writeOutput_state W file _ s hne
      · split
        · exact h0
        · split
          · exact h0
          · exact writeOutput_state W file _ s hne

/-- what follows the new message does not touch the file -/
theorem messagesTail {U : Unicode} {V : MsgsEnv} {o : MsgsCmd} {c r : Course} {f : List Nat} (hf : o.output ≠ some f)
    (h : andThen (andThen (some c) (fun s => some (messagesList U V o s)))
      (fun s => some (outputStep V.outputW o.type V.render o.output (s.k.inst.messages.filter (msgFilter U o.filter)) s)) = some r) :
    r.state.disk f = c.state.disk f ∧ ∃ l, r.state.touched = c.state.touched ++ l ∧ ∀ t ∈ l, t.path ≠ f := by
  cases c with
  | stop oc s =>
    have : r = .stop oc s := by simpa [andThen] using h.symm
    subst this
    exact ⟨rfl, [], by simp, by simp⟩
  | go s =>
    rw [andThen_go] at h
    obtain ⟨l1, l2⟩ := messagesList_state U V o s
    cases hm : messagesList U V o s with
    | stop oc s' =>
      rw [hm] at h l1 l2
      have : r = .stop oc s' := by simpa [andThen] using h.symm
      subst this
      exact ⟨by rw [l1]; rfl, [], by rw [l2]; simp [Course.state], by simp⟩
    | go s' =>
      rw [hm] at h l1 l2
      rw [andThen_go, Option.some.injEq] at h
      subst h
      obtain ⟨a, l, b, c⟩ := outputStep_state V.outputW o.type V.render o.output (s'.k.inst.messages.filter (msgFilter U o.filter)) s' hf
      refine ⟨by rw [a]; exact congrFun l1 f, l, ?_, c⟩
      rw [b]
      exact congrArg (· ++ l) l2

/-- what the file may contain after a run -/
theorem leaves_cases {disk disk' : Disk} {r : Course} {f : List Nat} (h : Leaves disk r disk')
    (hd : r.state.disk f = disk f ∨ ∃ t, r.state.touched.head? = some t ∧ t.path = f ∧ ∃ c ∈ t.contents, r.state.disk f = some c) :
    disk' f = disk f ∨ ∃ t, r.state.touched.head? = some t ∧ t.path = f ∧ ∃ c ∈ t.contents, disk' f = some c := by
  cases h with
  | returns => exact hd
  | killed => exact .inl rfl
  | killedWriting ht hc =>
    rename_i t c
    by_cases e : t.path = f
    · subst e
      exact .inr ⟨t, ht, rfl, c, hc, set_same _ _ _⟩
    · exact .inl (set_other _ _ (Ne.symm e))

/-- what is known about the file: whoever opens it finds the pads used so far marked -/
def FileOk (C : Codec) (disk : Disk) (file : List Nat) (used : List Runes) : Prop :=
  ∀ key c w, key.length = 32 → disk file = some c → C.dec key c = some w → w.groupSize ≠ some 0 ∧ Good (wireKeys w) used

/-- opening the file -/
theorem FileOk.load {C : Codec} {E : PwEnv} {W : World} {a : Access} {disk : Disk} {file : List Nat} {used : List Runes} {k : Krypto} (hI : FileOk C disk file used)
    (ha : file.take 2 ≠ [126, 47]) (h : load C E W disk (prepared E a file).2 = some (.ok (), k)) :
    k.persistence = file ∧ k.inst.groupSize ≠ 0 ∧ Good (idFlags k.inst.keys) used := by
  obtain ⟨x, y, hf⟩ := prepared_frame E a file
  rw [hf] at h
  obtain ⟨path, key, c, w, h1, h2, h3, h4, h5, -⟩ := load_ok h
  have e : path = file := by
    unfold resolvePath at h1
    rw [if_neg ha] at h1
    exact (Option.some.inj h1).symm
  subst e
  obtain ⟨i1, i2⟩ := hI (key.take 32) c w (by simp; omega) h2 h4
  subst h5
  refine ⟨rfl, ?_, ?_⟩
  · show w.groupSize.getD 5 ≠ 0
    rcases hw : w.groupSize with _ | g
    · simp
    · intro hz
      exact i1 (by rw [hw]; simpa using hz)
  · have e := decoded_flags (k := { newBase with persistence := path, interactive := true, salt := x, pfk := some key })
      ⟨newBase_blank.keys, newBase_blank.messages, newBase_blank.callSign, newBase_blank.spareKeys, newBase_blank.spareMsgs⟩ w
    rw [← e] at i2
    exact i2

/-- what a run of the program does: nothing to the file, nothing printed; or the keys with marks on the pads just used are written -/
theorem run_cases {C : Codec} {E : PwEnv} {U : Unicode} (hU : U.Lawful) {V : MsgsEnv} {o : MsgsCmd} {disk : Disk} {r : Course} {used : List Runes} (hdel : o.delete = false)
    (ha : o.file.take 2 ≠ [126, 47]) (hout : o.output ≠ some o.file) (hI : FileOk C disk o.file used) (h : messagesCommand C E U V o disk = some r) :
    (r.state.disk o.file = disk o.file ∨ ∃ t, r.state.touched.head? = some t ∧ t.path = o.file ∧ ∃ c ∈ t.contents, r.state.disk o.file = some c) ∧
    ((printedPads C E U V o disk = [] ∧ ∀ t, r.state.touched.head? = some t → t.path = o.file → t.contents = []) ∨
    ∃ inst inst' : Inst, Good (idFlags inst.keys) used ∧ Marked inst.keys inst'.keys ∧ (printedPads C E U V o disk).Nodup ∧
      (∀ id ∈ printedPads C E U V o disk, ∃ k ∈ inst.keys, k.id.val = id ∧ k.used = false) ∧
      (∀ k ∈ inst'.keys, k.id.val ∈ printedPads C E U V o disk → k.used = true) ∧
      ∀ t, r.state.touched.head? = some t → t.path = o.file → ∀ c ∈ t.contents, c = [] ∨ ∃ key n i, key.length = 32 ∧ c = (C.enc key n (gobInst inst')).take i) := by
  unfold messagesCommand at h
  split at h
  · rename_i hany
    simp only [Option.some.injEq] at h
    subst h
    have hnew : o.new = false := by
      simp only [MsgsCmd.any, Bool.not_eq_true', Bool.or_eq_false_iff] at hany
      exact hany.1.1.1.2
    refine ⟨.inl rfl, .inl ⟨?_, by simp [Course.state]⟩⟩
    unfold printedPads; rw [hnew]; rfl
  -- a section that touches nothing
  have quiet : ∀ {c : Course}, c.state.disk = disk → c.state.touched = [] →
      andThen (andThen (some c) (fun s => some (messagesList U V o s)))
        (fun s => some (outputStep V.outputW o.type V.render o.output (s.k.inst.messages.filter (msgFilter U o.filter)) s)) = some r →
      r.state.disk o.file = disk o.file ∧ ∀ t, r.state.touched.head? = some t → t.path = o.file → t.contents = [] := by
    intro c hd ht hr
    obtain ⟨a, l, b, cl⟩ := messagesTail hout hr
    refine ⟨by rw [a, hd], ?_⟩
    intro t htt hp
    rw [b, ht, List.nil_append] at htt
    exact absurd hp (cl t (List.mem_of_mem_head? htt))
  rcases hop : openStore C E V.loadW o.access o.file disk with _ | c
  · rw [hop] at h; cases h
  rcases openStore_cases hop with ⟨oc, k, -, rfl⟩ | ⟨k, -, hl, hok, rfl⟩
  · rw [hop] at h
    obtain ⟨a, b⟩ := quiet (c := .stop oc ⟨disk, k, [], []⟩) rfl rfl h
    refine ⟨.inl a, .inl ⟨?_, b⟩⟩
    unfold printedPads; rw [hop]; split <;> rfl
  obtain ⟨hpath, hg, hgood⟩ := hI.load ha hl
  have hwf := hgood.wellFormed
  rw [hop, andThen_go] at h
  have hdl : messagesDelete C E U V o ⟨disk, k, [], []⟩ = some (.go ⟨disk, k, [], []⟩) := by unfold messagesDelete; rw [hdel]; rfl
  rw [hdl, andThen_go] at h
  by_cases hnew : o.new = true
  · have hpads : printedPads C E U V o disk = newPads U V k.inst := by unfold printedPads; rw [if_pos hnew, hop]
    rw [hpads]
    rcases hm : messagesNew C E U V o ⟨disk, k, [], []⟩ with _ | c
    · rw [hm] at h; cases h
    rw [hm] at h
    unfold messagesNew at hm
    rw [if_pos hnew] at hm
    rcases hr : V.radiogram with _ | rad
    · rw [hr] at hm
      simp only [Option.some.injEq] at hm
      subst hm
      obtain ⟨a, b⟩ := quiet rfl rfl h
      refine ⟨.inl a, .inl ⟨?_, b⟩⟩
      unfold newPads; rw [hr]
    rw [hr] at hm
    dsimp only at hm
    rcases hn : newTextMessageRun U V.wipeNoise V.radio V.freshId k.inst [rad] V.tape with _ | ⟨⟨om, inst'⟩, t'⟩
    · rw [hn] at hm; cases hm
    rw [hn] at hm
    have hspec := newPads_spec hU hr hwf hg hn
    rcases om with m | e | _
    · dsimp only at hm
      rcases hspec with ⟨hbad, -⟩ | ⟨s1, s2, s3, s4⟩
      · exact absurd rfl (hbad m)
      unfold saveStep at hm
      dsimp only at hm
      rcases hsv : save C E V.newW disk { k with inst := inst' } with _ | sr
      · rw [hsv] at hm; cases hm
      rw [hsv, Option.map_some, Option.some.injEq] at hm
      have hst : c.state.disk = sr.disk disk ∧ c.state.touched = [⟨sr.k.persistence, sr.contents⟩] := by
        subst hm; rw [check_state]; exact ⟨rfl, rfl⟩
      obtain ⟨a, l, b, -⟩ := messagesTail hout h
      rw [hst.2] at b
      have hhead : r.state.touched.head? = some ⟨sr.k.persistence, sr.contents⟩ := by rw [b]; rfl
      have hdisk : r.state.disk o.file = sr.disk disk o.file := by rw [a, hst.1]
      have hp1 : resolvePath V.newW k.persistence = some o.file := by
        unfold resolvePath; rw [hpath, if_neg ha]
      refine ⟨?_, .inr ⟨k.inst, inst', hgood, s1, s2, s3, s4, ?_⟩⟩
      · rw [hdisk, hhead]
        unfold SaveRun.disk
        rcases hlast : sr.contents.getLast? with _ | c'
        · exact .inl rfl
        · dsimp only
          by_cases e : sr.k.persistence = o.file
          · exact .inr ⟨_, rfl, e, c', List.mem_of_getLast? hlast, by rw [e]; exact set_same _ _ _⟩
          · exact .inl (set_other _ _ (Ne.symm e))
      · rw [hhead]
        intro t ht hp c' hc'
        simp only [Option.some.injEq] at ht
        subst ht
        rcases save_cases hsv with ⟨e0, -⟩ | ⟨path, key, q1, -, -, -, q2, -⟩
        · dsimp only at hc'; rw [e0] at hc'; cases hc'
        · dsimp only at hc'
          rw [q2] at hc'
          rcases saveWrite_contents C V.newW key _ c' hc' with e0 | ⟨hlen, i, e0⟩
          · exact .inl e0
          · exact .inr ⟨key.take 32, _, i, by simp; omega, e0⟩
    all_goals
      simp only [Option.some.injEq] at hm
      subst hm
      obtain ⟨a, b⟩ := quiet rfl rfl h
      rcases hspec with ⟨-, e0⟩ | ⟨s1, s2, s3, s4⟩
      · exact ⟨.inl a, .inl ⟨e0, b⟩⟩
      · refine ⟨.inl a, .inr ⟨k.inst, inst', hgood, s1, s2, s3, s4, ?_⟩⟩
        intro t ht hp c hc
        rw [b t ht hp] at hc
        cases hc
  · have hn : messagesNew C E U V o ⟨disk, k, [], []⟩ = some (.go ⟨disk, k, [], []⟩) := by unfold messagesNew; rw [if_neg hnew]
    rw [hn] at h
    obtain ⟨a, b⟩ := quiet rfl rfl h
    refine ⟨.inl a, .inl ⟨?_, b⟩⟩
    unfold printedPads; rw [if_neg hnew]

/-- the file after a run -/
theorem FileOk.run {C : Codec} (hC : C.Lawful) {E : PwEnv} {U : Unicode} (hU : U.Lawful) {V : MsgsEnv} {o : MsgsCmd} {disk disk' : Disk} {r : Course} {used : List Runes}
    (hdel : o.delete = false) (ha : o.file.take 2 ≠ [126, 47]) (hout : o.output ≠ some o.file) (hI : FileOk C disk o.file used) (hu : used.Nodup)
    (h : messagesCommand C E U V o disk = some r) (hlv : Leaves disk r disk') (hP : printedPads C E U V o disk ≠ [] → Rewritten o.file r disk') :
    FileOk C disk' o.file (used ++ printedPads C E U V o disk) ∧ (used ++ printedPads C E U V o disk).Nodup := by
  obtain ⟨hd, hc⟩ := run_cases hU hdel ha hout hI h
  have hlv := leaves_cases hlv hd
  rcases hc with ⟨e0, e1⟩ | ⟨inst, inst', hgood, hmk, hnd, hfresh, hmarked, hcont⟩
  · rw [e0, List.append_nil]
    refine ⟨?_, hu⟩
    rcases hlv with e | ⟨t, t1, t2, c, t3, -⟩
    · unfold FileOk; rw [e]; exact hI
    · rw [e1 t t1 t2] at t3; cases t3
  have hnew : (used ++ printedPads C E U V o disk).Nodup := by
    refine List.nodup_append.2 ⟨hu, hnd, ?_⟩
    rintro a h1 b h2 rfl
    obtain ⟨k, hk, e, hf⟩ := hfresh a h2
    have := hgood.used k hk (by rw [e]; exact h1)
    rw [hf] at this; cases this
  refine ⟨?_, hnew⟩
  have hg' : Good (idFlags inst'.keys) (used ++ printedPads C E U V o disk) := by
    refine Good.ofWellFormed (hgood.wellFormed.congr hmk.sameMat.symm) ?_
    intro k hk hid
    rcases List.mem_append.1 hid with h1 | h2
    · exact hmk.used (id := k.id.val) (fun k0 h0 e => hgood.used k0 h0 (by rw [e]; exact h1)) k hk rfl
    · exact hmarked k hk h2
  have written : ∀ t, r.state.touched.head? = some t → t.path = o.file → ∀ c ∈ t.contents, disk' o.file = some c →
      FileOk C disk' o.file (used ++ printedPads C E U V o disk) := by
    intro t t1 t2 c hc e key c' w hk hc' hdec
    rw [e] at hc'; cases hc'
    rcases hcont t t1 t2 c hc with rfl | ⟨key', n, i, hk', rfl⟩
    · rw [hC.empty] at hdec; cases hdec
    · by_cases ek : key' = key
      · subst ek
        rcases hC.part key' n (gobInst inst') i hk' with e2 | e2
        · rw [e2] at hdec; cases hdec
        · rw [e2] at hdec; cases hdec
          refine ⟨?_, by rw [gobInst_flags]; exact hg'⟩
          show sent 0 inst'.groupSize ≠ some 0
          unfold sent
          split
          · simp
          · rename_i hz; intro e3; exact hz (Option.some.inj e3)
      · rw [hC.wrong key' key n _ i hk' hk ek] at hdec; cases hdec
  by_cases hp : printedPads C E U V o disk = []
  · rcases hlv with e | ⟨t, t1, t2, c, t3, t4⟩
    · rw [hp, List.append_nil]; unfold FileOk; rw [e]; exact hI
    · exact written t t1 t2 c t3 t4
  · obtain ⟨t, c, t1, t2, t3, t4⟩ := hP hp
    exact written t t1 t2 c t3 t4

/-- the file at the start -/
theorem Spec.StartFile.ok {C : Codec} {file : List Nat} {disk : Disk} (h : StartFile C file disk) : FileOk C disk file [] := by
  intro key c w hk hd hw
  let k : Krypto := { newBase with persistence := file, interactive := true, pfk := some key }
  have hb : K431.Blank k := ⟨newBase_blank.keys, newBase_blank.messages, newBase_blank.callSign, newBase_blank.spareKeys, newBase_blank.spareMsgs⟩
  have hl : load C ⟨fun _ _ => [], fun _ => true⟩ exWorld disk k = some (.ok (), { gobDecode w k with overwrite := true }) := by
    have hr : Reads exWorld k file := ⟨h.named, by unfold resolvePath; rw [if_neg h.absolute], rfl, rfl⟩
    rw [load_key hr (Or.inl rfl) (by rw [hd]; simp)]
    unfold loadRead
    rw [if_neg (by decide), if_neg (by omega)]
    dsimp only
    rw [hd]
    dsimp only
    rw [List.take_of_length_le (by omega), hw]
  obtain ⟨a, b⟩ := h.keys _ _ _ _ hb rfl hl
  constructor
  · intro e
    apply b
    show w.groupSize.getD 5 = 0
    rw [e]; rfl
  · rw [← decoded_flags hb w]
    exact Good.ofWellFormed a (by simp)

theorem keysList_state (U : Unicode) (V : KeysEnv) (o : KeysCmd) (s : Cmd) :
    (keysList U V o s).state.disk = s.disk ∧ (keysList U V o s).state.touched = s.touched := by
  unfold keysList
  dsimp only
  repeat' split
  all_goals exact ⟨rfl, rfl⟩

/-- listing and printing keys -/
theorem keysTail {U : Unicode} {V : KeysEnv} {o : KeysCmd} {c r : Course} {f : List Nat} (hf : o.output ≠ some f)
    (h : andThen (andThen (some c) (fun s => some (keysList U V o s)))
      (fun s => some (outputStep V.outputW o.type V.render o.output (s.k.inst.keys.filter (keyFilter U V.now o.filter)) s)) = some r) :
    r.state.disk f = c.state.disk f ∧ ∃ l, r.state.touched = c.state.touched ++ l ∧ ∀ t ∈ l, t.path ≠ f := by
  cases c with
  | stop oc s =>
    have : r = .stop oc s := by simpa [andThen] using h.symm
    subst this
    exact ⟨rfl, [], by simp, by simp⟩
  | go s =>
    rw [andThen_go] at h
    obtain ⟨l1, l2⟩ := keysList_state U V o s
    cases hm : keysList U V o s with
    | stop oc s' =>
      rw [hm] at h l1 l2
      have : r = .stop oc s' := by simpa [andThen] using h.symm
      subst this
      exact ⟨by rw [l1]; rfl, [], by rw [l2]; simp [Course.state], by simp⟩
    | go s' =>
      rw [hm] at h l1 l2
      rw [andThen_go, Option.some.injEq] at h
      subst h
      obtain ⟨a, l, b, c⟩ := outputStep_state V.outputW o.type V.render o.output (s'.k.inst.keys.filter (keyFilter U V.now o.filter)) s' hf
      refine ⟨by rw [a]; exact congrFun l1 f, l, ?_, c⟩
      rw [b]
      exact congrArg (· ++ l) l2

/-- opening touches no file -/
theorem openStore_state {C : Codec} {E : PwEnv} {W : World} {a : Access} {file : List Nat} {disk : Disk} {c : Course} (h : openStore C E W a file disk = some c) :
    c.state.disk = disk ∧ c.state.touched = [] := by
  rcases openStore_cases h with ⟨oc, k, -, rfl⟩ | ⟨k, -, -, -, rfl⟩ <;> exact ⟨rfl, rfl⟩

/-- a section that does nothing -/
theorem andThen_skip {r : Option Course} {f : Cmd → Option Course} (h : ∀ s, f s = some (.go s)) : andThen r f = r := by
  rcases r with _ | ⟨s⟩ | ⟨o, s⟩
  · rfl
  · exact h s
  · rfl

end K431
