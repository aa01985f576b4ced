import Verif.RunLemmas
import Verif.PropsTraffic

/-! # Helper lemmas: commands that write the store -/

namespace K431
open Spec

/-- what is stored in a file depends on this file only -/
theorem stored_congr {C : Codec} {d d' : Disk} {path key : List Nat} {i : Inst} (h : d' path = d path) (hs : Stored C d path key i) : Stored C d' path key i := by
  intro E W k hb hr hk
  obtain ⟨k', hl, hsame⟩ := hs E W k hb hr hk
  obtain ⟨p, -, c, -, hp, hc, -⟩ := load_ok hl
  rw [hr.path] at hp
  cases hp
  have hne : d path ≠ none := by rw [hc]; simp
  refine ⟨k', ?_, hsame⟩
  rw [← hl, load_key hr hk hne, load_key hr hk (by rw [h]; exact hne)]
  unfold loadRead
  dsimp only
  rw [h]

/-- the keepers of generated keys -/
theorem generateLoop_keepers {U : Unicode} {now : Nat → Int} {expire : Int} {keepers : List Runes} : ∀ {n : Nat} {inst inst' : Inst} {t t' : Tape},
    generateLoop U now expire keepers n inst t = some (inst', t') → ∃ new, inst'.keys = inst.keys ++ new ∧
    ∀ k ∈ new, k.names.Perm ((vettedKeepers U keepers).eraseP (fun n => decide (SameFold U inst.callSign n))) := by
  intro n
  induction n with
  | zero =>
    intro inst inst' t t' h
    simp only [generateLoop, Option.some.injEq, Prod.mk.injEq] at h
    exact ⟨[], by simp [h.1], by simp⟩
  | succ n ih =>
    intro inst inst' t t' h
    simp only [generateLoop] at h
    rcases hk : newKey U (now n) expire keepers inst t with _ | ⟨k, inst1, t1⟩
    · rw [hk] at h; cases h
    rw [hk] at h
    dsimp only at h
    have p1 := (C25_partial _ _ _ _ _ _ _ _ _ hk).1
    obtain ⟨e1, _⟩ := newKey_spec hk
    obtain ⟨new, e2, hn⟩ := ih h
    rw [e1] at e2 hn
    refine ⟨k :: new, by rw [e2]; simp, ?_⟩
    intro x hx
    rcases List.mem_cons.1 hx with rfl | hx
    · exact p1
    · exact hn x hx

theorem generateKeys_keepers {U : Unicode} {now : Nat → Int} {start n : Int} {expire : Option (Outcome Int)} {keepers : List Runes} {inst inst' : Inst} {t t' : Tape}
    (h : generateKeys U now start n expire keepers inst t = some (.ok (), inst', t')) {new : List Key} (he : inst'.keys = inst.keys ++ new) :
    ∀ k ∈ new, k.names.Perm ((vettedKeepers U keepers).eraseP (fun n => decide (SameFold U inst.callSign n))) := by
  unfold generateKeys at h
  split at h
  · rename_i e _
    rcases hl : generateLoop U now e keepers n.toNat inst t with _ | ⟨i1, t1⟩
    · rw [hl] at h; cases h
    · rw [hl] at h
      simp only [Option.map_some, Option.some.injEq, Prod.mk.injEq] at h
      obtain ⟨-, rfl, rfl⟩ := h
      obtain ⟨new', e', hn⟩ := generateLoop_keepers hl
      rw [he] at e'
      have := List.append_cancel_left e'
      subst this
      exact hn
  all_goals simp at h

/-- saving an opened store, and what follows -/
theorem saved_then {C : Codec} (hC : C.Lawful) {E : PwEnv} {W : World} {s : Cmd} {path key : List Nat} {rest : Option Course → Option Course} {r : Course} (hr : Reads W s.k path)
    (hk : s.k.pfk = some key) (hl : key.length = 32) (ho : s.k.overwrite = true) (hroom : W.room = none)
    (hrest : ∀ {c r}, rest (some c) = some r → r.state.disk path = c.state.disk path)
    (h0 : s.k.inst.groupSize ≠ 0) (h1 : s.k.inst.keyLength ≠ 0) (h2 : s.k.inst.columns ≠ 0) (h3 : s.k.inst.keyColumns ≠ 0)
    (h : rest (saveStep C E W s) = some r) : Stored C r.state.disk path key s.k.inst := by
  obtain ⟨s', hd, -, -, -, -, hs⟩ := saveStep_done hC (E := E) hr hk hl ho hroom
  rw [hd] at h
  exact stored_congr (hrest h) (hs h0 h1 h2 h3)

/-! ## Messages from station to station -/

theorem callChar_upper {U : Unicode} (hU : U.Lawful) {c : Rune} (h : CallChar c) : U.toUpper c = if 97 ≤ c ∧ c ≤ 122 then c - 32 else c := by
  rcases h with h | h | h | h
  · have hm : c ∈ capitals := by
      have : ∀ n : Fin 26, (65 + (n.val : Int)) ∈ capitals := by decide
      have := this ⟨(c - 65).toNat, by omega⟩
      simp only at this
      rwa [show (65 + (((c - 65).toNat : Nat) : Int)) = c from by omega] at this
    rw [(hU.capital c hm).2.2.1, if_neg (by omega)]
  · have hm : c ∈ smalls := by
      have : ∀ n : Fin 26, (97 + (n.val : Int)) ∈ smalls := by decide
      have := this ⟨(c - 97).toNat, by omega⟩
      simp only at this
      rwa [show (97 + (((c - 97).toNat : Nat) : Int)) = c from by omega] at this
    rw [(hU.small c hm).2.2.1, if_pos h]
  · have hm : c ∈ neutrals := by
      have : ∀ n : Fin 10, (48 + (n.val : Int)) ∈ neutrals := by decide
      have := this ⟨(c - 48).toNat, by omega⟩
      simp only at this
      rwa [show (48 + (((c - 48).toNat : Nat) : Int)) = c from by omega] at this
    rw [(hU.neutral c hm).2.2.1, if_neg (by omega)]
  · subst h
    have hm : (47 : Int) ∈ neutrals := by decide
    rw [(hU.neutral 47 hm).2.2.1, if_neg (by omega)]

/-- call-signs in capitals -/
theorem station_upper {U : Unicode} (hU : U.Lawful) {w : Runes} (h0 : w ≠ []) (hw : ∀ c ∈ w, CallChar c) (hd : ¬ IsDe w) : Station (w.map U.toUpper) := by
  refine ⟨by simpa using h0, ?_, ?_⟩
  · intro c hc
    obtain ⟨a, ha, rfl⟩ := List.mem_map.1 hc
    rw [callChar_upper hU (hw a ha)]
    have := hw a ha
    unfold CallChar at this
    unfold CapitalCallChar
    split <;> omega
  · rintro ⟨d, e, he, h1, h2⟩
    apply hd
    match w, he, hw with
    | [x, y], he, hw =>
      simp only [List.map_cons, List.map_nil, List.cons.injEq, and_true] at he
      obtain ⟨rfl, rfl⟩ := he
      have hx := hw x (by simp)
      have hy := hw y (by simp)
      rw [callChar_upper hU hx] at h1
      rw [callChar_upper hU hy] at h2
      refine ⟨x, y, rfl, ?_, ?_⟩
      · split at h1 <;> omega
      · split at h2 <;> omega
    | [], he, _ => simp at he
    | [_], he, _ => simp at he
    | _ :: _ :: _ :: _, he, _ => simp at he

/-- trying to decipher changes nothing but keys -/
theorem tryDecipher_frame {U : Unicode} {f : Runes} {dry : Bool} {inst inst' : Inst} {m m' : Msg} {o : Outcome Unit}
    (h : tryDecipher U f dry inst m = (o, inst', m')) : ∃ nx, inst' = { inst with keys := inst'.keys, nextAddr := nx } := by
  unfold tryDecipher at h
  dsimp only at h
  repeat' split at h
  all_goals first
    | (cases h; exact ⟨_, rfl⟩)
    | skip
  all_goals
    rename_i hd
    cases h
    obtain ⟨-, -, keys', e⟩ := decipher_fail hd
    rw [e]
    exact ⟨_, rfl⟩

/-- a new message is appended; nothing but keys changes -/
theorem newRun_frame {U : Unicode} {noise : Nat → Rune} {R : RadioEnv} {f : Runes} {inst inst' : Inst} {args : List Runes} {t t' : Tape} {m : Msg}
    (h : newTextMessageRun U noise R f inst args t = some ((.ok m, inst'), t')) :
    ∃ nx, inst' = { inst with keys := inst'.keys, messages := inst.messages ++ [m], nextAddr := nx } := by
  have hcase : ∀ {parse : Runes → Outcome Msg}, newTextMessage U noise f parse inst args = (.ok m, inst') →
      ∃ nx, inst' = { inst with keys := inst'.keys, messages := inst.messages ++ [m], nextAddr := nx } := by
    intro parse hn
    have := newTextMessage_cases hn
    generalize ho : (Outcome.ok m : Outcome Msg) = oc at this
    cases this with
    | failed hne => exact absurd ho.symm (hne m)
    | own _ _ _ hc he =>
      cases ho
      obtain ⟨e, -⟩ := encipher_ok_messages he
      rcases hc with ⟨-, -, rfl⟩ | ⟨_, _, _, -, -, rfl⟩ <;> rw [e] <;> exact ⟨_, rfl⟩
    | other _ _ _ _ ht =>
      cases ho
      obtain ⟨nx, e⟩ := tryDecipher_frame ht
      rw [e]
      exact ⟨nx, rfl⟩
  unfold newTextMessageRun at h
  split at h
  · simp only [Option.some.injEq, Prod.mk.injEq] at h
    exact hcase h.1
  · split at h
    · cases h
    · simp only [Option.some.injEq, Prod.mk.injEq] at h
      exact hcase h.1

theorem writeOutput_printed (W : World) (file body : List Nat) (s : Cmd) : (writeOutput W file body s).state.printed = s.printed := by
  unfold writeOutput
  split
  · rfl
  · dsimp only
    split <;> split <;> rfl

theorem outputStep_printed {α : Type} (W : World) (type : Option (List Nat)) (render : OutKind → List α → Option (List Nat)) (file : Option (List Nat))
    (items : List α) (s : Cmd) : (outputStep W type render file items s).state.printed = s.printed := by
  unfold outputStep
  repeat' split
  all_goals first
    | rfl
    | exact writeOutput_printed _ _ _ _

/-- listing and printing messages, after the message has been saved -/
def showMessages (U : Unicode) (V : MsgsEnv) (o : MsgsCmd) (c : Option Course) : Option Course :=
  andThen (andThen c (fun s => some (messagesList U V o s)))
    (fun s => some (outputStep V.outputW o.type V.render o.output (s.k.inst.messages.filter (msgFilter U o.filter)) s))

theorem messagesList_sent (U : Unicode) (V : MsgsEnv) (o : MsgsCmd) (s : Cmd) : (messagesList U V o s).sent = (Course.go s).sent := by
  unfold messagesList
  dsimp only
  repeat' split
  all_goals
    first
    | rfl
    | simp [Course.sent, Course.state, listingOf]

theorem showMessages_sent {U : Unicode} {V : MsgsEnv} {o : MsgsCmd} {c r : Course} (h : showMessages U V o (some c) = some r) : r.sent = c.sent := by
  unfold showMessages at h
  cases c with
  | stop oc s => simp only [andThen, Option.some.injEq] at h; rw [← h]
  | go s =>
    rw [andThen_go] at h
    have hl := messagesList_sent U V o s
    cases hm : messagesList U V o s with
    | stop oc s' =>
      rw [hm] at h hl
      simp only [andThen, Option.some.injEq] at h
      rw [← h]; exact hl
    | go s' =>
      rw [hm] at h hl
      rw [andThen_go, Option.some.injEq] at h
      rw [← h]; exact (sent_congr (c := .go s') (outputStep_printed _ _ _ _ _ _)).trans hl

theorem showMessages_some (U : Unicode) (V : MsgsEnv) (o : MsgsCmd) (c : Course) : ∃ r, showMessages U V o (some c) = some r := by
  unfold showMessages
  cases c with
  | stop oc s => exact ⟨_, rfl⟩
  | go s =>
    rw [andThen_go]
    cases messagesList U V o s <;> exact ⟨_, rfl⟩

/-- `messages --new` on a file that can be loaded -/
theorem newCommand_eq {C : Codec} {E : PwEnv} {U : Unicode} {V : MsgsEnv} {o : MsgsCmd} {disk : Disk} {k : Krypto} (hdel : o.delete = false) (hnew : o.new = true)
    (hp : (prepared E o.access o.file).1 = .ok ()) (hl : load C E V.loadW disk (prepared E o.access o.file).2 = some (.ok (), k)) :
    messagesCommand C E U V o disk = showMessages U V o (messagesNew C E U V o ⟨disk, k, [], []⟩) := by
  unfold messagesCommand showMessages
  rw [if_neg (by simp [MsgsCmd.any, hnew]), openStore_ok hp hl, andThen_skip (f := messagesDelete C E U V o) (fun s => by unfold messagesDelete; rw [hdel]; rfl), andThen_go]

theorem newCommand_ok {C : Codec} {E : PwEnv} {U : Unicode} {V : MsgsEnv} {o : MsgsCmd} {s : Cmd} (hnew : o.new = true) {rad : Runes} (hrad : V.radiogram = some rad)
    {m : Msg} {inst' : Inst} {t' : Tape} (hrun : newTextMessageRun U V.wipeNoise V.radio V.freshId s.k.inst [rad] V.tape = some ((.ok m, inst'), t')) :
    messagesNew C E U V o s = saveStep C E V.newW { s with k := { s.k with inst := inst' }, printed := s.printed ++ [.message m] } := by
  unfold messagesNew
  rw [if_pos hnew, hrad]
  dsimp only
  rw [hrun]

/-- `messages --new` either saves and prints a message or stops -/
theorem newCommand_cases {C : Codec} {E : PwEnv} {U : Unicode} {V : MsgsEnv} {o : MsgsCmd} {disk : Disk} {r : Course} {k : Krypto} (hdel : o.delete = false) (hnew : o.new = true)
    (hp : (prepared E o.access o.file).1 = .ok ()) (hl : load C E V.loadW disk (prepared E o.access o.file).2 = some (.ok (), k))
    (h : messagesCommand C E U V o disk = some r) :
    (r.outcome ≠ .ok () ∧ r.state.disk = disk ∧ r.state.touched = [] ∧ r.state.printed = []) ∨
    ∃ rad inst' m t' c, V.radiogram = some rad ∧ newTextMessageRun U V.wipeNoise V.radio V.freshId k.inst [rad] V.tape = some ((.ok m, inst'), t') ∧
      saveStep C E V.newW ⟨disk, { k with inst := inst' }, [], [.message m]⟩ = some c ∧ showMessages U V o (some c) = some r ∧ r.sent = [m] := by
  rw [newCommand_eq hdel hnew hp hl] at h
  rcases hrad : V.radiogram with _ | rad
  · left
    have : messagesNew C E U V o ⟨disk, k, [], []⟩ = some (.stop (.err .other) ⟨disk, k, [], []⟩) := by unfold messagesNew; rw [if_pos hnew, hrad]
    rw [this] at h
    simp only [showMessages, andThen, Option.some.injEq] at h
    subst h
    exact ⟨by simp [Course.outcome], rfl, rfl, rfl⟩
  rcases hrun : newTextMessageRun U V.wipeNoise V.radio V.freshId k.inst [rad] V.tape with _ | ⟨⟨om, inst'⟩, t'⟩
  · have : messagesNew C E U V o ⟨disk, k, [], []⟩ = none := by
      unfold messagesNew; rw [if_pos hnew, hrad]; dsimp only; rw [hrun]
    rw [this] at h
    cases h
  rcases om with m | e | _
  · right
    rw [newCommand_ok (s := ⟨disk, k, [], []⟩) hnew hrad hrun] at h
    rcases hs : saveStep C E V.newW ⟨disk, { k with inst := inst' }, [], [.message m]⟩ with _ | c
    · have hs' : saveStep C E V.newW { (⟨disk, k, [], []⟩ : Cmd) with k := { k with inst := inst' }, printed := [] ++ [.message m] } = none := hs
      rw [hs'] at h; cases h
    · have hs' : saveStep C E V.newW { (⟨disk, k, [], []⟩ : Cmd) with k := { k with inst := inst' }, printed := [] ++ [.message m] } = some c := hs
      rw [hs'] at h
      refine ⟨rad, inst', m, t', c, rfl, hrun, hs, h, ?_⟩
      rw [showMessages_sent h]
      obtain ⟨q, -, e⟩ := saveStep_some hs
      exact sent_of (by rw [e, check_state]; rfl)
  all_goals
    left
    have : ∃ oc i, oc ≠ .ok () ∧ messagesNew C E U V o ⟨disk, k, [], []⟩ = some (.stop oc ⟨disk, { k with inst := i }, [], []⟩) := by
      unfold messagesNew
      rw [if_pos hnew, hrad]
      dsimp only
      rw [hrun]
      exact ⟨_, _, by simp, rfl⟩
    obtain ⟨oc, i, ho, this⟩ := this
    rw [this] at h
    simp only [showMessages, andThen, Option.some.injEq] at h
    subst h
    exact ⟨ho, rfl, rfl, rfl⟩

/-- the time does not matter for the other parts of a radiogram -/
theorem parse_anytime {U : Unicode} {R : RadioEnv} {msgs : List Msg} {rad : Runes} {t t' : Tape} {p : Msg} (h : parseRadiogram U R msgs rad t = some (.ok p, t')) :
    (∃ id, newUniqueMessageId msgs t = some (id, t')) ∧ parseRadiogram U ⟨R.unbreak, fun _ => .ok p.dtg, p.dtg⟩ msgs rad t = some (.ok p, t') := by
  unfold parseRadiogram at h ⊢
  dsimp only at h ⊢
  rcases hid : newUniqueMessageId msgs t with _ | ⟨id, t1⟩
  · rw [hid] at h; cases h
  rw [hid] at h
  dsimp only at h ⊢
  rcases hf : firstMatch (R.unbreak rad) [regexpFull, regexpSemi, regexpShort, regexpMini] with _ | caps
  · rw [hf] at h; simp at h
  rw [hf] at h
  dsimp only at h ⊢
  rw [ite_self]
  split at h
  · simp at h
  · simp at h
  · simp only [Option.some.injEq, Prod.mk.injEq, Outcome.ok.injEq] at h
    obtain ⟨rfl, rfl⟩ := h
    exact ⟨⟨_, rfl⟩, rfl⟩

/-- the parts of a radiogram in the short form, if it is accepted -/
theorem parse_short {U : Unicode} (hU : U.Lawful) {R : RadioEnv} {msgs : List Msg} {rad : Runes} {t t' : Tape} {p : Msg}
    {names : List Runes} {sender text body : Runes} {dtg instr count : Option Runes}
    (hform : ShortForm (R.unbreak rad) names sender dtg instr count text) (hend : Ended U.isSpace text body)
    (hzone : ∀ w ∈ dtg, ∃ day zone month year, DtgWord w day zone month year ∧ (zone ≠ [] ∨ month = []))
    (h : parseRadiogram U R msgs rad t = some (.ok p, t')) :
    p.recipients = names.map (fun n => n.map U.toUpper) ∧ p.from_ = sender.map U.toUpper ∧ p.plainText = body ∧ p.keyId = Sl.nil := by
  obtain ⟨⟨id, hid⟩, hany⟩ := parse_anytime h
  have := (C68_partial (E := ⟨R.unbreak, fun _ => .ok p.dtg, p.dtg⟩) hU hform hend hzone hid).1 p.dtg (fun _ => rfl) (fun _ _ => rfl)
  rw [hany] at this
  simp only [Option.some.injEq, Prod.mk.injEq, Outcome.ok.injEq, and_true] at this
  rw [this]
  exact ⟨rfl, rfl, rfl, rfl⟩

/-- a message that is enciphered -/
theorem newRun_own {U : Unicode} {noise : Nat → Rune} {R : RadioEnv} {f : Runes} {inst inst' : Inst} {rad : Runes} {t t' : Tape} {m : Msg}
    (h : newTextMessageRun U noise R f inst [rad] t = some ((.ok m, inst'), t')) :
    ∃ p, parseRadiogram U R inst.messages rad t = some (.ok p, t') ∧
      (SameFold U p.from_ inst.callSign → ∃ inst2, encipher U noise f inst p = (.ok (), inst2, m)) := by
  unfold newTextMessageRun at h
  dsimp only at h
  rcases hp : parseRadiogram U R inst.messages rad t with _ | ⟨op, t1⟩
  · rw [hp] at h; cases h
  rw [hp] at h
  simp only [Option.some.injEq, Prod.mk.injEq] at h
  obtain ⟨h, rfl⟩ := h
  have hc := newTextMessage_cases h
  generalize ho : (Outcome.ok m : Outcome Msg) = oc at hc
  cases hc with
  | failed hne => exact absurd ho.symm (hne m)
  | own ha hpar hmy hc he =>
    cases ho
    cases ha
    rcases hc with ⟨-, rfl, rfl⟩ | ⟨_, _, _, e, -⟩
    · subst hpar
      exact ⟨_, rfl, fun _ => ⟨_, he⟩⟩
    · cases e
  | other ha hpar hmy hc ht =>
    cases ho
    cases ha
    subst hpar
    refine ⟨_, rfl, ?_⟩
    intro hs
    have : isMyCall U inst _ = true := (equalRunesFold_iff U _ _).2 hs
    rw [hmy] at this
    cases this

/-- the pads of a message of one's own -/
theorem newPads_eq {U : Unicode} {V : MsgsEnv} {inst : Inst} {rad : Runes} {p : Msg} {t' : Tape} (hrad : V.radiogram = some rad)
    (hpar : parseRadiogram U V.radio inst.messages rad V.tape = some (.ok p, t')) (hown : SameFold U p.from_ inst.callSign) :
    newPads U V inst = (match (encipherT U V.wipeNoise V.freshId inst p).1 with | .ok chunks => padsOf inst.keys chunks | _ => []) := by
  have hmy : isMyCall U inst p = true := (equalRunesFold_iff U _ _).2 hown
  unfold newPads
  rw [hrad]
  dsimp only
  rw [hpar]
  simp only [handed, hmy, if_true]
  cases (encipherT U V.wipeNoise V.freshId inst p).1 <;> rfl

/-- whoever deciphers a message that has been received marks its pads -/
theorem received_marks {U : Unicode} (hU : U.Lawful) {noise : Nat → Rune} {f f' : Runes} {inst inst' rcv rcv1 : Inst} {p m q msg : Msg}
    (henc : encipher U noise f inst p = (.ok (), inst', m)) (hg : rcv.groupSize = inst.groupSize) (hws : WellFormed inst.keys) (hwf : WellFormed rcv.keys)
    (hholds : HoldsPads inst.groupSize inst.keys p.recipients p.keyId.val rcv.keys) (hk : msg.keyId.val = m.keyId.val) (hc : msg.cipherText = m.cipherText)
    (hdec : tryDecipher U f' false rcv q = (.ok (), rcv1, msg)) {id : Runes}
    (hid : id ∈ (match (encipherT U noise f inst p).1 with | .ok chunks => padsOf inst.keys chunks | _ => [])) :
    ∃ x ∈ rcv1.keys, x.id.val = id ∧ x.used = true := by
  obtain ⟨chunks, hT⟩ : ∃ chunks, encipherT U noise f inst p = (.ok chunks, inst', m) := by
    unfold encipher at henc
    rcases h : encipherT U noise f inst p with ⟨c | e | _, a, b⟩ <;> rw [h] at henc <;> simp at henc
    exact ⟨c, by rw [henc.1, henc.2]⟩
  rw [hT] at hid
  dsimp only at hid
  obtain ⟨inst1, m1, i, s, out, e⟩ := encipherT_ok hT
  obtain ⟨-, w, i2, k2, -, -, -, -, hd⟩ := tryDecipher_ok hdec
  obtain ⟨-, hm', -⟩ := decipher_fail hd
  exact reading_marks hU hT (rcv := { rcv with nextAddr := rcv.nextAddr + 1 }) hg hws hwf (by
      intro ch hch k hk0 l hl he
      obtain ⟨k1, hk1, kr, h1, h2, h3⟩ := (e.heldPads hU hholds).1 ch hch
      rw [hk0] at hk1
      cases hk1
      obtain ⟨a, ha⟩ := List.mem_iff_getElem?.1 hl
      obtain ⟨b, hb⟩ := List.mem_iff_getElem?.1 h1
      have := hwf.inj ha hb (by rw [h2, he])
      subst this
      rw [ha] at hb
      cases hb
      exact h3.symm) (by rw [← hk, hm']; simp [(withId_fields f' _).2.2.1]) (by rw [← hc, hm']; simp [(withId_fields f' _).2.2.2]) hd id hid

end K431
