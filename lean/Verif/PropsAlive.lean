import Verif.TalkLemmas
import Verif.PropsTalk
import Verif.PropsEncipher
import Verif.PropsLength

/-!
# What is entered is enciphered (C84)

The other properties of `messages --new` say what holds if a message is printed.  Here: when one is.
-/

namespace K431
open Spec

/-! ## Lemmas -/

theorem available_same {g : Nat} {r : List Runes} {a b : List Key} (h : List.Forall₂ SameKey a b) : available g r a = available g r b := by
  unfold available
  induction h with
  | nil => rfl
  | @cons x y _ _ hxy _ ih =>
    have : Selectable g r x ↔ Selectable g r y := ⟨hxy.selectable, hxy.symm.selectable⟩
    have hc : capacity g x = capacity g y := by unfold capacity; rw [hxy.runes]
    simp only [List.map_cons, List.sum_cons, ih, this, hc]

theorem EnoughKeys.same {g : Nat} {r : List Runes} {a b : List Key} {text : Runes} (h : EnoughKeys g r b text) (e : List.Forall₂ SameKey a b) : EnoughKeys g r a text := by
  have hall : ∀ {P : Nat → Prop}, (∀ k ∈ b, Selectable g r k → P k.runes.length) → ∀ k ∈ a, Selectable g r k → P k.runes.length := by
    intro P H x hx hs
    obtain ⟨y, hy, hxy⟩ := forall₂_left e x hx
    rw [hxy.runes]
    exact H y hy (hxy.selectable hs)
  rcases h with ⟨h1, h2, h3⟩ | ⟨h1, ⟨y, hy, hs⟩, h3⟩
  · exact .inl ⟨h1, hall (P := fun n => g + 3 ≤ n) h2, by rw [available_same e]; exact h3⟩
  · obtain ⟨x, hx, hxy⟩ := forall₂_right e y hy
    exact .inr ⟨h1, ⟨x, hx, hxy.symm.selectable hs⟩, hall (P := fun n => 4 * text.length ≤ n - g - 2) h3⟩

/-- one's own message is enciphered if the keys suffice -/
theorem newRun_alive {U : Unicode} (hU : U.Lawful) (noise : Nat → Rune) {R : RadioEnv} (f : Runes) {inst : Inst} {rad : Runes} {t t' : Tape} {id : Runes}
    {names : List Runes} {sender text body : Runes} {dtg instr count : Option Runes}
    (hform : ShortForm (R.unbreak rad) names sender dtg instr count text) (hend : Ended U.isSpace text body)
    (hzone : ∀ w ∈ dtg, ∃ day zone month year, DtgWord w day zone month year ∧ (zone ≠ [] ∨ month = []))
    (hid : newUniqueMessageId inst.messages t = some (id, t')) (hdtg : ∀ w ∈ dtg, ∃ time, R.dtgParse (w.map U.toUpper) = .ok time)
    (hown : SameFold U (sender.map U.toUpper) inst.callSign) (hg : inst.groupSize ≠ 0) (hwf : WellFormed inst.keys) (hletters : ∀ k ∈ inst.keys, ∀ c ∈ k.runes, IsLetter c)
    (henough : EnoughKeys inst.groupSize (names.map (fun n => n.map U.toUpper)) inst.keys body) :
    ∃ m inst', newTextMessageRun U noise R f inst [rad] t = some ((.ok m, inst'), t') ∧ m.plainText = body ∧ m.from_ = sender.map U.toUpper ∧
      m.recipients = names.map (fun n => n.map U.toUpper) ∧ m.cipherText.length < (inst.groupSize + 6) * body.length + inst.groupSize := by
  obtain ⟨time, h1, h2⟩ : ∃ time, (dtg = none → time = R.now) ∧ ∀ w ∈ dtg, R.dtgParse (w.map U.toUpper) = .ok time := by
    cases dtg with
    | none => exact ⟨R.now, fun _ => rfl, by simp⟩
    | some w =>
      obtain ⟨time, h⟩ := hdtg w rfl
      exact ⟨time, by simp, fun w' hw' => by cases hw'; exact h⟩
  have hpar := (C68_partial hU hform hend hzone hid).1 time h1 h2
  generalize hp : (⟨id, names.map (fun n => n.map U.toUpper), sender.map U.toUpper, time, Sl.nil, body, [], R.unbreak rad⟩ : Msg) = p at hpar
  have p1 : p.recipients = names.map (fun n => n.map U.toUpper) := by rw [← hp]
  have p2 : p.from_ = sender.map U.toUpper := by rw [← hp]
  have p3 : p.plainText = body := by rw [← hp]
  have p4 : p.keyId = Sl.nil := by rw [← hp]
  have p5 : p.cipherText = [] := by rw [← hp]
  obtain ⟨-, c2, c3⟩ := C17_partial U hU noise f inst p hg hwf hletters (by rw [p3]; exact hend.some) (by rw [p4]; rfl) p5
  have hok : (encipher U noise f inst p).1 = .ok () := by
    rw [p1, p3] at c2 c3
    rcases henough with ⟨a, b, c⟩ | ⟨a, b, c⟩
    · exact c2 a b c
    · exact c3 a b c
  rcases henc : encipher U noise f inst p with ⟨o, inst2, m⟩
  rw [henc] at hok
  subst hok
  have hmy : isMyCall U inst p = true := (equalRunesFold_iff U _ _).2 (by rw [p2]; exact hown)
  obtain ⟨-, hm⟩ := encipher_ok_messages henc
  have hlen := (C85 hU henc).2.2
  rw [p3] at hlen
  refine ⟨m, { inst2 with messages := inst2.messages ++ [m] }, ?_, ?_, ?_, ?_, hlen⟩
  · unfold newTextMessageRun
    dsimp only
    rw [hpar]
    dsimp only
    unfold newTextMessage
    dsimp only
    rw [if_pos hmy]
    rw [if_neg (by simp)]
    dsimp only
    rw [henc]
  · rw [← p3, hm]; unfold withId; split <;> rfl
  · rw [← p2, hm]; unfold withId; split <;> rfl
  · rw [← p1, hm]; unfold withId; split <;> rfl

/-! ## C84 -/

/-- **C84**.  The file of a station can be read and written, and its pads consist of letters.  The station enters a radiogram of its own in the short form, whose date-time group, if any, is accepted, and
whose text the keys suffice for.  Then `messages --new`, if it finds a message id, prints a message with this text, sender and these recipients, and the file holds this message behind the former ones;
without `--list` and `--output` the command succeeds.  The ciphertext is shorter than six letters and a group for each character, and a group (C85). -/
theorem C84_made {C : Codec} (hC : C.Lawful) {U : Unicode} (hU : U.Lawful) {g : Nat} {s : Side} {E : PwEnv} {V : MsgsEnv} {o : MsgsCmd} {disk : Disk} {r : Course} {i : Inst} {entered : Runes}
    (hs : Stored C disk s.path s.key i) (hok : SideOk g s i) (hletters : ∀ k ∈ i.keys, ∀ c ∈ k.runes, IsLetter c) (hen : Enters C E U s V o disk entered r)
    {names : List Runes} {sender text body : Runes} {dtg instr count : Option Runes}
    (hform : ShortForm (V.radio.unbreak entered) names sender dtg instr count text) (hend : Ended U.isSpace text body)
    (hzone : ∀ w ∈ dtg, ∃ day zone month year, DtgWord w day zone month year ∧ (zone ≠ [] ∨ month = []))
    (hdtg : ∀ w ∈ dtg, ∃ time, V.radio.dtgParse (w.map U.toUpper) = .ok time) (hown : SameFold U (sender.map U.toUpper) s.call)
    (henough : EnoughKeys g (names.map (fun n => n.map U.toUpper)) i.keys body) :
    ∃ m, r.sent = [m] ∧ m.plainText = body ∧ m.from_ = sender.map U.toUpper ∧ m.recipients = names.map (fun n => n.map U.toUpper) ∧
      (∃ i', Stored C r.state.disk s.path s.key i' ∧ i'.messages = i.messages ++ [m]) ∧ (o.list = false → o.output = none → r.outcome = .ok ()) ∧
      m.cipherText.length < (g + 6) * body.length + g := by
  obtain ⟨k, hl, hk1, hk2, hk3⟩ := opens_load hen.access hs
  obtain ⟨id, t', hid⟩ := command_id hen.keep hen.new hen.access.access hl hen.entered hen.run
  have hki := hok.same hk1
  obtain ⟨m, inst', hrun, m1, m2, m3, m4⟩ := newRun_alive hU V.wipeNoise V.freshId hform hend hzone hid hdtg (by rw [hki.call]; exact hown) hki.settings.1 hki.keys
    (by
      intro x hx c hc
      obtain ⟨y, hy, hxy⟩ := forall₂_left hk1.keys x hx
      rw [hxy.runes] at hc
      exact hletters y hy c hc) (by rw [hki.size]; exact henough.same hk1.keys)
  have hrd := writes_reads hen.writes hk2
  obtain ⟨s', hsave, -, hpr, -⟩ := saveStep_done hC (E := E) (W := V.newW) (s := ⟨disk, { k with inst := inst' }, [], [.message m]⟩)
    (path := s.path) (key := s.key) ⟨hrd.named, hrd.path, hrd.stat, hrd.opens⟩ hk3 hok.key (prepared_opened hl).overwrite hen.writes.room
  have hn := newCommand_ok (C := C) (E := E) (s := ⟨disk, k, [], []⟩) hen.new hen.entered hrun
  have hsave' : saveStep C E V.newW { (⟨disk, k, [], []⟩ : Cmd) with k := { k with inst := inst' }, printed := [] ++ [.message m] } = some (.go s') := hsave
  have hrun' := hen.run
  rw [newCommand_eq hen.keep hen.new hen.access.access hl, hn, hsave'] at hrun'
  obtain ⟨-, hst⟩ := newCommand_stored hC hrun hl hki.settings.1 hsave hrun' hrd hen.writes.room hk3 hok.key hki.settings.2.1 hki.settings.2.2.1 hki.settings.2.2.2 hen.output
  refine ⟨m, ?_, m1, m2, m3, ⟨{ k.inst with keys := inst'.keys, messages := i.messages ++ [m] }, ?_, rfl⟩, ?_, by rw [← hki.size]; exact m4⟩
  · rw [showMessages_sent hrun']; exact sent_of hpr
  · refine hst.same (SameStore.symm ?_)
    exact ⟨rfl, rfl, rfl, rfl, rfl, List.forall₂_same.2 (fun x _ => ⟨rfl, rfl, rfl, rfl, rfl, rfl, rfl, rfl⟩),
      List.rel_append hk1.messages (.cons ⟨rfl, rfl, rfl, rfl, rfl, rfl, rfl, rfl⟩ .nil)⟩
  · intro hli hou
    unfold showMessages at hrun'
    rw [andThen_go] at hrun'
    have : messagesList U V o s' = .go s' := by unfold messagesList; rw [hli]; rfl
    rw [this, andThen_go, hou] at hrun'
    cases hrun'
    rfl

/-- **C84** for two stations whose stores hold each other's pads (C83): a radiogram that one enters for the other, with a text that the keys suffice for, gets there: once the printed traffic is entered,
both files hold the text behind those before.  The traffic must have less than ten thousand groups (C69); that it has if the text has not more than 9997/(1 + 6/g) characters. -/
theorem C84_arrives {C : Codec} (hC : C.Lawful) {U : Unicode} (hU : U.Lawful) {g : Nat} {s t : Side} {E E' : PwEnv} {V V' : MsgsEnv} {o o' : MsgsCmd} {d d' : Disk} {r : Course} {i j : Inst} {entered : Runes}
    (h : Linked C U g s t d d' i j) (hletters : ∀ k ∈ i.keys, ∀ c ∈ k.runes, IsLetter c) (hen : Enters C E U s V o d entered r)
    {names : List Runes} {sender text body : Runes} {dtg instr count : Option Runes}
    (hform : ShortForm (V.radio.unbreak entered) names sender dtg instr count text) (hend : Ended U.isSpace text body)
    (hzone : ∀ w ∈ dtg, ∃ day zone month year, DtgWord w day zone month year ∧ (zone ≠ [] ∨ month = []))
    (hdtg : ∀ w ∈ dtg, ∃ time, V.radio.dtgParse (w.map U.toUpper) = .ok time) (hown : SameFold U (sender.map U.toUpper) s.call)
    (hnames : names.map (fun n => n.map U.toUpper) = [t.call]) (henough : EnoughKeys g [t.call] i.keys body) :
    ∃ m, r.sent = [m] ∧ m.plainText = body ∧
      ∀ (P : PrintEnv) (entered' : Runes) (r' : Course) (time : Int), m.cipherText.length ≤ 9998 * g ∨ (g + 6) * body.length ≤ 9997 * g → PrintedTime (P.date m.dtg) →
        (∀ ws l, InWords (· = 32) ws l → InWords Spec.Blank ws (P.wrap l)) → Enters C E' U t V' o' d' entered' r' →
        SameWords (trafficLine U P g m) (V'.radio.unbreak entered') → V'.radio.dtgParse (P.date m.dtg) = .ok time →
        ∃ i' j', Linked C U g s t r.state.disk r'.state.disk i' j' ∧ i'.messages.map Msg.plainText = i.messages.map Msg.plainText ++ [body] ∧
          j'.messages.map Msg.plainText = j.messages.map Msg.plainText ++ [body] := by
  obtain ⟨m, hpr, hm, -, -, -, -, hshort⟩ := C84_made hC hU h.stored h.ok hletters hen hform hend hzone hdtg hown (by rw [hnames]; exact henough)
  refine ⟨m, hpr, hm, ?_⟩
  intro P entered' r' time hlong' hdate hwrap hen' hwords htime
  have hlong : m.cipherText.length ≤ 9998 * g := by
    rcases hlong' with h | h
    · exact h
    · omega
  have htext : ∀ c ∈ body, c ∈ alphabet := by
    rcases henough with ⟨a, -⟩ | ⟨a, -⟩
    · have : ∀ c ∈ firstTable, c ∈ alphabet := by decide
      exact fun c hc => this c (a c hc)
    · exact a
  have hs : Sends C U g s t d d' body (printedPads C E U V o d) r.state.disk r'.state.disk :=
    .mk (P := P) (time := time) hen ⟨names, sender, dtg, instr, count, text, hform, hend, hzone, hnames, hown⟩ htext hpr hlong hdate hwrap hen' hwords htime
  obtain ⟨-, i', j', h1, -, -, -, -, h2, h3⟩ := sends_step hC hU h hs (pads := []) (by intro p hp; cases hp) (by intro p hp; cases hp) List.nodup_nil
  exact ⟨i', j', h1, h2, h3⟩

/-- what is required of the stations holds of a store in order (C80) -/
theorem C84_order {U : Unicode} (hU : U.Lawful) {s : Side} {i : Inst} (h : InOrder U i) (hcall : i.callSign = s.call) (hkey : s.key.length = 32) :
    SideOk i.groupSize s i ∧ ∀ k ∈ i.keys, ∀ c ∈ k.runes, IsLetter c := by
  obtain ⟨h1, h2, -⟩ := C80_usable hU h
  exact ⟨⟨rfl, hcall, hkey, h1, h2, fun x hx => (h.keys x hx).idLength⟩, fun k hk => (h.keys k hk).letters⟩

/-- not vacuous: SM enters `OP DE SM = HEJ = K` -/
example : ∃ (C : Codec) (E : PwEnv) (r : Course), C.Lawful ∧ Stored C (exRunDisk C) exSM.path exSM.key exStation ∧ SideOk 1 exSM exStation ∧
    (∀ k ∈ exStation.keys, ∀ c ∈ k.runes, IsLetter c) ∧ Enters C E unicode15 exSM exHejEnv exNewCmd (exRunDisk C) (lit "OP DE SM = HEJ = K") r ∧
    ShortForm (exHejEnv.radio.unbreak (lit "OP DE SM = HEJ = K")) [lit "OP"] (lit "SM") none none none (lit " HEJ = K") ∧ Ended unicode15.isSpace (lit " HEJ = K") (lit "HEJ") ∧
    SameFold unicode15 ((lit "SM").map unicode15.toUpper) exSM.call ∧ EnoughKeys 1 [exOP.call] exStation.keys (lit "HEJ") ∧ [lit "OP"].map (fun n => n.map unicode15.toUpper) = [exOP.call] := by
  obtain ⟨C, hC⟩ := exists_lawful
  let E : PwEnv := ⟨fun _ _ => [], fun _ => true⟩
  obtain ⟨k, m, hsent, -⟩ := exHej_sent hC E (disk := exRunDisk C) (set_same _ _ _)
  obtain ⟨r, hr, -⟩ := hsent.prints
  exact ⟨C, E, r, hC, stored_of_dec (by decide) (set_same _ _ _) (hC.right _ _ _ (by decide)) (by decide) (by decide) (by decide) (by decide),
    ⟨rfl, rfl, by decide, by decide, by decide, by decide⟩, by decide,
    ⟨hr, rfl, rfl, exOpens (W := exWorld) rfl rfl rfl E _, ⟨by simp [exSM], rfl, rfl, rfl, rfl⟩, by simp [exNewCmd], rfl⟩, exHej_shortForm, exHej_ended, by decide,
    .inl ⟨by decide, by decide, by decide⟩, by decide⟩

/-- the other case of `EnoughKeys` is possible, too: a digit needs four letters -/
example : EnoughKeys 1 [lit "OP"] [{ exKey 1 "A" "QWERTYUIOP" with keepers := [⟨50, lit "OP"⟩] }] (lit "1") := .inr ⟨by decide, by decide, by decide⟩

end K431
