import Verif.SpecStay
import Verif.OrderLemmas
import Verif.PropsRuns

/-!
# What has been stored stays stored: lemmas
-/

namespace K431
open Spec

/-! ## Stores -/

theorem StillKey.refl (x : Key) : StillKey x x := ⟨rfl, rfl, rfl, rfl, rfl, rfl, rfl, fun h => h⟩

theorem StillKey.trans {x y z : Key} (h1 : StillKey x y) (h2 : StillKey y z) : StillKey x z :=
  ⟨h2.id.trans h1.id, h2.runes.trans h1.runes, h2.keepers.trans h1.keepers, h2.created.trans h1.created, h2.expires.trans h1.expires, h2.compromised.trans h1.compromised,
    h2.comment.trans h1.comment, fun h => h2.used (h1.used h)⟩

theorem StillKey.same {x y : Key} (h : SameKey y x) : StillKey x y :=
  ⟨h.id, h.runes, h.keepers, h.created, h.expires, h.compromised, h.comment, fun e => by rw [h.used]; exact e⟩

theorem StillKey.marked {x y : Key} (h : MarkedSince x y) : StillKey x y := by
  obtain ⟨e, hu⟩ := h
  refine ⟨?_, ?_, ?_, ?_, ?_, ?_, ?_, hu⟩ <;> rw [e]
  rfl

theorem forall₂_at {α β : Type} {R : α → β → Prop} {l : List α} {m : List β} (h : List.Forall₂ R l m) : ∀ (n : Nat) (x : α), l[n]? = some x → ∃ y, m[n]? = some y ∧ R x y := by
  induction h with
  | nil => intro n x h; simp at h
  | cons a _ ih =>
    intro n x h
    cases n with
    | zero => simp at h; subst h; exact ⟨_, rfl, a⟩
    | succ n => simp only [List.getElem?_cons_succ] at h ⊢; exact ih n x h

theorem at_append {α : Type} {l : List α} {n : Nat} {x : α} (m : List α) (h : l[n]? = some x) : (l ++ m)[n]? = some x := by
  obtain ⟨hn, -⟩ := List.getElem?_eq_some_iff.1 h
  rw [List.getElem?_append_left hn]; exact h

theorem Still.refl (i : Inst) : Still i i :=
  ⟨rfl, rfl, rfl, rfl, rfl, fun _ x h => ⟨x, h, .refl x⟩, fun _ m h => ⟨m, h, SameMsg.refl' m⟩⟩

theorem Still.trans {i j k : Inst} (h1 : Still i j) (h2 : Still j k) : Still i k := by
  refine ⟨h2.groupSize.trans h1.groupSize, h2.keyLength.trans h1.keyLength, h2.columns.trans h1.columns, h2.keyColumns.trans h1.keyColumns, h2.callSign.trans h1.callSign, ?_, ?_⟩
  · intro n x hx
    obtain ⟨y, hy, a⟩ := h1.keys n x hx
    obtain ⟨z, hz, b⟩ := h2.keys n y hy
    exact ⟨z, hz, a.trans b⟩
  · intro n x hx
    obtain ⟨y, hy, a⟩ := h1.messages n x hx
    obtain ⟨z, hz, b⟩ := h2.messages n y hy
    exact ⟨z, hz, ⟨b.id.trans a.id, b.recipients.trans a.recipients, b.from_.trans a.from_, b.dtg.trans a.dtg, b.keyId.trans a.keyId, b.plainText.trans a.plainText,
      b.cipherText.trans a.cipherText, b.radiogram.trans a.radiogram⟩⟩

theorem Still.same {i j : Inst} (h : SameStore j i) : Still i j := by
  refine ⟨h.groupSize, h.keyLength, h.columns, h.keyColumns, h.callSign, ?_, ?_⟩
  · intro n x hx
    obtain ⟨y, hy, a⟩ := forall₂_at h.keys.flip n x hx
    exact ⟨y, hy, .same a⟩
  · intro n x hx
    exact forall₂_at h.messages.flip n x hx

/-- keys marked, keys and messages added -/
theorem Still.grow {i j : Inst} {ks new : List Key} {msgs : List Msg} {nx : Nat} (hj : j = { i with keys := ks ++ new, messages := i.messages ++ msgs, nextAddr := nx })
    (hk : List.Forall₂ MarkedSince i.keys ks) : Still i j := by
  subst hj
  refine ⟨rfl, rfl, rfl, rfl, rfl, ?_, ?_⟩
  · intro n x hx
    obtain ⟨y, hy, a⟩ := forall₂_at hk n x hx
    exact ⟨y, at_append new hy, .marked a⟩
  · intro n m hm
    exact ⟨m, at_append msgs hm, SameMsg.refl' m⟩

theorem still_generate {U : Unicode} {now : Nat → Int} {start n : Int} {expire : Option (Outcome Int)} {keepers : List Runes} {i i' : Inst} {t t' : Tape} {o : Outcome Unit}
    (hg : i.groupSize ≠ 0) (h : generateKeys U now start n expire keepers i t = some (o, i', t')) : Still i i' := by
  obtain ⟨h1, h2⟩ := C24_generate U now start n expire keepers i i' t t' o hg h
  by_cases ho : o = .ok ()
  · obtain ⟨new, nx, -, hi, -⟩ := h1 ho
    exact Still.grow (ks := i.keys) (new := new) (msgs := []) (nx := nx) (by rw [hi, List.append_nil]) (markedSince_refl _)
  · rw [h2 ho]; exact .refl i

theorem still_importLoop {U : Unicode} {o : ImportOpts} {filter : Key → Bool} {call : Sl} (ho : o.overwrite = false) (ha : ∀ x, o.answer x ≠ some true) :
    ∀ (ks : List Key) (noise : Nat → Noise) (n : Nat) (i : Inst), Still i (importLoop U noise o filter call ks n i).2.2
  | [], _, _, i => .refl i
  | k :: ks, noise, n, i => by
    obtain ⟨r, hr, e⟩ := importLoop_cons U noise o filter call k ks n i
    rw [e]
    cases hr with
    | skipLen _ => exact still_importLoop ho ha ks _ _ i
    | skipFilter _ => exact still_importLoop ho ha ks _ _ i
    | skipExisting _ _ _ _ _ => exact still_importLoop ho ha ks _ _ i
    | stop _ _ _ _ => exact .refl i
    | new _ _ _ =>
      refine Still.trans ?_ (still_importLoop ho ha ks _ _ _)
      exact Still.grow (ks := i.keys) (new := [importedKey U i call k]) (msgs := []) (nx := i.nextAddr + 1 + k.keepers.length) (by unfold addImported; rw [List.append_nil]) (markedSince_refl _)
    | replace _ _ _ h => exact absurd h (by rw [ho]; simp [ha k])

theorem still_importKeys {U : Unicode} {noise : Nat → Noise} {o : ImportOpts} {filter : Key → Bool} (ho : o.overwrite = false) (ha : ∀ x, o.answer x ≠ some true)
    (ks : List Key) (call : Runes) (i : Inst) : Still i (importKeys U noise o filter (.ok (ks, call)) i).2.2 := by
  unfold importKeys
  refine Still.trans ?_ (still_importLoop ho ha ks _ _ _)
  exact Still.grow (ks := i.keys) (new := []) (msgs := []) (nx := i.nextAddr + 1) (by simp) (markedSince_refl _)

theorem markedSince_trans {a b c : List Key} (h1 : List.Forall₂ MarkedSince a b) (h2 : List.Forall₂ MarkedSince b c) : List.Forall₂ MarkedSince a c := by
  induction h1 generalizing c with
  | nil => cases h2; exact .nil
  | cons x _ ih =>
    cases h2 with
    | cons y h2 => exact .cons (x.trans y) (ih h2)

theorem markedSince_setUsed (keys : List Key) (j : Nat) : List.Forall₂ MarkedSince keys (setUsed keys j true) := markedSince_stack [j] keys

theorem encOk_marked {U : Unicode} {f : Runes} {inst inst' inst1 : Inst} {i : Nat} {s : LoopState} {out : Runes} {m m' m1 : Msg} {chunks : List Chunk}
    (e : EncOk U f inst m chunks inst' m' inst1 m1 i s out) : List.Forall₂ MarkedSince inst.keys s.keys := by
  have h1 : List.Forall₂ MarkedSince inst.keys inst1.keys := by
    have h := e.enriched
    cases h with
    | preset => exact markedSince_refl _
    | auto i k => exact markedSince_setUsed _ _
  obtain ⟨_, _, _, _, h, _⟩ := encLoop_inv (fun _ s' => List.Forall₂ MarkedSince inst1.keys s'.keys)
    (fun d a b hp hok hn => by
      obtain ⟨j, k, _, _, rfl⟩ := nextChunk_ok hok hn
      exact markedSince_trans hp (markedSince_setUsed _ _))
    (fun d a c t i hp _ _ => hp) m1.plainText [] ⟨inst1.keys, newState, [], ⟨[], i⟩⟩ (.ok ()) s (markedSince_refl _) (loopOk_start _ _) e.loop
  exact markedSince_trans h1 h

theorem still_newMessage {U : Unicode} {noise : Nat → Rune} {R : RadioEnv} {f : Runes} {i i' : Inst} {rad : Runes} {t t' : Tape} {m : Msg}
    (hr : newTextMessageRun U noise R f i [rad] t = some ((.ok m, i'), t')) : Still i i' := by
  obtain ⟨nx, hi⟩ := newRun_frame hr
  refine Still.grow (ks := i'.keys) (new := []) (msgs := [m]) (nx := nx) (by rw [List.append_nil]; exact hi) ?_
  unfold newTextMessageRun at hr
  dsimp only at hr
  rcases hp : parseRadiogram U R i.messages rad t with _ | ⟨op, t1⟩
  · rw [hp] at hr; cases hr
  rw [hp] at hr
  simp only [Option.some.injEq, Prod.mk.injEq] at hr
  obtain ⟨hr, rfl⟩ := hr
  have hc := newTextMessage_cases hr
  generalize ho : (Outcome.ok m : Outcome Msg) = oc at hc
  cases hc with
  | failed hne => exact absurd ho.symm (hne m)
  | own ha hpar hmy hc he =>
    cases ho
    obtain ⟨chunks, hT⟩ := encipher_T he
    obtain ⟨inst1', m1, j, s, out, hE⟩ := encipherT_ok hT
    rcases hc with ⟨-, rfl, rfl⟩ | ⟨_, _, _, hrest, -, -⟩
    · have := encOk_marked hE
      rw [hE.hinst]
      exact this
    · cases ha; cases hrest
  | other ha hpar hmy hp1 ht =>
    cases ho
    rename_i p p1 inst2 o
    cases hpar
    have hid := parse_fresh hp
    have hid1 : p1.id = p.id := by rw [hp1]; split <;> rfl
    have hne : p1.id ≠ [] := by intro e; rw [hid1] at e; rw [e] at hid; simp at hid
    obtain ⟨ks, nx', e1, -, e2, -⟩ := tryDecipher_effect hne ht
    rw [e1]
    exact e2

/-! ## Commands -/

section
variable {C : Codec} {file key : List Nat} {rekey : Bool} {i : Inst}

/-- the file holds all of `i` -/
def FileHolds (C : Codec) (file : List Nat) (rekey : Bool) (key : List Nat) (i : Inst) (d : Disk) : Prop :=
  ∃ key' j, key'.length = 32 ∧ (rekey = false → key' = key) ∧ SavedAs C d file key' j ∧ Still i j

/-- an instance that has been loaded; if from the file, it holds all of `i` -/
structure InHand (file : List Nat) (rekey : Bool) (key : List Nat) (i : Inst) (k : Krypto) : Prop where
  path : k.persistence.take 2 ≠ [126, 47]
  overwrite : k.overwrite = true
  overwriteKeys : k.overwriteKeys = false
  pfk : ∃ p, k.pfk = some p ∧ 32 ≤ p.length ∧ (k.persistence = file → rekey = false → p.take 32 = key)
  still : k.persistence = file → Still i k.inst

/-- after a section -/
inductive Stays (C : Codec) (file : List Nat) (rekey : Bool) (key : List Nat) (i : Inst) : Course → Prop
  | go {s : Cmd} : FileHolds C file rekey key i s.disk → InHand file rekey key i s.k → Stays C file rekey key i (.go s)
  | stop {o : Outcome Unit} {s : Cmd} : FileHolds C file rekey key i s.disk → Stays C file rekey key i (.stop o s)

theorem Stays.holds {r : Course} (h : Stays C file rekey key i r) : FileHolds C file rekey key i r.state.disk := by
  cases h <;> assumption

theorem check_stays {o : Outcome Unit} {s : Cmd} (h : FileHolds C file rekey key i s.disk) (hp : o = .ok () → InHand file rekey key i s.k) : Stays C file rekey key i (check o s) := by
  rcases o with u | e | _
  · exact .go h (hp rfl)
  · exact .stop h
  · exact .stop h

theorem andThen_stays {x : Option Course} {f : Cmd → Option Course} {r : Course} (h : andThen x f = some r) (h1 : ∀ q, x = some q → Stays C file rekey key i q)
    (h2 : ∀ s, FileHolds C file rekey key i s.disk → InHand file rekey key i s.k → ∀ q, f s = some q → Stays C file rekey key i q) : Stays C file rekey key i r := by
  rcases x with _ | q
  · cases h
  have := h1 q rfl
  cases this with
  | go a b => exact h2 _ a b r h
  | stop a => simp only [andThen, Option.some.injEq] at h; rw [← h]; exact .stop a

theorem InHand.mem {k : Krypto} (h : InHand file rekey key i k) {j : Inst} (hj : k.persistence = file → Still k.inst j) : InHand file rekey key i { k with inst := j } :=
  ⟨h.path, h.overwrite, h.overwriteKeys, h.pfk, fun e => (h.still e).trans (hj e)⟩

/-- writing a file by `Save` -/
theorem saveWrite_holds {W : World} {p : List Nat} {k : Krypto} {d : Disk} (hroom : k.persistence = file → W.room = none) (hl : 32 ≤ p.length) (hd : FileHolds C file rekey key i d)
    (hk : k.persistence = file → rekey = false → p.take 32 = key) (hs : k.persistence = file → Still i k.inst) :
    (saveWrite C W p k).k = k ∧ FileHolds C file rekey key i ((saveWrite C W p k).disk d) := by
  have hkk := saveWrite_k (C := C) W p k
  refine ⟨hkk, ?_⟩
  by_cases hf : k.persistence = file
  · unfold saveWrite
    rw [hroom hf]
    split
    · exact hd
    rw [if_neg (by omega)]
    dsimp only
    unfold SaveRun.disk
    dsimp only
    rw [take_range_last]
    exact ⟨p.take 32, k.inst, by simp; omega, hk hf, ⟨W.nonce, by rw [← hf]; exact set_same _ _ _⟩, hs hf⟩
  · unfold SaveRun.disk
    split
    · exact hd
    · obtain ⟨key', j, h1, h2, ⟨n, h3⟩, h4⟩ := hd
      exact ⟨key', j, h1, h2, ⟨n, by rw [hkk, set_other _ _ (Ne.symm hf)]; exact h3⟩, h4⟩

theorem resolve_plain {W : World} {p : List Nat} (h : p.take 2 ≠ [126, 47]) : resolvePath W p = some p := by
  unfold resolvePath; rw [if_neg h]

theorem saveStep_stays {E : PwEnv} {W : World} (hroom : W.room = none) {s : Cmd} (hd : FileHolds C file rekey key i s.disk) (hk : InHand file rekey key i s.k) {q : Course}
    (hq : saveStep C E W s = some q) : Stays C file rekey key i q := by
  unfold saveStep at hq
  rcases hs : save C E W s.disk s.k with _ | r
  · rw [hs] at hq; cases hq
  rw [hs] at hq
  simp only [Option.map_some, Option.some.injEq] at hq
  rw [← hq]
  obtain ⟨p, hp, hl, hpk⟩ := hk.pfk
  rcases save_cases hs with ⟨h1, -, -, h2⟩ | ⟨path, p', h1, -, -, -, e, hp'⟩
  · refine check_stays ?_ (fun ho => ?_)
    · show FileHolds C file rekey key i (r.disk s.disk)
      unfold SaveRun.disk
      rw [h1]; exact hd
    · obtain ⟨_, _, -, -, h, -⟩ := h2 ho
      rw [hk.overwrite] at h
      cases h
  · rw [resolve_plain hk.path] at h1
    cases h1
    have hpp : p' = p := by
      rcases hp' with h | ⟨h, -⟩
      · rw [hp] at h; simpa using h.symm
      · rw [hp] at h; cases h
    subst hpp
    have := saveWrite_holds (C := C) (W := W) (p := p') (k := { s.k with persistence := s.k.persistence, pfk := some p' }) (d := s.disk) (fun _ => hroom) hl hd hpk hk.still
    rw [← e] at this
    refine check_stays this.2 (fun _ => ?_)
    show InHand file rekey key i r.k
    rw [this.1]
    exact ⟨hk.path, hk.overwrite, hk.overwriteKeys, ⟨p', rfl, hl, hpk⟩, hk.still⟩

theorem load_inHand (hC : C.Lawful) (hi : i.groupSize ≠ 0 ∧ i.keyLength ≠ 0 ∧ i.columns ≠ 0 ∧ i.keyColumns ≠ 0) {E : PwEnv} {W : World} {d : Disk}
    (hd : FileHolds C file rekey key i d) {k k' : Krypto} (hW : HomeResolved W k.persistence) (hb : K431.Blank k) (ho : k.overwriteKeys = false) (h : load C E W d k = some (.ok (), k')) :
    InHand file rekey key i k' := by
  obtain ⟨path, p, c, w, h1, h2, h3, h4, rfl, -⟩ := load_ok h
  have base : path = file → (rekey = false → p.take 32 = key) ∧ ∃ j, w = gobInst j ∧ Still i j := by
    intro e
    subst e
    obtain ⟨key', j, a1, a2, ⟨n, a3⟩, a4⟩ := hd
    rw [a3] at h2
    cases h2
    have hlen : (p.take 32).length = 32 := by simp; omega
    by_cases he : key' = p.take 32
    · subst he
      rw [hC.right _ _ _ hlen] at h4
      exact ⟨a2, j, by simpa using h4.symm, a4⟩
    · have := hC.wrong key' (p.take 32) n (gobInst j) (C.enc key' n (gobInst j)).length a1 hlen he
      rw [List.take_length, h4] at this
      cases this
  refine ⟨?_, rfl, ho, ⟨p, rfl, h3, fun e => (base e).1⟩, ?_⟩
  · show path.take 2 ≠ [126, 47]
    exact hW path h1
  · intro e
    obtain ⟨-, j, rfl, hj⟩ := base e
    have h0 := hi
    rw [← hj.groupSize, ← hj.keyLength, ← hj.columns, ← hj.keyColumns] at h0
    obtain ⟨hs, -⟩ := gobDecode_blank (k := { k with persistence := path, pfk := some p }) ⟨hb.keys, hb.messages, hb.callSign, hb.spareKeys, hb.spareMsgs⟩ j h0.1 h0.2.1 h0.2.2.1 h0.2.2.2
    exact hj.trans (.same hs)

theorem openStore_stays (hC : C.Lawful) (hi : i.groupSize ≠ 0 ∧ i.keyLength ≠ 0 ∧ i.columns ≠ 0 ∧ i.keyColumns ≠ 0) {E : PwEnv} {W : World} {a : Access} {f : List Nat}
    (hW : HomeResolved W f) {d : Disk} (hd : FileHolds C file rekey key i d) {q : Course} (hq : openStore C E W a f d = some q) : Stays C file rekey key i q := by
  rcases openStore_cases hq with ⟨o, k, -, rfl⟩ | ⟨k, -, hl, -, rfl⟩
  · exact .stop hd
  · obtain ⟨x, y, hf⟩ := prepared_frame E a f
    refine .go hd (load_inHand hC hi hd ?_ (prepared_blank E a f) ?_ hl)
    · rw [hf]; exact hW
    · rw [hf]; rfl

theorem output_holds {α : Type} {W : World} {type : Option (List Nat)} {render : OutKind → List α → Option (List Nat)} {out : Option (List Nat)} (ho : out ≠ some file) {items : List α} {s : Cmd}
    (h : FileHolds C file rekey key i s.disk) : FileHolds C file rekey key i (outputStep W type render out items s).state.disk := by
  have hw : ∀ f body, out = some f → FileHolds C file rekey key i (writeOutput W f body s).state.disk := by
    intro f body e
    have hne : file ≠ f := by rintro rfl; exact ho e
    have hset : ∀ c, FileHolds C file rekey key i (s.disk.set f c) := by
      intro c
      obtain ⟨key', j, h1, h2, ⟨n, h3⟩, h4⟩ := h
      exact ⟨key', j, h1, h2, ⟨n, by rw [set_other _ _ hne]; exact h3⟩, h4⟩
    unfold writeOutput
    split
    · exact h
    · dsimp only
      split <;> split
      all_goals exact hset _
  unfold outputStep
  split
  · exact h
  split
  · exact h
  split
  · exact h
  · split
    · exact h
    · split
      · exact h
      · exact hw _ _ rfl
  · split
    · exact h
    · split
      · exact h
      · exact hw _ _ rfl

/-- the last section, which writes to another file -/
theorem andThen_last {x : Option Course} {f : Cmd → Course} {r : Course} (h : andThen x (fun s => some (f s)) = some r) (h1 : ∀ q, x = some q → FileHolds C file rekey key i q.state.disk)
    (h2 : ∀ s, FileHolds C file rekey key i s.disk → FileHolds C file rekey key i (f s).state.disk) : FileHolds C file rekey key i r.state.disk := by
  rcases x with _ | q
  · cases h
  have := h1 q rfl
  rcases q with s | ⟨o, s⟩
  · simp only [andThen, Option.some.injEq] at h; rw [← h]; exact h2 s this
  · simp only [andThen, Option.some.injEq] at h; rw [← h]; exact this

theorem keysCommand_stays (hC : C.Lawful) (hi : i.groupSize ≠ 0 ∧ i.keyLength ≠ 0 ∧ i.columns ≠ 0 ∧ i.keyColumns ≠ 0) {E : PwEnv} {U : Unicode} {V : KeysEnv} {o : KeysCmd} {d : Disk} {r : Course}
    (h : keysCommand C E U V o d = some r) (hdel : o.delete = false) (hans : ∀ x, V.answer x ≠ some true) (hexp : ∀ f, o.exportFile = some f → resolvePath V.exportW f ≠ some file)
    (hout : o.output ≠ some file) (hW : HomeResolved V.loadW o.file) (hn : V.newW.room = none) (hm : V.importW.room = none) (hd : FileHolds C file rekey key i d) :
    FileHolds C file rekey key i r.state.disk := by
  unfold keysCommand at h
  split at h
  · cases h; exact hd
  refine andThen_last h (fun q hq => ?_) (fun s hs => output_holds hout hs)
  refine andThen_last hq (fun q hq => ?_) (fun s hs => ?_)
  swap
  · unfold keysList
    dsimp only
    repeat' split
    all_goals exact hs
  refine Stays.holds (andThen_stays hq (fun q hq => ?_) (fun s hs hp q hq => ?_))
  swap
  · unfold keysExport at hq
    split at hq
    · cases hq; exact .go hs hp
    split at hq
    · cases hq; exact .stop hs
    rename_i f hf _
    generalize hkx : exportKeys (keyFilter U V.now o.filter) [withPersistence f, withOverwrite o.yes] s.k = kx at hq
    have hpx : kx.persistence = f := by rw [← hkx]; rfl
    rcases hsv : save C E V.exportW s.disk kx with _ | sr
    · rw [hsv] at hq; cases hq
    rw [hsv] at hq
    simp only [Option.map_some, Option.some.injEq] at hq
    rw [← hq]
    refine check_stays ?_ (fun _ => hp)
    show FileHolds C file rekey key i (sr.disk s.disk)
    rcases save_cases hsv with ⟨h1, -⟩ | ⟨path, p', h1, -, -, -, e, -⟩
    · unfold SaveRun.disk
      rw [h1]; exact hs
    · rw [hpx] at h1
      have hne : path ≠ file := by rintro rfl; exact hexp f hf h1
      have hkk : sr.k.persistence = path := by rw [e, saveWrite_k]
      unfold SaveRun.disk
      split
      · exact hs
      · obtain ⟨key', j, h1, h2, ⟨n, h3⟩, h4⟩ := hs
        exact ⟨key', j, h1, h2, ⟨n, by rw [hkk, set_other _ _ (Ne.symm hne)]; exact h3⟩, h4⟩
  refine andThen_stays hq (fun q hq => ?_) (fun s hs hp q hq => ?_)
  swap
  · unfold keysImport at hq
    split at hq
    · cases hq; exact .go hs hp
    split at hq
    · cases hq; exact .stop hs
    rename_i f _ _
    split at hq
    · cases hq
    rename_i oc n k hf
    have hk : InHand file rekey key i k := by
      unfold importFrom at hf
      have hinc : (newIncoming U s.k [.persistence f, .interactive true]) = ⟨incomingFor f, false, false⟩ := rfl
      rw [hinc] at hf
      dsimp only at hf
      rcases hl : load C E V.readW s.disk (incomingFor f) with _ | ⟨u | e | _, j⟩
      · rw [hl] at hf; cases hf
      · rw [hl] at hf
        simp only [Option.some.injEq, Prod.mk.injEq] at hf
        obtain ⟨-, -, rfl⟩ := hf
        exact hp.mem (fun _ => still_importKeys hp.overwriteKeys hans _ _ _)
      · rw [hl] at hf
        simp only [Option.some.injEq, Prod.mk.injEq] at hf
        obtain ⟨-, -, rfl⟩ := hf
        exact hp
      · rw [hl] at hf
        simp only [Option.some.injEq, Prod.mk.injEq] at hf
        obtain ⟨-, -, rfl⟩ := hf
        exact hp
    refine andThen_stays hq (fun q hq => ?_) (fun s hs hp q hq => saveStep_stays hm hs hp hq)
    cases hq
    exact check_stays hs (fun _ => hk)
  refine andThen_stays hq (fun q hq => ?_) (fun s hs hp q hq => ?_)
  swap
  · unfold keysNew at hq
    split at hq
    · cases hq; exact .go hs hp
    split at hq
    · split at hq
      · cases hq
      · rename_i oc inst t hg
        refine andThen_stays hq (fun q hq => ?_) (fun s hs hp q hq => saveStep_stays hn hs hp hq)
        cases hq
        refine check_stays hs (fun _ => hp.mem (fun e => still_generate ?_ hg))
        rw [(hp.still e).groupSize]; exact hi.1
    · cases hq; exact .go hs hp
  refine andThen_stays hq (fun q hq => openStore_stays hC hi hW hd hq) (fun s hs hp q hq => ?_)
  unfold keysDelete at hq
  rw [hdel] at hq
  cases hq
  exact .go hs hp

theorem messagesCommand_stays (hC : C.Lawful) (hi : i.groupSize ≠ 0 ∧ i.keyLength ≠ 0 ∧ i.columns ≠ 0 ∧ i.keyColumns ≠ 0) {E : PwEnv} {U : Unicode} {V : MsgsEnv} {o : MsgsCmd} {d : Disk} {r : Course}
    (h : messagesCommand C E U V o d = some r) (hdel : o.delete = false) (hout : o.output ≠ some file) (hW : HomeResolved V.loadW o.file) (hn : V.newW.room = none)
    (hd : FileHolds C file rekey key i d) : FileHolds C file rekey key i r.state.disk := by
  unfold messagesCommand at h
  split at h
  · cases h; exact hd
  refine andThen_last h (fun q hq => ?_) (fun s hs => output_holds hout hs)
  refine andThen_last hq (fun q hq => ?_) (fun s hs => ?_)
  swap
  · unfold messagesList
    split
    · split
      · exact hs
      split
      · exact hs
      · exact hs
      · dsimp only
        split
        · exact hs
        · exact hs
    · exact hs
  refine Stays.holds (andThen_stays hq (fun q hq => ?_) (fun s hs hp q hq => ?_))
  swap
  · unfold messagesNew at hq
    split at hq
    · split at hq
      · cases hq; exact .stop hs
      split at hq
      · cases hq
      · cases hq; exact .stop hs
      · cases hq; exact .stop hs
      · rename_i m inst t hnm
        exact saveStep_stays hn (s := { s with k := { s.k with inst := inst }, printed := s.printed ++ [.message m] }) hs (hp.mem (fun _ => still_newMessage hnm)) hq
    · cases hq; exact .go hs hp
  refine andThen_stays hq (fun q hq => openStore_stays hC hi hW hd hq) (fun s hs hp q hq => ?_)
  unfold messagesDelete at hq
  rw [hdel] at hq
  cases hq
  exact .go hs hp

theorem InHand.frame {k k' : Krypto} (h : InHand file rekey key i k) (h1 : k'.persistence = k.persistence) (h2 : k'.overwrite = k.overwrite) (h3 : k'.overwriteKeys = k.overwriteKeys)
    (h4 : k'.inst = k.inst) (h5 : k'.pfk = k.pfk ∨ (k.persistence = file → rekey = true) ∧ ∃ p, k'.pfk = some p ∧ p.length = 32) : InHand file rekey key i k' := by
  refine ⟨by rw [h1]; exact h.path, by rw [h2]; exact h.overwrite, by rw [h3]; exact h.overwriteKeys, ?_, by rw [h1, h4]; exact h.still⟩
  rw [h1]
  rcases h5 with h5 | ⟨h5, p, h6, h7⟩
  · rw [h5]; exact h.pfk
  · exact ⟨p, h6, by omega, fun a b => by rw [h5 a] at b; cases b⟩

theorem setPFK_32 {t : List Nat} {k : Krypto} (h : (setPFKFromString t k).1 = .ok ()) : ∃ p, (setPFKFromString t k).2.pfk = some p ∧ p.length = 32 := by
  unfold setPFKFromString at h ⊢
  split at h
  · cases h
  · rename_i b hb
    split at h
    · cases h
    · rename_i hl
      rw [if_neg hl]
      exact ⟨b, rfl, by omega⟩

theorem derive_32 {E : PwEnv} (hE : ∀ pw salt, (E.kdf pw salt).length = 32) {v : Bool} {n : Option (Nat → Nat)} {pw : Option Buf} {k : Krypto} (h : (derivePFK E v n pw k).1 = .ok ()) :
    ∃ p, (derivePFK E v n pw k).2.1.pfk = some p ∧ p.length = 32 := by
  unfold derivePFK at h ⊢
  cases pw with
  | none => cases h
  | some b =>
    dsimp only at h ⊢
    cases hs : k.salt with
    | none => rw [hs] at h; cases h
    | some salt =>
      rw [hs] at h
      dsimp only at h ⊢
      split at h
      · cases h
      split at h
      · cases h
      rename_i h1 h2
      rw [if_neg h1, if_neg h2]
      exact ⟨_, rfl, hE _ _⟩

theorem setNewSalt_frame (n : Option (List Nat)) (k : Krypto) : ∃ a, (setNewSalt n k).2 = { k with salt := a } := by
  unfold setNewSalt
  split
  · exact ⟨k.salt, rfl⟩
  · exact setSalt_frame _ _

theorem changeFileKey_stays {E : PwEnv} {V : PfkEnv} {o : PfkCmd} (hE : ∀ pw salt, (E.kdf pw salt).length = 32) (hroom : V.saveW.room = none) {s : Cmd}
    (hre : s.k.persistence = file → rekey = true) (hs : FileHolds C file rekey key i s.disk) (hk : InHand file rekey key i s.k) {r : Course}
    (h : changeFileKey C E V o s = some r) : Stays C file rekey key i r := by
  have hdec : ∀ (yes : Bool) (s : Cmd) (next : Cmd → Option Course) q, FileHolds C file rekey key i s.disk → unlessDeclined V yes s next = some q →
      (next s = some q → Stays C file rekey key i q) → Stays C file rekey key i q := by
    intro yes s next q hs hq hn
    unfold unlessDeclined at hq
    split at hq
    · exact hn hq
    split at hq
    · cases hq; exact .stop hs
    · cases hq; exact .stop hs
    · exact hn hq
  unfold changeFileKey at h
  dsimp only at h
  obtain ⟨sa, hsa⟩ := setNewSalt_frame o.newSalt s.k
  generalize setNewSalt o.newSalt s.k = q0 at h hsa
  rcases andThen_check h with ⟨-, h⟩ | ⟨-, rfl⟩
  swap
  · exact .stop hs
  have hk1 : InHand file rekey key i q0.2 := by rw [hsa]; exact hk.frame rfl rfl rfl rfl (.inl rfl)
  have hre1 : q0.2.persistence = file → rekey = true := by rw [hsa]; exact hre
  clear hk hre hsa
  -- a new key is set, then the file is saved
  have hset : ∀ {oc : Outcome Unit} {k : Krypto} {f : Cmd → Option Course} {q : Course}, andThen (some (check oc { s with k := k })) f = some q →
      (∃ a, k = { q0.2 with pfk := a }) → (oc = .ok () → ∃ p, k.pfk = some p ∧ p.length = 32) →
      (∀ s' : Cmd, FileHolds C file rekey key i s'.disk → InHand file rekey key i s'.k → f s' = some q → Stays C file rekey key i q) → Stays C file rekey key i q := by
    intro oc k f q hq ⟨a, ha⟩ hp hf
    rcases andThen_check hq with ⟨ho, hq⟩ | ⟨-, rfl⟩
    · refine hf { s with k := k } hs (hk1.frame ?_ ?_ ?_ ?_ (.inr ⟨hre1, hp ho⟩)) hq <;> rw [ha]
    · exact .stop hs
  dsimp only at h
  split at h
  · cases h; exact .stop hs
  split at h
  · cases h; exact .stop hs
  split at h
  · refine hdec _ { s with k := q0.2 } _ _ hs h (fun h => ?_)
    dsimp only at h
    split at h
    · cases h; exact .stop hs
    · cases h; exact .stop hs
    · exact hset h (setPFK_frame _ _) setPFK_32 (fun s' a b hq => saveStep_stays hroom (s := { s' with printed := s'.printed ++ [.text _] }) a b hq)
  split at h
  · exact hset h (setPassword_frame E _ _) (derive_32 hE) (fun s' a b hq => hdec _ _ _ _ a hq (saveStep_stays hroom a b))
  split at h
  · exact hset h (setPFK_frame _ _) setPFK_32 (fun s' a b hq => hdec _ _ _ _ a hq (saveStep_stays hroom a b))
  split at h
  · cases h
  · rename_i oc k hk
    refine hset h ?_ ?_ (fun s' a b hq => saveStep_stays hroom a b hq)
    · unfold askNewPFK at hk
      split at hk
      · cases hk
      split at hk
      · cases hk; exact ⟨_, rfl⟩
      · cases hk; exact ⟨_, rfl⟩
      · cases hk; exact derive_frame _ _ _ _ _
    · intro ho
      subst ho
      unfold askNewPFK at hk
      split at hk
      · cases hk
      split at hk
      · cases hk
      · cases hk
      · rename_i pw _
        have hk' := Option.some.inj hk
        simp only [Prod.mk.injEq] at hk'
        rw [← hk'.2]
        exact derive_32 hE hk'.1

theorem pfkCommand_stays (hC : C.Lawful) (hi : i.groupSize ≠ 0 ∧ i.keyLength ≠ 0 ∧ i.columns ≠ 0 ∧ i.keyColumns ≠ 0) {E : PwEnv} {V : PfkEnv} {o : PfkCmd} {d : Disk} {r : Course}
    (h : pfkCommand C E V o d = some r) (hE : ∀ pw salt, (E.kdf pw salt).length = 32) (hre : ∀ f, o.change = some f → resolvePath V.loadW f = some file → rekey = true)
    (hW : ∀ f, o.change = some f → HomeResolved V.loadW f) (hroom : V.saveW.room = none) (hd : FileHolds C file rekey key i d) : FileHolds C file rekey key i r.state.disk := by
  unfold pfkCommand at h
  dsimp only at h
  split at h
  · cases h; exact hd
  split at h
  · have hc : ∀ (oc : Outcome Unit) (s : Cmd) (f : Cmd → Option Course) q, s.disk = d → andThen (some (check oc s)) f = some q → (f s = some q → q.state.disk = d) → q.state.disk = d := by
      intro oc s f q hs hq hn
      rcases andThen_check hq with ⟨-, hq⟩ | ⟨-, rfl⟩
      · exact hn hq
      · exact hs
    suffices r.state.disk = d by rw [this]; exact hd
    unfold generatePFKCommand at h
    dsimp only at h
    refine hc _ _ _ _ rfl h (fun h => ?_)
    refine hc _ _ _ _ rfl h (fun h => ?_)
    split at h
    · split at h
      · cases h; rfl
      · cases h; rfl
      · cases h; rfl
    · split at h
      · refine hc _ _ _ _ rfl h (fun h => ?_)
        cases h; rfl
      · split at h
        · cases h
        · refine hc _ _ _ _ rfl h (fun h => ?_)
          cases h; rfl
  split at h
  · split at h
    · cases h; exact hd
    · cases h; exact hd
    · cases h; exact hd
  split at h
  · cases h; exact hd
  · rename_i f hf
    obtain ⟨x, y, hfr⟩ := preparedOld_frame E o.access o.old f
    rcases hx : andThen (some (check (preparedOld E o.access o.old f).1 { disk := d, k := (preparedOld E o.access o.old f).2, touched := [], printed := [] })) (loadStep C E V.loadW) with _ | q
    · rw [hx] at h; cases h
    rw [hx] at h
    rcases andThen_check hx with ⟨-, hq⟩ | ⟨-, rfl⟩
    swap
    · cases h; exact hd
    unfold loadStep at hq
    dsimp only at hq
    rw [hfr] at hq
    rcases hl : load C E V.loadW d { newBase with persistence := f, interactive := true, salt := x, pfk := y } with _ | ⟨oc, k⟩
    · rw [hl] at hq; cases hq
    rw [hl] at hq
    simp only [Option.map_some, Option.some.injEq] at hq
    rw [← hq] at h
    rcases andThen_check h with ⟨ho, h⟩ | ⟨-, rfl⟩
    swap
    · exact hd
    subst ho
    have hin := load_inHand hC hi hd (k := { newBase with persistence := f, interactive := true, salt := x, pfk := y })
      (hW f hf) ⟨newBase_blank.keys, newBase_blank.messages, newBase_blank.callSign, newBase_blank.spareKeys, newBase_blank.spareMsgs⟩ rfl hl
    refine (changeFileKey_stays hE hroom ?_ hd hin h).holds
    intro e
    obtain ⟨path, p, c, w, h1, -, -, -, rfl, -⟩ := load_ok hl
    exact hre f hf (by rw [h1]; exact congrArg some e)

/-- saving to another file -/
theorem saveStep_elsewhere {E : PwEnv} {W : World} {s : Cmd} (hne : resolvePath W s.k.persistence ≠ some file) (hd : FileHolds C file rekey key i s.disk) {q : Course}
    (hq : saveStep C E W s = some q) : FileHolds C file rekey key i q.state.disk := by
  unfold saveStep at hq
  rcases hs : save C E W s.disk s.k with _ | r
  · rw [hs] at hq; cases hq
  rw [hs] at hq
  simp only [Option.map_some, Option.some.injEq] at hq
  rw [← hq, check_state]
  show FileHolds C file rekey key i (r.disk s.disk)
  rcases save_cases hs with ⟨h1, -⟩ | ⟨path, p', h1, -, -, -, e, -⟩
  · unfold SaveRun.disk
    rw [h1]; exact hd
  · have hne : path ≠ file := by rintro rfl; exact hne h1
    have hkk : r.k.persistence = path := by rw [e, saveWrite_k]
    unfold SaveRun.disk
    split
    · exact hd
    · obtain ⟨key', j, h1, h2, ⟨n, h3⟩, h4⟩ := hd
      exact ⟨key', j, h1, h2, ⟨n, by rw [hkk, set_other _ _ (Ne.symm hne)]; exact h3⟩, h4⟩

theorem initCommand_stays {E : PwEnv} {U : Unicode} {V : InitEnv} {o : InitCmd} {d : Disk} {r : Course}
    (h : initCommand C E U V o d = some r) (hf : resolvePath V.saveW o.file ≠ some file) (hd : FileHolds C file rekey key i d) : FileHolds C file rekey key i r.state.disk := by
  have main : ∀ {yes : Bool} {c : Runes} {keys : Int} {expire : Runes} {keepers : List Runes} {keyLength groupSize keyColumns columns : Int},
      initStore C E U V o.access o.file yes c keys expire keepers keyLength groupSize keyColumns columns d = some r → FileHolds C file rekey key i r.state.disk := by
    intro yes c keys expire keepers keyLength groupSize keyColumns columns h
    unfold initStore at h
    dsimp only at h
    generalize hk0 : new [withPersistence o.file, withInteractive true, withKeyLength keyLength.toNat, withGroupSize groupSize.toNat, withKeyColumns keyColumns.toNat,
      withColumns columns.toNat, withCallSign U c, withOverwrite yes] = k0 at h
    have hk : k0.persistence = o.file := by
      rw [← hk0]
      simp only [new, List.foldl_cons, List.foldl_nil, withOverwrite, withCallSign]
      unfold setCallSign
      dsimp only
      split <;> rfl
    obtain ⟨x, y, hfr⟩ := setSaltAndPFK_frame E o.access k0
    generalize setSaltAndPFK E o.access k0 = p at h hfr
    have hp : p.2.persistence = o.file := by rw [hfr]; exact hk
    rcases andThen_check h with ⟨-, h⟩ | ⟨-, rfl⟩
    swap
    · exact hd
    rcases andThen_check h with ⟨-, h⟩ | ⟨-, rfl⟩
    swap
    · exact hd
    dsimp only at h
    split at h
    · split at h
      · cases h
      · rcases andThen_check h with ⟨-, h⟩ | ⟨-, rfl⟩
        · exact saveStep_elsewhere (by dsimp only; rw [hp]; exact hf) hd h
        · exact hd
    · exact saveStep_elsewhere (by dsimp only; rw [hp]; exact hf) hd h
  unfold initCommand at h
  dsimp only at h
  split at h
  · cases h; exact hd
  split at h
  · split at h
    · cases h; exact hd
    · exact main h
  · exact main h

theorem keeping_holds (hC : C.Lawful) {U : Unicode} (hi : i.groupSize ≠ 0 ∧ i.keyLength ≠ 0 ∧ i.columns ≠ 0 ∧ i.keyColumns ≠ 0) {start : Disk} {r : Course} (h : Keeping C U file rekey start r)
    (hd : FileHolds C file rekey key i start) : FileHolds C file rekey key i r.state.disk := by
  cases h with
  | keys h1 h2 h3 h4 h5 h6 h7 h8 => exact keysCommand_stays hC hi h1 h2 h3 h4 h5 h6 h7 h8 hd
  | messages h1 h2 h3 h4 h5 => exact messagesCommand_stays hC hi h1 h2 h3 h4 h5 hd
  | pfk h1 h2 h3 h4 h5 => exact pfkCommand_stays hC hi h1 h2 h3 h4 h5 hd
  | init h1 h2 => exact initCommand_stays h1 h2 hd

theorem afterRun_holds {d : Disk} {r : Course} (h1 : FileHolds C file rekey key i d) (h2 : FileHolds C file rekey key i r.state.disk) : FileHolds C file rekey key i (afterRun d r) := by
  by_cases ht : ∃ t ∈ r.state.touched, t.path = file ∧ t.contents ≠ []
  · obtain ⟨key', j, a1, a2, ⟨n, a3⟩, a4⟩ := h2
    exact ⟨key', j, a1, a2, ⟨n, by rw [show afterRun d r file = r.state.disk file from if_pos ht]; exact a3⟩, a4⟩
  · obtain ⟨key', j, a1, a2, ⟨n, a3⟩, a4⟩ := h1
    exact ⟨key', j, a1, a2, ⟨n, by rw [show afterRun d r file = d file from if_neg ht]; exact a3⟩, a4⟩

theorem keepingStep_holds (hC : C.Lawful) {U : Unicode} {alone : Bool} (hi : i.groupSize ≠ 0 ∧ i.keyLength ≠ 0 ∧ i.columns ≠ 0 ∧ i.keyColumns ≠ 0) {s t : Disk × List Disk}
    (h : KeepingStep C U file alone rekey s t) (h1 : FileHolds C file rekey key i s.1) (h2 : ∀ x ∈ s.2, FileHolds C file rekey key i x) :
    FileHolds C file rekey key i t.1 ∧ ∀ x ∈ t.2, FileHolds C file rekey key i x := by
  cases h with
  | starts => exact ⟨h1, by simpa using ⟨h1, h2⟩⟩
  | ends hk =>
    refine ⟨afterRun_holds h1 (keeping_holds hC hi hk (h2 _ (by simp))), fun x hx => h2 x ?_⟩
    simp only [List.mem_append, List.mem_cons] at hx ⊢
    tauto
  | dies =>
    refine ⟨h1, fun x hx => h2 x ?_⟩
    simp only [List.mem_append, List.mem_cons] at hx ⊢
    tauto
  | others e =>
    obtain ⟨key', j, a1, a2, ⟨n, a3⟩, a4⟩ := h1
    exact ⟨⟨key', j, a1, a2, ⟨n, by dsimp only at *; rw [e]; exact a3⟩, a4⟩, h2⟩

end

end K431
