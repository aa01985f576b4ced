import Verif.StartLemmas
import Verif.PropsTalk
import Verif.PropsInit

/-!
# From nothing to messages: C96
-/

namespace K431
open Spec

/-- **C96**, the file.  What a run of `initialize` leaves, if it reports no error: the file can be loaded with the key that goes with its options; it has the group size and as many new keys as
wanted, the call-sign and no messages. -/
theorem C96_file {C : Codec} (hC : C.Lawful) {E : PwEnv} (hE : ∀ p s, (E.kdf p s).length = 32) {U : Unicode} (hU : U.Lawful) {V : InitEnv} {o : InitCmd} {disk : Disk} {r : Course} {s : Side}
    (h : Starts C E U V o disk r s) {keys groupSize : Int} (hc : Wanted V o keys groupSize) :
    ∃ i, Stored C r.state.disk s.path s.key i ∧ SettingsOk i ∧ (i.groupSize : Int) = groupSize ∧ i.callSign = s.call ∧ i.messages = [] ∧ i.keys.length = keys.toNat ∧
      WellFormed i.keys ∧ ∃ e, ∀ x ∈ i.keys, Fresh i e x := by
  have hl : s.key.length = 32 := by
    rcases h.key with hk | ⟨-, pw, salt, -, -, hk⟩
    · exact (prepared_calm hE o.access o.file).2 _ hk
    · rw [hk]; exact hE _ _
  obtain ⟨t, ht, hne⟩ := h.written
  rcases initCommand_cases h.run with e | ⟨n, g, kl, ex, ke, hw, hi⟩
  · rw [e] at ht; cases ht
  obtain ⟨rfl, rfl⟩ := hw.unique hc
  rcases initStore_saves hU hi with e | ⟨q, q1, -, q3, -, q5, q6, q7, q8, q9, q10, q11, q12, ⟨e, q13⟩, q14⟩
  · rw [e] at ht; cases ht
  have hk : q.k.pfk = some s.key ∨ q.k.pfk = none ∧ ∃ pw salt, Confirmed E V.saveW pw ∧ q.k.salt = some salt ∧ s.key = E.kdf pw salt := by
    rw [q6, q7]; exact h.key
  obtain ⟨hst, -, -⟩ := saveStep_stored hC q3 q9 q1 h.success ⟨t, ht, hne⟩ h.room (by rw [q5]; exact h.path) hk hl
  refine ⟨q.k.inst, hst, q9, q8, ?_, q11, q12, ⟨nodup_of_distinctNames q14, fun x hx => (q13 x hx).idLetters⟩, e, q13⟩
  have := h.named
  rw [q10, if_neg (by omega), h.call]
  rfl

/-- **C96**, the options.  The options given to `initialize` open this file later: the same key or password, or, if none was among the options, the password that was entered and confirmed. -/
theorem C96_again {C : Codec} {E : PwEnv} {U : Unicode} (hU : U.Lawful) {V : InitEnv} {o : InitCmd} {disk : Disk} {r : Course} {s : Side}
    (h : Starts C E U V o disk r s) {W : World} (hw : Again E V o W s) : Opens E W o.access o.file s := by
  obtain ⟨t, ht, hne⟩ := h.written
  rcases initCommand_cases h.run with e | ⟨n, g, kl, ex, ke, -, hi⟩
  · rw [e] at ht; cases ht
  rcases initStore_saves hU hi with e | ⟨q, q1, -, q3, q4, q5, q6, q7, -⟩
  · rw [e] at ht; cases ht
  obtain ⟨z, hz, hr⟩ := saveStep_some q3
  obtain ⟨x, y, hp⟩ := prepared_frame E o.access o.file
  have hin : (prepared E o.access o.file).2.interactive = true := by rw [hp]
  have hpe : (prepared E o.access o.file).2.persistence = o.file := by rw [hp]
  rcases save_cases hz with ⟨hcs, -⟩ | ⟨path, key, -, e2, -, -, -, e5⟩
  · rw [hr, check_state] at ht
    simp only [Cmd.saved, q1, List.nil_append, List.mem_singleton] at ht
    subst ht
    exact absurd hcs hne
  refine ⟨q4, ⟨by rw [hpe, ← q5]; exact e2, by rw [hpe]; exact hw.path, hw.stat, hw.opens⟩, ?_⟩
  rcases h.key with hk | ⟨hk, pw, salt, ⟨a, ha, hpw⟩, hs, hkey⟩
  · exact .inl hk
  · obtain ⟨hterm, pw', rest, ⟨a', ha', hpw'⟩, hin'⟩ := hw.password hk
    rw [ha, Option.some.injEq] at ha'
    subst ha'
    rw [hpw] at hpw'
    simp only [Outcome.ok.injEq] at hpw'
    subst hpw'
    refine .inr ⟨hk, hin, hterm, pw, rest, salt, hin', hs, ?_, hkey.symm⟩
    rcases e5 with e5 | ⟨-, -, -, -, -, salt', -, -, f3, f4, -⟩
    · rw [q7, hk] at e5; cases e5
    · rw [q6, hs, Option.some.injEq] at f3; rw [f3]; exact f4

/-- **C96.**  Two stations, each with a computer, start from nothing: both run `initialize`, with different call-signs and the same group size; one may at once have keys made, which it then hands
over.  Whatever keys they make and hand over from then on, and whatever messages they send each other, in any order: no pad is used for two messages; both files hold the texts of all messages, in the
order in which they were sent; and each station has all pads that the other may choose. -/
theorem C96_from_nothing {C : Codec} (hC : C.Lawful) {E E' : PwEnv} (hE : ∀ p s, (E.kdf p s).length = 32) (hE' : ∀ p s, (E'.kdf p s).length = 32) {U : Unicode} (hU : U.Lawful)
    {V V' : InitEnv} {o o' : InitCmd} {disk disk' : Disk} {r r' : Course} {a b : Side} (h : Starts C E U V o disk r a) (h' : Starts C E' U V' o' disk' r' b)
    {keys : Int} {groupSize : Nat} (hc : Wanted V o keys groupSize) (hc' : Wanted V' o' 0 groupSize) (hne : ¬ SameFold U a.call b.call)
    {d d' : Disk} (hd : keys = 0 ∧ d = r.state.disk ∧ d' = r'.state.disk ∨ HandsOver C U groupSize a b r.state.disk r'.state.disk d d')
    {texts pads : List Runes} {e e' : Disk} (ht : Talk C U groupSize a b d d' texts pads e e') :
    pads.Nodup ∧ ∃ i j, Linked C U groupSize a b e e' i j ∧ i.messages.map Msg.plainText = texts ∧ j.messages.map Msg.plainText = texts := by
  obtain ⟨i, s1, s2, s3, s4, s5, s6, s7, ex, s8⟩ := C96_file hC hE hU h hc
  obtain ⟨j, t1, t2, t3, t4, t5, t6, t7, -⟩ := C96_file hC hE' hU h' hc'
  have hlen : ∀ {E : PwEnv} {V : InitEnv} {o : InitCmd} {disk : Disk} {r : Course} {s : Side}, (∀ p s, (E.kdf p s).length = 32) → Starts C E U V o disk r s → s.key.length = 32 := by
    intro E V o disk r s hE h
    rcases h.key with hk | ⟨-, pw, salt, -, -, hk⟩
    · exact (prepared_calm hE o.access o.file).2 _ hk
    · rw [hk]; exact hE _ _
  have k1 := s2.groupSize
  have k2 := s2.keyLength
  have k3 := s2.columns
  have k4 := s2.keyColumns
  have l1 := t2.groupSize
  have l2 := t2.keyLength
  have l3 := t2.columns
  have l4 := t2.keyColumns
  have hj : j.keys = [] := List.length_eq_zero_iff.1 t6
  have hsemi : Semi C U groupSize a b r.state.disk r'.state.disk i j := by
    refine ⟨s1, t1, ⟨by omega, s4, hlen hE h, ⟨by omega, by omega, by omega, by omega⟩, s7, ?_⟩, ⟨by omega, t4, hlen hE' h', ⟨by omega, by omega, by omega, by omega⟩, t7, by rw [hj]; simp⟩, hne,
      by rw [hj]; simp⟩
    intro x hx
    rw [(s8 x hx).idLength]
    omega
  have hlink : ∃ i1 j1, Linked C U groupSize a b d d' i1 j1 ∧ i1.messages.map Msg.plainText = [] ∧ j1.messages.map Msg.plainText = [] := by
    rcases hd with ⟨rfl, rfl, rfl⟩ | hh
    · have hi : i.keys = [] := List.length_eq_zero_iff.1 s6
      exact ⟨i, j, ⟨s1, t1, hsemi.ok, hsemi.ok', hne, by rw [hi]; simp, hsemi.pads'⟩, by rw [s5]; rfl, by rw [t5]; rfl⟩
    · obtain ⟨i1, j1, hl, -, -, -, -, m1, m2⟩ := hands_step hC hU hsemi hh (pads := []) (fun _ hp => by cases hp) (fun _ hp => by cases hp)
      exact ⟨i1, j1, hl, by rw [m1, s5]; rfl, by rw [m2, t5]; rfl⟩
  obtain ⟨i1, j1, hl, m1, m2⟩ := hlink
  obtain ⟨hnd, i2, j2, hl2, n1, n2, -⟩ := C83_conversation hC hU hl ht
  exact ⟨hnd, i2, j2, hl2, by rw [n1, m1]; rfl, by rw [n2, m2]; rfl⟩

/-! ## Not vacuous -/

/-- every password gives the same key -/
def exOneKey : PwEnv := ⟨fun _ _ => exPFK, fun _ => true⟩

/-- `initialize --yes --call …` with a key among the options -/
theorem start_example {C : Codec} (hC : C.Lawful) (call : String) (hcall : trimSpace unicode15 (lit call) = lit call ∧ (lit call).map unicode15.toUpper = lit call ∧ 2 ≤ (lit call).length) :
    ∃ r, Starts C exOneKey unicode15 exInitEnv (exInit call) exDisk r ⟨[1], exPFK, lit call⟩ := by
  obtain ⟨f1, f2⟩ := exInitBase_frame call
  obtain ⟨s', hd, ⟨cs, hcs, ht⟩, -, -, -, -⟩ := saveStep_done hC (E := exOneKey) (W := exWorld) (s := ⟨exDisk, { exInitBase call with pfk := some exPFK }, [], []⟩) (path := [1])
    (key := exPFK) ⟨by dsimp only; rw [f1]; simp, by dsimp only; rw [f1]; rfl, rfl, rfl⟩ rfl (by decide) f2 rfl
  refine ⟨.go s', by rw [initCommand_example]; exact hd, rfl, ⟨⟨[1], cs⟩, by show _ ∈ s'.touched; rw [ht]; simp, hcs⟩, rfl, rfl, .inl ?_, ?_, ?_⟩
  · rw [show (exInit call).access = exAccess from rfl, show (exInit call).file = [1] from rfl, prepared_example]
  · rw [show givenCall exInitEnv (exInit call) = lit call from rfl, hcall.1, hcall.2.1]
  · rw [show givenCall exInitEnv (exInit call) = lit call from rfl, hcall.1]; exact hcall.2.2

theorem wanted_example (call : String) : Wanted exInitEnv (exInit call) 0 (5 : Nat) := .inr ⟨(by intro h; have := h.1; cases this), rfl, rfl⟩

/-- non-vacuity of `C96_from_nothing` and `C96_file`: two stations start with nothing; SM makes a key for OP and hands it over -/
example : ∃ (C : Codec) (r r' : Course) (e e' : Disk) (i j : Inst), C.Lawful ∧ Starts C exOneKey unicode15 exInitEnv (exInit "SM") exDisk r exSM ∧
    Starts C exOneKey unicode15 exInitEnv (exInit "OP") exDisk r' exOP ∧ Talk C unicode15 5 exSM exOP r.state.disk r'.state.disk [] [] e e' ∧
    Linked C unicode15 5 exSM exOP e e' i j ∧ i.keys.length = 1 := by
  obtain ⟨C, hC⟩ := exists_lawful
  obtain ⟨r, h⟩ := start_example hC "SM" (by decide)
  obtain ⟨r', h'⟩ := start_example hC "OP" (by decide)
  have hkdf : ∀ p s, (exOneKey.kdf p s).length = 32 := fun _ _ => (by decide : exPFK.length = 32)
  obtain ⟨-, i, j, hl, -, -⟩ := C96_from_nothing hC hkdf hkdf unicode15_lawful h h' (wanted_example "SM") (wanted_example "OP") (by decide) (.inl ⟨rfl, rfl, rfl⟩) .start
  obtain ⟨i0, s1, s2, s3, s4, s5, s6, -⟩ := C96_file hC hkdf unicode15_lawful h (wanted_example "SM")
  obtain ⟨j0, t1, t2, t3, t4, t5, t6, -⟩ := C96_file hC hkdf unicode15_lawful h' (wanted_example "OP")
  have hi : i0.keys.length = 0 := s6
  have hj : j0.keys = [] := List.length_eq_zero_iff.1 t6
  have hg : i0.groupSize = 5 := by omega
  have hop := exOpens (W := exWorld) rfl rfl rfl exOneKey (lit "SM")
  obtain ⟨k, hk, hs, hpath, hkey⟩ := opens_load hop s1
  have hk0 : k.inst.keys.length = 0 := by rw [hs.keys.length_eq]; exact hi
  have hk1 : k.inst.groupSize = 5 := by rw [hs.groupSize]; exact hg
  have hset : k.inst.keyLength ≠ 0 ∧ k.inst.columns ≠ 0 ∧ k.inst.keyColumns ≠ 0 := by
    have := s2.keyLength; have := s2.columns; have := s2.keyColumns
    rw [hs.keyLength, hs.columns, hs.keyColumns]
    omega
  obtain ⟨tape, q, hr⟩ := keysNew_runs hk hkey (by rw [hk1]; decide) (by rw [hk1, hk0]; decide)
  have hmake : Makes C unicode15 exSM r.state.disk q.state.disk :=
    .mk hr rfl rfl (by decide) rfl rfl (by simp [exKeysNew]) hop ⟨by simp [exSM], rfl, rfl, rfl, rfl⟩ (by simp [exKeysNew])
  obtain ⟨-, H⟩ := C75_new_keys hC hr rfl rfl (by decide) rfl rfl hop.access hk (by rw [hk1]; decide)
  obtain ⟨-, -, new, ex, hlen, -, -, hfresh, hdist, hst⟩ := H [1] exPFK ⟨by rw [hpath]; simp, by rw [hpath]; rfl, rfl, rfl⟩ rfl hkey (by decide) hset.1 hset.2.1 hset.2.2
    (by simp [exKeysNew]) (by simp [exKeysNew])
  rw [List.length_eq_zero_iff.1 hk0, List.nil_append] at hst
  have hnew : new.length = 1 := by rw [hlen]; rfl
  have hok : SideOk 5 exSM { k.inst with keys := new } := by
    refine ⟨hk1, by show k.inst.callSign = _; rw [hs.callSign]; exact s4, by decide,
      ⟨by show k.inst.groupSize ≠ 0; rw [hk1]; decide, hset⟩, ⟨?_, fun x hx => (hfresh x hx).1.idLetters⟩, ?_⟩
    · have := nodup_of_distinctNames (hdist (by rw [List.length_eq_zero_iff.1 hk0]; exact List.Pairwise.nil))
      rw [List.length_eq_zero_iff.1 hk0, List.nil_append] at this
      exact this
    · intro x hx
      rw [(hfresh x hx).1.idLength, hk1]
  have hok' : SideOk 5 exOP j0 := by
    have := t2.keyLength; have := t2.columns; have := t2.keyColumns
    exact ⟨by omega, t4, by decide, by omega, by rw [hj]; exact ⟨by simp, by simp⟩, by rw [hj]; simp⟩
  obtain ⟨e, e', hh, he⟩ := exHandsOver hC 5 hok hok' hst t1 (by rw [hj]; intro x _ y hy; cases hy)
  have ht : Talk C unicode15 5 exSM exOP r.state.disk r'.state.disk [] [] e e' := .supply .start ⟨_, .inr hmake, hh⟩
  obtain ⟨-, i', j', hl', -⟩ := C83_conversation hC unicode15_lawful hl ht
  refine ⟨C, r, r', e, e', i', j', hC, h, h', ht, hl', ?_⟩
  rw [(stored_unique hl'.stored (stored_congr he hst)).keys.length_eq, hnew]

/-- a terminal at which these passwords are entered -/
def exTyped (inputs : List (Option (List Nat))) : World := ⟨some [], fun a b => a ++ b, true, none, inputs, false, false, 0, none, none⟩

/-- `initialize --yes --call SM` without key or password -/
def exInitAsk : InitCmd := { access := {}, file := [1], yes := some true, call := some (lit "SM") }

/-- non-vacuity of `C96_again`: the password 1 2 3 is entered twice, and once again later -/
example : ∃ (C : Codec) (V : InitEnv) (r : Course) (W : World), C.Lawful ∧ Starts C exOneKey unicode15 V exInitAsk exDisk r exSM ∧ Again exOneKey V exInitAsk W exSM ∧
    (prepared exOneKey exInitAsk.access exInitAsk.file).2.pfk = none := by
  obtain ⟨C, hC⟩ := exists_lawful
  let V : InitEnv := { exInitEnv with saveW := exTyped [some [1, 2, 3], some [1, 2, 3]] }
  obtain ⟨salt, hs1, hs2⟩ := defaultSalt_decodes
  have hconf : Confirmed exOneKey V.saveW [1, 2, 3] := ⟨⟨.ok [1, 2, 3], [1], 2⟩, by decide, rfl⟩
  have hnone : (prepared exOneKey exInitAsk.access exInitAsk.file).2.pfk = none := rfl
  have hsalt : (prepared exOneKey exInitAsk.access exInitAsk.file).2.salt = some salt := hs1
  obtain ⟨f1, f2⟩ := exInitBase_frame "SM"
  obtain ⟨b1, b2, b3, b4⟩ := initBase_frame unicode15_lawful [1] true (lit "SM") 350 5 30 110
  have hint : (exInitBase "SM").interactive = true := by
    unfold exInitBase
    simp only [new, List.foldl_cons, List.foldl_nil, withOverwrite, withCallSign]
    rw [setCallSign_given unicode15_lawful _ _ rfl]
    rfl
  have b3' : (exInitBase "SM").salt = some salt := b3.trans hs1
  have b4' : (exInitBase "SM").pfk = none := b4
  obtain ⟨c, hi⟩ := exInitBase_inst "SM"
  obtain ⟨g1, g2⟩ := saveWrite_done C V.saveW exPFK { exInitBase "SM" with persistence := [1], pfk := some exPFK } (by decide) rfl rfl exDisk
  have hask : askAndConfirm exOneKey.strong V.saveW.inputs = some ⟨.ok [1, 2, 3], [1], 2⟩ := by decide
  have hsave : save C exOneKey V.saveW exDisk (exInitBase "SM") = some (saveWrite C V.saveW exPFK { exInitBase "SM" with persistence := [1], pfk := some exPFK }) := by
    unfold save
    rw [if_neg (by rw [f1]; decide), show resolvePath V.saveW (exInitBase "SM").persistence = some [1] by rw [f1]; rfl]
    dsimp only
    rw [if_neg (by simp [V, exTyped]), show exDisk [1] = none from rfl]
    dsimp only
    unfold saveKey
    dsimp only
    rw [b4']
    dsimp only
    rw [hint, if_pos (by rfl), hask]
    dsimp only
    unfold derivePFK
    dsimp only
    rw [b3']
    dsimp only
    rw [if_neg (by omega), if_neg (by simp)]
    rfl
  have hrun : initCommand C exOneKey unicode15 V exInitAsk exDisk =
      some (.go ((⟨exDisk, exInitBase "SM", [], []⟩ : Cmd).saved (saveWrite C V.saveW exPFK { exInitBase "SM" with persistence := [1], pfk := some exPFK }))) := by
    have e : initCommand C exOneKey unicode15 V exInitAsk exDisk = initStore C exOneKey unicode15 V {} [1] true (toUpperStr unicode15 (trimSpace unicode15 (lit "SM"))) 0 [] [] 350 5 30 110 exDisk := rfl
    rw [e]
    unfold initStore
    have e2 : new [withPersistence [1], withInteractive true, withKeyLength (350 : Int).toNat, withGroupSize (5 : Int).toNat, withKeyColumns (30 : Int).toNat,
        withColumns (110 : Int).toNat, withCallSign unicode15 (toUpperStr unicode15 (trimSpace unicode15 (lit "SM"))), withOverwrite true] = exInitBase "SM" := rfl
    rw [e2, show setSaltAndPFK exOneKey {} (exInitBase "SM") = (.ok (), exInitBase "SM") from rfl]
    dsimp only
    rw [check_ok rfl, andThen_go, check_ok, andThen_go, if_neg (by decide)]
    · unfold saveStep
      rw [hsave, Option.map_some, check_ok g1]
    · unfold assertSettings
      dsimp only
      rw [f1, hi]
      simp
  refine ⟨C, V, _, exTyped [some [1, 2, 3]], hC, ⟨hrun, rfl, ⟨⟨[1], (saveWrite C V.saveW exPFK { exInitBase "SM" with persistence := [1], pfk := some exPFK }).contents⟩, ?_, ?_⟩, rfl, rfl, .inr ⟨hnone, [1, 2, 3], salt, hconf, hsalt, rfl⟩, by decide, by decide⟩,
    ⟨rfl, rfl, rfl, fun _ => ⟨rfl, [1, 2, 3], [], hconf, rfl⟩⟩, hnone⟩
  · simp only [Course.state, Cmd.saved, saveWrite_k, List.nil_append, List.mem_singleton]
  · unfold saveWrite
    rw [if_neg (by simp [V, exTyped]), if_neg (by decide), show V.saveW.room = none from rfl]
    simp

end K431
