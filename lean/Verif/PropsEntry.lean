import Mathlib.Tactic.NormNum
import Verif.EntryLemmas
import Verif.PropsFunctions
import Verif.PropsShow

/-!
# C123, C124, C125, C126: what is entered on the command line and at the prompts
-/

namespace K431
open Spec

/-! ## C123: the output file -/

/-- The kind of file is the one asked for; it is refused if none is asked for in this way. -/
theorem C123_kind (type : Option (List Nat)) (file : List Nat) (kind : OutKind) : KindAsked type file kind ↔ kind ≠ .unknown ∧ outKind type file = kind := by
  have h1 : pathExt file = ascii ".pdf" ↔ ∃ p, file = p ++ ascii ".pdf" := pathExt_iff file (ascii "pdf") (by decide)
  have h2 : pathExt file = ascii ".PDF" ↔ ∃ p, file = p ++ ascii ".PDF" := pathExt_iff file (ascii "PDF") (by decide)
  have h3 : pathExt file = ascii ".txt" ↔ ∃ p, file = p ++ ascii ".txt" := pathExt_iff file (ascii "txt") (by decide)
  have h4 : pathExt file = ascii ".TXT" ↔ ∃ p, file = p ++ ascii ".TXT" := pathExt_iff file (ascii "TXT") (by decide)
  have hx : (∃ p, file = p ++ ascii ".txt" ∨ file = p ++ ascii ".TXT") ↔ pathExt file = ascii ".txt" ∨ pathExt file = ascii ".TXT" := by
    rw [h3, h4, exists_or]
  constructor
  · intro h
    cases h with
    | pdfType h => rcases h with h | h <;> rw [h] <;> exact ⟨by simp, rfl⟩
    | txtType h => rcases h with h | h | h <;> rw [h] <;> exact ⟨by simp, rfl⟩
    | txtName h e =>
      subst h
      rw [hx] at e
      refine ⟨by simp, ?_⟩
      simp only [outKind]
      rcases e with e | e <;> rw [e] <;> decide
    | pdfName h e =>
      subst h
      rw [hx] at e
      refine ⟨by simp, ?_⟩
      simp only [outKind, if_neg e, ite_self]
      decide
  · rintro ⟨hk, h⟩
    rcases type with _ | t
    · by_cases e : pathExt file = ascii ".txt" ∨ pathExt file = ascii ".TXT"
      · have : outKind none file = .txt := by
          simp only [outKind]
          rcases e with e | e <;> rw [e] <;> decide
        rw [this] at h; subst h
        exact .txtName rfl (hx.2 e)
      · have : outKind none file = .pdf := by
          simp only [outKind, if_neg e, ite_self]
          decide
        rw [this] at h; subst h
        exact .pdfName rfl (fun c => e (hx.1 c))
    · simp only [outKind] at h
      by_cases c1 : t = ascii "pdf" ∨ t = ascii "PDF"
      · rw [if_pos c1] at h; subst h
        exact .pdfType (c1.imp (congrArg some) (congrArg some))
      · rw [if_neg c1] at h
        by_cases c2 : t = ascii "txt" ∨ t = ascii "text" ∨ t = ascii "TXT"
        · rw [if_pos c2] at h; subst h
          exact .txtType (c2.imp (congrArg some) (Or.imp (congrArg some) (congrArg some)))
        · rw [if_neg c2] at h
          exact absurd h.symm hk

/-- non-vacuity: `a.txt` is text, `txt` and `a.txt/b` are not, nor is `a.txt` with `--type pdf` -/
example : KindAsked none (ascii "a.txt") .txt ∧ KindAsked none (ascii "txt") .pdf ∧ KindAsked none (ascii "a.txt/b") .pdf ∧ KindAsked (some (ascii "pdf")) (ascii "a.txt") .pdf ∧
    ∀ kind, ¬ KindAsked (some (ascii "odt")) (ascii "a.txt") kind := by
  simp only [C123_kind]
  refine ⟨by decide, by decide, by decide, by decide, ?_⟩
  intro kind
  cases kind <;> decide

/-- What is written to the output file if there is no error, and that nothing is written if nothing is selected. -/
theorem outputStep_ok {α : Type} {W : World} {type : Option (List Nat)} {render : OutKind → List α → Option (List Nat)} {f : List Nat} {items : List α} {s : Cmd}
    (h : (outputStep W type render (some f) items s).outcome = .ok ()) :
    (∃ kind, KindAsked type f kind) ∧ (items = [] → outputStep W type render (some f) items s = .go s ∧ KindAsked type f .pdf) ∧
    (items ≠ [] → ∃ kind body, KindAsked type f kind ∧ render kind items = some body ∧ (outputStep W type render (some f) items s).state.disk f = some body ∧
      (outputStep W type render (some f) items s).state.k = s.k) := by
  have hw : ∀ body, (writeOutput W f body s).outcome = .ok () → (writeOutput W f body s).state.disk f = some body ∧ (writeOutput W f body s).state.k = s.k := by
    intro body
    unfold writeOutput
    dsimp only
    by_cases h1 : W.openFails = true
    · rw [if_pos h1]; intro h; cases h
    rw [if_neg h1]
    rcases W.room with _ | m <;> dsimp only <;> split
    · intro h; cases h
    · intro _
      refine ⟨?_, rfl⟩
      show s.disk.set f _ f = _
      rw [set_same, List.take_length]
    · intro h; cases h
    · rename_i hn
      intro _
      refine ⟨?_, rfl⟩
      show s.disk.set f _ f = _
      rw [set_same, List.take_of_length_le (Nat.le_of_not_lt hn)]
  unfold outputStep at h ⊢
  dsimp only at h ⊢
  split at h
  · cases h
  rename_i hf
  simp only [if_neg hf]
  rcases hk : outKind type f with _ | _ | _
  · have ha : KindAsked type f .pdf := (C123_kind type f _).2 ⟨by simp, hk⟩
    rw [hk] at h
    dsimp only at h ⊢
    refine ⟨⟨_, ha⟩, ?_, ?_⟩
    · rintro rfl; exact ⟨rfl, ha⟩
    · intro hi
      have hi' : ¬ items.length = 0 := by simpa using hi
      rw [if_neg hi'] at h ⊢
      rcases hr : render .pdf items with _ | body
      · rw [hr] at h; cases h
      · rw [hr] at h
        obtain ⟨a, b⟩ := hw body h
        exact ⟨_, body, ha, hr, a, b⟩
  · have ha : KindAsked type f .txt := (C123_kind type f _).2 ⟨by simp, hk⟩
    rw [hk] at h
    dsimp only at h ⊢
    refine ⟨⟨_, ha⟩, ?_, ?_⟩
    · rintro rfl; cases h
    · intro hi
      have hi' : ¬ items.length = 0 := by simpa using hi
      rw [if_neg hi'] at h ⊢
      rcases hr : render .txt items with _ | body
      · rw [hr] at h; cases h
      · rw [hr] at h
        obtain ⟨a, b⟩ := hw body h
        exact ⟨_, body, ha, hr, a, b⟩
  · rw [hk] at h; cases h

/-- The statement of C123 for keys: `keys --output`, if it reports no error, has written the keys selected to the file, as the kind of file asked for. -/
def C123_Statement (P : List Key → Prop) : Prop :=
  ∀ (C : Codec) (E : PwEnv) (U : Unicode) (V : KeysEnv) (o : KeysCmd) (disk : Disk) (r : Course) (f : List Nat),
    o.delete = false → o.newKeys = none → o.importFile = none → o.exportFile = none → o.output = some f → keysCommand C E U V o disk = some r → r.outcome = .ok () →
    P (r.state.k.inst.keys.filter (keyFilter U V.now o.filter)) →
    ∃ kind body, KindAsked o.type f kind ∧ V.render kind (r.state.k.inst.keys.filter (keyFilter U V.now o.filter)) = some body ∧ r.state.disk f = some body

/-- **C123**, what holds: if at least one key is selected (of the keys loaded); the same for messages, printed without listing them.  Missing: if nothing is selected a PDF is not
written, though no error is reported. -/
theorem C123_partial : C123_Statement (fun l => l ≠ []) ∧
    ∀ (C : Codec) (E : PwEnv) (U : Unicode) (V : MsgsEnv) (o : MsgsCmd) (disk : Disk) (r : Course) (f : List Nat),
      o.delete = false → o.new = false → o.list = false → o.output = some f → messagesCommand C E U V o disk = some r → r.outcome = .ok () →
      r.state.k.inst.messages.filter (msgFilter U o.filter) ≠ [] →
      ∃ kind body, KindAsked o.type f kind ∧ V.render kind (r.state.k.inst.messages.filter (msgFilter U o.filter)) = some body ∧ r.state.disk f = some body := by
  constructor
  · intro C E U V o disk r f h1 h2 h3 h4 ho h hok hne
    unfold keysCommand at h
    rw [if_neg (by simp [KeysCmd.any, ho])] at h
    rw [andThen_skip (f := keysDelete C E U V o) (fun s => by unfold keysDelete; rw [h1]; rfl), andThen_skip (f := keysNew C E U V o) (fun s => by unfold keysNew; rw [h2]),
      andThen_skip (f := keysImport C E U V o) (fun s => by unfold keysImport; rw [h3]), andThen_skip (f := keysExport C E U V o) (fun s => by unfold keysExport; rw [h4])] at h
    rcases hop : openStore C E V.loadW o.access o.file disk with _ | c
    · rw [hop] at h; cases h
    rw [hop] at h
    rcases openStore_cases hop with ⟨oc, k, hoc, rfl⟩ | ⟨k, -, -, -, rfl⟩
    · rw [andThen_stop, andThen_stop, Option.some.injEq] at h
      subst h
      exact absurd hok hoc
    rw [andThen_go] at h
    unfold keysList at h
    dsimp only at h
    have key : ∀ s : Cmd, some (outputStep V.outputW o.type V.render o.output (s.k.inst.keys.filter (keyFilter U V.now o.filter)) s) = some r →
        ∃ kind body, KindAsked o.type f kind ∧ V.render kind (r.state.k.inst.keys.filter (keyFilter U V.now o.filter)) = some body ∧ r.state.disk f = some body := by
      intro s hs
      rw [Option.some.injEq] at hs
      subst hs
      rw [ho] at hok hne ⊢
      obtain ⟨-, b, c⟩ := outputStep_ok hok
      by_cases hi : s.k.inst.keys.filter (keyFilter U V.now o.filter) = []
      · rw [(b hi).1] at hne; exact absurd hi hne
      · obtain ⟨kind, body, a1, a2, a3, a4⟩ := c hi
        rw [a4]
        exact ⟨kind, body, a1, a2, a3⟩
    split at h
    · split at h
      · rename_i hl
        rw [andThen_stop, Option.some.injEq] at h
        subst h
        simp only [Course.state] at hne
        rw [List.length_eq_zero_iff.1 hl] at hne
        exact absurd rfl hne
      · split at h
        · rename_i hl
          rw [andThen_stop, Option.some.injEq] at h
          subst h
          simp only [Course.state] at hne
          exact absurd (by simpa [summaryOfKeys] using hl) hne
        · exact key _ h
    · exact key _ h
  · intro C E U V o disk r f h1 h2 hl ho h hok hne
    unfold messagesCommand at h
    rw [if_neg (by simp [MsgsCmd.any, ho])] at h
    rw [andThen_skip (f := messagesDelete C E U V o) (fun s => by unfold messagesDelete; rw [h1]; rfl),
      andThen_skip (f := messagesNew C E U V o) (fun s => by unfold messagesNew; rw [h2]; rfl),
      andThen_skip (f := fun s => some (messagesList U V o s)) (fun s => by unfold messagesList; rw [hl]; rfl)] at h
    rcases hop : openStore C E V.loadW o.access o.file disk with _ | c
    · rw [hop] at h; cases h
    rw [hop] at h
    rcases openStore_cases hop with ⟨oc, k, hoc, rfl⟩ | ⟨k, -, -, -, rfl⟩
    · rw [andThen_stop, Option.some.injEq] at h
      subst h
      exact absurd hok hoc
    rw [andThen_go, Option.some.injEq] at h
    subst h
    rw [ho] at hok hne ⊢
    obtain ⟨-, b, c⟩ := outputStep_ok hok
    by_cases hi : k.inst.messages.filter (msgFilter U o.filter) = []
    · rw [(b hi).1] at hne; exact absurd hi hne
    · obtain ⟨kind, body, a1, a2, a3, a4⟩ := c hi
      rw [a4]
      exact ⟨kind, body, a1, a2, a3⟩

/-- `keys --key-id ZZ --output [2]`; there is no such key -/
def exNoneCmd : KeysCmd := { access := exAccess, file := [1], output := some [2], filter := { ids := [lit "ZZ"] } }

theorem exNone_runs {C : Codec} (hC : C.Lawful) (E : PwEnv) (body : List Nat) :
    ∃ r, keysCommand C E unicode15 (exShowEnv body) exNoneCmd (exStoreDisk C) = some r ∧ r.outcome = .ok () ∧ r.state.disk = exStoreDisk C := by
  obtain ⟨k, hl, hs, -, -⟩ := load_exStore hC E exStore 0 (by decide) (by decide) (by decide) (by decide)
  have hids := sameStore_ids hs
  have hsel : k.inst.keys.filter (keyFilter unicode15 0 { ids := [lit "ZZ"] }) = [] := by
    rw [List.filter_eq_nil_iff]
    intro a ha hf
    have hmem : a.id.val ∈ k.inst.keys.map (fun k => k.id.val) := List.mem_map.2 ⟨a, ha, rfl⟩
    rw [hids] at hmem
    have e : keyFilter unicode15 0 { ids := [lit "ZZ"] } a = listedFold unicode15 a.id.val (vettedKeepers unicode15 [lit "ZZ"]) := by
      unfold keyFilter
      dsimp only
      rw [if_neg (by decide), if_pos (by decide +kernel)]
    rw [e] at hf
    generalize a.id.val = v at hmem hf
    revert v
    decide +kernel
  have hop : openStore C E (exShowEnv body).loadW exNoneCmd.access exNoneCmd.file (exStoreDisk C) = some (.go ⟨exStoreDisk C, k, [], []⟩) :=
    openStore_ok (by rw [show exNoneCmd.access = exAccess from rfl, show exNoneCmd.file = [1] from rfl, prepared_example]) hl
  refine ⟨.go ⟨exStoreDisk C, k, [], []⟩, ?_, rfl, rfl⟩
  unfold keysCommand
  rw [if_neg (by simp [KeysCmd.any, exNoneCmd]), hop,
    andThen_skip (f := keysDelete C E unicode15 (exShowEnv body) exNoneCmd) (fun s => rfl), andThen_skip (f := keysNew C E unicode15 (exShowEnv body) exNoneCmd) (fun s => rfl),
    andThen_skip (f := keysImport C E unicode15 (exShowEnv body) exNoneCmd) (fun s => rfl),
    andThen_skip (f := keysExport C E unicode15 (exShowEnv body) exNoneCmd) (fun s => rfl), andThen_go,
    show keysList unicode15 (exShowEnv body) exNoneCmd ⟨exStoreDisk C, k, [], []⟩ = .go ⟨exStoreDisk C, k, [], []⟩ from rfl, andThen_go]
  rw [show keyFilter unicode15 (exShowEnv body).now exNoneCmd.filter = keyFilter unicode15 0 { ids := [lit "ZZ"] } from rfl, hsel]
  rfl

/-- **C123** is violated: no key is selected, so no PDF is written, but the command reports success. -/
theorem C123_violated : ¬ C123_Statement (fun _ => True) := by
  intro h
  obtain ⟨C, hC⟩ := exists_lawful
  let E : PwEnv := ⟨fun _ _ => [], fun _ => true⟩
  obtain ⟨r, hr, ho, hd⟩ := exNone_runs hC E []
  obtain ⟨kind, body, -, -, h3⟩ := h C E unicode15 _ _ _ r [2] rfl rfl rfl rfl rfl hr ho trivial
  rw [hd, show exStoreDisk C [2] = exDisk [2] from set_other _ _ (by decide)] at h3
  revert h3
  simp [exDisk]

/-- not vacuous: with a key selected the file is written -/
example : ∃ (C : Codec) (E : PwEnv) (r : Course), C.Lawful ∧ keysCommand C E unicode15 (exShowEnv (ascii "KEYS")) (exShowCmd [2]) (exStoreDisk C) = some r ∧
    r.outcome = .ok () ∧ r.state.disk [2] = some (ascii "KEYS") := by
  obtain ⟨C, hC⟩ := exists_lawful
  let E : PwEnv := ⟨fun _ _ => [], fun _ => true⟩
  obtain ⟨r, hr, ho, hd⟩ := exShow_runs hC E (ascii "KEYS") [2] (by simp)
  exact ⟨C, E, r, hC, hr, ho, by rw [hd, set_same]⟩

/-! ## C124: generating a file key or a salt -/

/-- the salt set by `--salt` and `--new-salt` -/
theorem saltGiven {E : PwEnv} {o : PfkCmd} (h1 : (setSaltAndPFK E o.access (new [])).1 = .ok ())
    (h2 : (setNewSalt o.newSalt (setSaltAndPFK E o.access (new [])).2).1 = .ok ()) :
    ∃ salt, (setNewSalt o.newSalt (setSaltAndPFK E o.access (new [])).2).2.salt = some salt ∧ 32 ≤ salt.length ∧ SaltGiven o salt := by
  have hset : ∀ (s : List Nat) (k : Krypto), (setSaltFromString s k).1 = .ok () → ∃ salt, (setSaltFromString s k).2.salt = some salt ∧ 32 ≤ salt.length ∧ InHex s salt := by
    intro s k h
    unfold setSaltFromString at h ⊢
    rcases hd : hexDecode s with _ | b
    · rw [hd] at h; cases h
    · rw [hd] at h
      dsimp only at h ⊢
      by_cases hb : b.length < 32
      · rw [if_pos hb] at h; cases h
      · rw [if_neg hb]
        obtain ⟨-, a, c⟩ := hexDecode_some hd
        exact ⟨b, rfl, Nat.le_of_not_lt hb, a, c⟩
  unfold SaltGiven
  rcases hn : o.newSalt with _ | s
  · dsimp only
    show ∃ salt, (setSaltAndPFK E o.access (new [])).2.salt = some salt ∧ _
    unfold setSaltAndPFK at h1 ⊢
    split at h1
    · cases h1
    rename_i hb
    simp only [if_neg hb]
    have rest : ∀ (k : Krypto) (salt : List Nat), k.salt = some salt → (match o.access.pfk with
        | some s => setPFKFromString s k
        | none => match o.access.password with
          | some p => setPFKFromPassword E p k
          | none => (.ok (), k)).2.salt = some salt := by
      intro k salt hk
      split
      · unfold setPFKFromString; split
        · exact hk
        · split <;> exact hk
      · split
        · unfold setPFKFromPassword derivePFK
          dsimp only
          rw [hk]
          dsimp only
          split
          · exact hk
          · rfl
        · exact hk
    rcases ha : o.access.salt with _ | s
    · dsimp only
      obtain ⟨salt, hd, hl⟩ := defaultSalt_decodes
      obtain ⟨-, a, c⟩ := hexDecode_some hd
      exact ⟨salt, rest _ salt hd, hl, a, c⟩
    · rw [ha] at h1
      dsimp only at h1 ⊢
      rcases hs : setSaltFromString s (new []) with ⟨oc, k⟩
      have := hset s (new [])
      rw [hs] at this h1
      rcases oc with ⟨⟩ | e | _
      · obtain ⟨salt, a, b, c⟩ := this rfl
        exact ⟨salt, rest _ salt a, b, c⟩
      · cases h1
      · cases h1
  · rw [hn] at h2
    exact hset _ _ h2

/-- **C124.** `pfk --generate-pfk`, if it reports no error, prints one line and writes no file.  The line is the hexadecimal form of the random bytes drawn, with `--random`, or of the key
derived from a strong password given and the salt given.  If it fails, nothing is printed. -/
theorem C124_generate {C : Codec} {E : PwEnv} {V : PfkEnv} {o : PfkCmd} {disk : Disk} {r : Course} (hg : o.genPFK = true) (h : pfkCommand C E V o disk = some r) :
    r.state.disk = disk ∧ r.state.touched = [] ∧ (r.outcome ≠ .ok () → r.state.printed = []) ∧
    (r.outcome = .ok () → ∃ t, r.state.printed = [.text t] ∧
      (o.random = true → ∃ b, V.draw = some b ∧ t = hexEncode b) ∧
      (o.random = false → ∃ pw salt, PasswordGiven V o pw ∧ E.strong pw = true ∧ SaltGiven o salt ∧ 32 ≤ salt.length ∧ t = hexEncode (E.kdf pw salt))) := by
  unfold pfkCommand at h
  dsimp only at h
  split at h
  · simp only [Option.some.injEq] at h; subst h
    exact ⟨rfl, rfl, fun _ => rfl, fun h => by cases h⟩
  obtain ⟨t1, t2⟩ := generatePFK_touched h
  refine ⟨t2, t1, ?_⟩
  unfold generatePFKCommand at h
  dsimp only at h
  rcases andThen_check h with ⟨h1, h⟩ | ⟨hne, rfl⟩
  swap
  · exact ⟨fun _ => rfl, fun h => absurd h hne⟩
  dsimp only at h
  rcases andThen_check h with ⟨h2, h⟩ | ⟨hne, rfl⟩
  swap
  · exact ⟨fun _ => rfl, fun h => absurd h hne⟩
  dsimp only at h
  obtain ⟨salt, hs, hl, hgiven⟩ := saltGiven h1 h2
  have hder : ∀ v pw, (derivePFK E v V.noise (some ⟨pw, false⟩) (setNewSalt o.newSalt (setSaltAndPFK E o.access (new [])).2).2).1 = .ok () →
      (v = true → E.strong pw = true) ∧
      getPFKString (derivePFK E v V.noise (some ⟨pw, false⟩) (setNewSalt o.newSalt (setSaltAndPFK E o.access (new [])).2).2).2.1 = hexEncode (E.kdf pw salt) := by
    intro v pw
    unfold derivePFK
    dsimp only
    rw [hs]
    dsimp only
    rw [if_neg (by omega)]
    split
    · intro h; cases h
    · rename_i hv
      intro _
      refine ⟨?_, rfl⟩
      rintro rfl
      simpa [Buf.val] using hv
  split at h
  · rename_i hr
    unfold generateHex32 at h
    split at h <;> rename_i hd <;> simp only [Option.some.injEq] at h <;> subst h
    · refine ⟨fun h => absurd rfl h, fun _ => ⟨_, rfl, fun _ => ?_, fun h => by rw [hr] at h; cases h⟩⟩
      split at hd
      · cases hd
      · rename_i hv
        cases hd; exact ⟨_, hv, rfl⟩
    · exact ⟨fun _ => rfl, fun h => by cases h⟩
    · exact ⟨fun _ => rfl, fun h => by cases h⟩
  · rename_i hr
    split at h
    · rename_i pw hp
      rcases andThen_check h with ⟨h3, h⟩ | ⟨hne, rfl⟩
      swap
      · exact ⟨fun _ => rfl, fun h => absurd h hne⟩
      simp only [Option.some.injEq] at h
      subst h
      obtain ⟨d1, d2⟩ := hder true pw h3
      exact ⟨fun h => absurd rfl h, fun _ => ⟨_, rfl, fun h => absurd h hr, fun _ => ⟨pw, salt, Or.inl hp, d1 rfl, hgiven, hl, d2⟩⟩⟩
    · rename_i hp
      split at h
      · cases h
      rename_i oc k hk
      rcases andThen_check h with ⟨h3, h⟩ | ⟨hne, rfl⟩
      swap
      · exact ⟨fun _ => rfl, fun h => absurd h hne⟩
      simp only [Option.some.injEq] at h
      subst h
      unfold askNewPFK at hk
      split at hk
      · cases hk
      rename_i a ha
      obtain ⟨-, p2, -, -⟩ := C43_partial E.strong V.inputs a ha
      split at hk <;> rename_i hres <;> simp only [Option.some.injEq, Prod.mk.injEq] at hk
      · rw [← hk.1] at h3; cases h3
      · rw [← hk.1] at h3; cases h3
      · rename_i pw
        rw [h3] at hk
        obtain ⟨b1, b2, b3, b4, -⟩ := p2 pw hres
        obtain ⟨-, d2⟩ := hder false pw hk.1
        refine ⟨fun h => absurd rfl h, fun _ => ⟨_, rfl, fun h => absurd h hr, fun _ => ⟨pw, salt, Or.inr ⟨hp, a.read - 2, b3, ?_⟩, b1, hgiven, hl, ?_⟩⟩⟩
        · rw [show a.read - 2 + 1 = a.read - 1 by omega]; exact b4
        · rw [← d2, hk.2]

/-- ... and `--generate-salt` prints the hexadecimal form of the random bytes drawn. -/
theorem C124_salt {C : Codec} {E : PwEnv} {V : PfkEnv} {o : PfkCmd} {disk : Disk} {r : Course} (hg : o.genPFK = false) (hs : o.genSalt = true)
    (h : pfkCommand C E V o disk = some r) : r.state.disk = disk ∧ r.state.touched = [] ∧ (r.outcome ≠ .ok () → r.state.printed = []) ∧
    (r.outcome = .ok () → ∃ b, V.draw = some b ∧ r.state.printed = [.text (hexEncode b)]) := by
  unfold pfkCommand at h
  dsimp only at h
  rw [if_neg (by simp [hg]), if_neg (by simp [hg]), if_pos hs] at h
  unfold generateHex32 at h
  rcases hd : V.draw with _ | b
  · rw [hd] at h
    simp only [Option.some.injEq] at h; subst h
    exact ⟨rfl, rfl, fun _ => rfl, fun h => by cases h⟩
  · rw [hd] at h
    simp only [Option.some.injEq] at h; subst h
    exact ⟨rfl, rfl, fun h => absurd rfl h, fun _ => ⟨b, rfl, rfl⟩⟩

/-- What is printed can be used: given with `--pfk` to a later command it is the same key as the password given with the same salt; a salt of 32 bytes drawn is accepted as `--salt`. -/
theorem C124_usable (E : PwEnv) (pw : List Nat) (salt : Option (List Nat)) (bytes file : List Nat) (hk : ∀ s, (E.kdf pw s).length = 32 ∧ ∀ x ∈ E.kdf pw s, x < 256)
    (h : (prepared E { salt := salt, password := some pw } file).1 = .ok ()) (hb : InHex (salt.getD defaultSalt) bytes) :
    let p := prepared E { salt := salt, password := some pw } file
    let q := prepared E { salt := salt, pfk := some (hexEncode (E.kdf pw bytes)) } file
    p.2.pfk = some (E.kdf pw bytes) ∧ q = p := by
  intro p q
  have hdec : ∀ s b, InHex s b → ∀ b', hexDecode s = some b' → b' = b := by
    rintro s b ⟨h1, h2⟩ b' h3
    obtain ⟨-, c1, c2⟩ := hexDecode_some h3
    have := hexDecode_encode b h1
    rw [h2, ← c2, hexDecode_encode b' c1] at this
    simpa using this
  have hpfk : ∀ k : Krypto, setPFKFromString (hexEncode (E.kdf pw bytes)) k = (.ok (), { k with pfk := some (E.kdf pw bytes) }) := by
    intro k
    unfold setPFKFromString
    rw [hexDecode_encode _ (hk bytes).2]
    dsimp only
    rw [if_neg (by simp [(hk bytes).1])]
  have hpw : ∀ k : Krypto, k.salt = some bytes → 32 ≤ bytes.length → setPFKFromPassword E pw k = (.ok (), { k with pfk := some (E.kdf pw bytes) }) := by
    intro k hs hl
    unfold setPFKFromPassword derivePFK
    dsimp only
    rw [hs]
    dsimp only
    rw [if_neg (by omega)]
    rfl
  unfold prepared setSaltAndPFK at h
  simp only [p, q]
  unfold prepared setSaltAndPFK
  simp only [Option.isSome_none, Bool.false_and, Bool.and_false, Bool.false_eq_true, if_false] at h ⊢
  rcases salt with _ | s
  · dsimp only at h ⊢
    obtain ⟨b', hd, hl⟩ := defaultSalt_decodes
    have e := hdec _ _ hb _ hd
    subst e
    rw [hpfk, hpw _ hd hl]
    exact ⟨rfl, rfl⟩
  · dsimp only at h ⊢
    unfold setSaltFromString at h ⊢
    rcases hd : hexDecode s with _ | b'
    · rw [hd] at h; cases h
    · have e := hdec s bytes hb _ hd
      subst e
      rw [hd] at h
      dsimp only at h ⊢
      by_cases hl : b'.length < 32
      · rw [if_pos hl] at h; cases h
      · simp only [if_neg hl]
        rw [hpfk, hpw _ rfl (Nat.le_of_not_lt hl)]
        exact ⟨rfl, rfl⟩

/-- `pfk --generate-pfk --password secret`; the "key derived" here is the password itself -/
def exGen (pw : String) : PfkCmd := { genPFK := true, access := { password := some (ascii pw) } }

/-- non-vacuity: a line is printed, with `--random` another one; a weak password is refused -/
example (C : Codec) : let E : PwEnv := ⟨fun p _ => p, fun p => decide (4 ≤ p.length)⟩
    let V : PfkEnv := ⟨exWorld, exWorld, none, some [255], [], none⟩
    (∃ r, pfkCommand C E V (exGen "secret") exDisk = some r ∧ r.outcome = .ok () ∧ r.state.printed = [.text (ascii "736563726574")]) ∧
    (∃ r, pfkCommand C E V { exGen "secret" with random := true } exDisk = some r ∧ r.outcome = .ok () ∧ r.state.printed = [.text (ascii "ff")]) ∧
    ∃ r, pfkCommand C E V (exGen "abc") exDisk = some r ∧ r.outcome ≠ .ok () := by
  intro E V
  obtain ⟨salt, hd, hl⟩ := defaultSalt_decodes
  have hs : newBase.salt = some salt := hd
  refine ⟨⟨_, rfl, rfl, rfl⟩, ⟨_, rfl, rfl, rfl⟩, ⟨_, rfl, ?_⟩⟩
  intro h; cases h

/-- non-vacuity: such derived keys and such a salt -/
example : let E : PwEnv := ⟨fun _ _ => List.replicate 32 7, fun _ => true⟩
    (∀ s, (E.kdf (ascii "secret") s).length = 32 ∧ ∀ x ∈ E.kdf (ascii "secret") s, x < 256) ∧
    (prepared E { salt := none, password := some (ascii "secret") } [1]).1 = .ok () ∧ ∃ bytes, InHex defaultSalt bytes := by
  intro E
  obtain ⟨salt, hd, -⟩ := defaultSalt_decodes
  obtain ⟨-, a, c⟩ := hexDecode_some hd
  refine ⟨fun s => ⟨by simp [E], ?_⟩, rfl, salt, a, c⟩
  intro x hx
  have := List.eq_of_mem_replicate hx
  omega

/-! ## C125: the prompts of `initialize` -/

/-- **C125.** The keepers entered are the words separated by commas and blanks, in this order, trimmed and in capitals; they are the same as if given with `--keepers`. -/
theorem C125_words (U : Unicode) (s : Runes) : (∃ ws, Lists s ws) ∧ enteredKeepers U s = vettedKeepers U [s] ∧
    ∀ ws, Lists s ws → enteredKeepers U s = ((ws.map (trimSpace U)).filter (fun t => decide (t ≠ []))).map (fun t => t.map U.toUpper) := by
  refine ⟨exists_lists s.length s (Nat.le_refl _), entered_vetted U s, ?_⟩
  intro ws h
  rw [enteredKeepers_pieces, lists_pieces h]
  unfold trimmedWords
  congr 2
  funext t
  cases t <;> simp

/-- **C125.** Answering the questions of `initialize` does exactly what the same values given as options do, on the file system and otherwise. -/
theorem C125_prompts (C : Codec) (E : PwEnv) (U : Unicode) (hU : U.Lawful) (V : InitEnv) (o : InitCmd) (disk : Disk) (a : InitAnswers) (ha : V.answers = some a)
    (hy : o.yes = none) (hc : o.call = none) (hk : o.keys = none) (hp : o.keepers = none) (hl : o.keyLength = none) (hg : o.groupSize = none)
    (hne : trimSpace U V.call ≠ []) :
    let o' : InitCmd := { o with
      call := some V.call
      keys := some a.keys
      keepers := some [a.keepers]
      expire := trimSpace U a.expire
      keyLength := some a.keyLength
      groupSize := some a.groupSize }
    initCommand C E U V o disk = initCommand C E U V o' disk := by
  intro o'
  have hv : vettedKeepers U (enteredKeepers U a.keepers) = vettedKeepers U [a.keepers] := by
    rw [entered_vetted]
    exact (C31_vetting U hU [a.keepers]).2.2.1
  have hlen : ¬ (toUpperStr U (trimSpace U V.call)).length = 0 := by simpa [toUpperStr] using hne
  unfold initCommand
  dsimp only [o']
  rw [hy, hc, hk, hp, hl, hg, ha]
  simp only [Option.getD_none, Option.getD_some, Option.isNone_none, Option.isNone_some, Bool.and_true, Bool.and_false, Bool.false_eq_true, if_true, if_false, if_neg hlen]
  unfold initStore
  simp only [generateKeys_vetted hv]

/-- non-vacuity: questions answered -/
example : ∃ (V : InitEnv) (a : InitAnswers), V.answers = some a ∧ a.keys = 3 ∧ trimSpace unicode15 V.call ≠ [] :=
  ⟨⟨exWorld, lit "SA6MWA", some ⟨3, lit "sm0aa", [], 350, 5⟩, fun _ => .err .other, fun _ => 0, 0, []⟩, _, rfl, rfl, by decide +kernel⟩

/-- non-vacuity: words entered -/
example : Lists (lit " sm0aa, ,SA6MWA x") [lit "sm0aa", lit "SA6MWA", lit "x"] ∧ enteredKeepers unicode15 (lit " sm0aa, ,SA6MWA x") = [lit "SM0AA", lit "SA6MWA", lit "X"] := by
  refine ⟨?_, by decide +kernel⟩
  exact .skip (Or.inr rfl) (.word (w := lit "sm0aa") (s := lit ", ,SA6MWA x") (by decide) (by decide) (by decide) (.skip (Or.inl rfl) (.skip (Or.inr rfl) (.skip (Or.inl rfl)
    (.word (w := lit "SA6MWA") (s := lit " x") (by decide) (by decide) (by decide) (.skip (Or.inr rfl) (.word (w := lit "x") (s := []) (by decide) (by decide) (by decide) .nil)))))))

/-! ## C126: text and strings -/

/-- the replacement character U+FFFD -/
def replacementChar : Char := Char.ofNat 65533

theorem replacementChar_toNat : replacementChar.toNat = 65533 := by decide

/-- **C126.** Turning runes into a string keeps exactly the characters of Unicode; anything else becomes U+FFFD, and nothing is lost or added.  So ids and texts made of characters are
kept as they are. -/
theorem C126_string (s : Runes) :
    (goStr s).length = s.length ∧
    (∀ (i : Nat) (c : Int), s[i]? = some c → (∀ x : Char, c = x.toNat → (goStr s)[i]? = some c) ∧ ((¬ ∃ x : Char, c = x.toNat) → (goStr s)[i]? = some 0xFFFD)) ∧
    (goStr s = s ↔ ∃ t : String, s = t.toList.map (fun x => (x.toNat : Int))) := by
  have hv : ∀ c : Int, validRune c = true ↔ ∃ x : Char, c = x.toNat := by
    intro c
    unfold validRune
    simp only [decide_eq_true_eq]
    constructor
    · intro h
      have hc : c.toNat.isValidChar := by
        unfold Nat.isValidChar
        omega
      refine ⟨Char.ofNatAux c.toNat hc, ?_⟩
      have : (Char.ofNatAux c.toNat hc).toNat = c.toNat := by
        simp [Char.ofNatAux, Char.toNat]
      rw [this]; omega
    · rintro ⟨x, rfl⟩
      have := x.valid
      unfold UInt32.isValidChar Nat.isValidChar at this
      have e : x.toNat = x.val.toNat := rfl
      omega
  refine ⟨by simp [goStr], ?_, ?_⟩
  · intro i c hc
    refine ⟨fun x hx => ?_, fun hn => ?_⟩
    · unfold goStr
      rw [List.getElem?_map, hc, Option.map_some, if_pos ((hv c).2 ⟨x, hx⟩)]
    · unfold goStr
      rw [List.getElem?_map, hc, Option.map_some, if_neg (fun h => hn ((hv c).1 h))]
  · constructor
    · intro h
      have hall : ∀ c ∈ s, ∃ x : Char, c = x.toNat := by
        intro c hc
        by_contra hn
        have hm : goStr s = s.map id := by rw [h, List.map_id]
        unfold goStr at hm
        have := List.map_inj_left.1 hm c hc
        rw [if_neg (fun h => hn ((hv c).1 h))] at this
        exact hn ⟨replacementChar, by rw [replacementChar_toNat, ← show (65533 : Int) = c from this]; norm_num⟩
      choose f hf using hall
      refine ⟨String.ofList (s.attach.map (fun c => f c.1 c.2)), ?_⟩
      rw [String.toList_ofList, List.map_map]
      conv_lhs => rw [← List.attach_map_subtype_val s]
      apply List.map_congr_left
      intro c _
      exact hf c.1 c.2
    · rintro ⟨t, ht⟩
      have hall : ∀ c ∈ s, validRune c = true := by
        intro c hc
        rw [ht] at hc
        obtain ⟨x, -, hx⟩ := List.mem_map.1 hc
        exact (hv c).2 ⟨x, hx.symm⟩
      unfold goStr
      conv_rhs => rw [← List.map_id s]
      exact List.map_congr_left (fun c hc => if_pos (hall c hc))

/-- non-vacuity: a text is kept, half a surrogate pair and a negative rune are not -/
example : goStr (lit "Å➽") = lit "Å➽" ∧ goStr [65, 0xD800, -1, 0x10FFFF, 0x110000] = [65, 0xFFFD, 0xFFFD, 0x10FFFF, 0xFFFD] := by decide

/-! ## Additions to C30 and C58 -/

/-- **C30**: a nil id is contained nowhere. -/
theorem C30_nil (U : Unicode) (keys : List Key) (msgs : List Msg) : containsKeyId U keys none = false ∧ containsMessageId msgs none = false := ⟨rfl, rfl⟩

/-- **C58**: the remaining options of `New` do what they say, the last one given counts, and they touch nothing else. -/
theorem C58_options (opts : List (Krypto → Krypto)) (k : Krypto) (hk : k = new opts) (b : Bool) (file : List Nat) :
    new (opts ++ [withOverwriteKeys b]) = { k with overwriteKeys := b } ∧ new (opts ++ [withOverwrite b]) = { k with overwrite := b } ∧
    new (opts ++ [withInteractive b]) = { k with interactive := b } ∧ new (opts ++ [withPersistence file]) = { k with persistence := file } ∧
    (new []).overwriteKeys = false ∧ (new []).overwrite = false ∧ (new []).interactive = false ∧ (new []).pfk = none ∧
    ∃ salt, (new []).salt = some salt ∧ InHex (ascii "d14461856f830fc5a1f9ba1b845fae5f61c54767ded39cf943174e6869b44476") salt := by
  subst hk
  simp only [new, List.foldl_append, List.foldl_cons, List.foldl_nil]
  obtain ⟨salt, hd, -⟩ := defaultSalt_decodes
  obtain ⟨-, a, c⟩ := hexDecode_some hd
  exact ⟨rfl, rfl, rfl, rfl, rfl, rfl, rfl, rfl, salt, hd, a, c⟩

/-- **C39, C58**: without `WithOverwriteExistingKeysOnImport(true)`, and not interactive, importing keys leaves every key already there as it is and appends the new ones. -/
theorem C39_option {C : Codec} {E : PwEnv} {W : World} {U : Unicode} {noise : Nat → Noise} {answer : Key → Option Bool} {filter : Key → Bool} {opts : List Opt} {disk : Disk}
    {own own' : Krypto} {o : Outcome Unit} {n : Nat} (h1 : (∃ k, own = withOverwriteKeys false k)) (h2 : own.interactive = false ∨ W.terminal = false)
    (h : importFrom C E W U noise answer filter opts disk own = some (o, n, own')) : ∃ added, own'.inst.keys = own.inst.keys ++ added ∧ own'.inst.messages = own.inst.messages := by
  obtain ⟨k, hk⟩ := h1
  have ho : own.overwriteKeys = false := by rw [hk]; rfl
  unfold importFrom at h
  dsimp only at h
  split at h
  · cases h
  · cases h; exact ⟨[], by simp, rfl⟩
  · cases h; exact ⟨[], by simp, rfl⟩
  · rename_i k2 _
    obtain ⟨added, nx, e⟩ := C39_protects U noise ⟨own.overwriteKeys, own.interactive && W.terminal, answer⟩ filter (.ok (k2.inst.keys, k2.inst.callSign)) own.inst ho
      (by intro hc; rcases h2 with h2 | h2 <;> simp [h2] at hc)
    simp only [Option.some.injEq, Prod.mk.injEq] at h
    obtain ⟨-, -, rfl⟩ := h
    refine ⟨added, ?_, ?_⟩ <;> dsimp only <;> rw [e]

end K431
