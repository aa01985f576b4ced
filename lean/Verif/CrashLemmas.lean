import Verif.OrderLemmas
import Verif.SealedLemmas
import Verif.PropsPfk

/-!
# What can make a command panic
-/

namespace K431
open Spec

/-- after a section: it has not panicked, and if the command goes on, `P` holds -/
def Calm (P : Cmd → Prop) : Option Course → Prop
  | none => True
  | some (.go s) => P s
  | some (.stop o _) => o ≠ .panic

theorem Calm.outcome {P : Cmd → Prop} {r : Course} (h : Calm P (some r)) : r.outcome ≠ .panic := by
  cases r with
  | go s => simp [Course.outcome]
  | stop o s => exact h

theorem Calm.mono {P Q : Cmd → Prop} {x : Option Course} (h : Calm P x) (hpq : ∀ s, P s → Q s) : Calm Q x := by
  rcases x with _ | s | ⟨o, s⟩
  · trivial
  · exact hpq _ h
  · exact h

theorem andThen_calm {P Q : Cmd → Prop} {x : Option Course} {f : Cmd → Option Course} (h : Calm P x) (hf : ∀ s, P s → Calm Q (f s)) : Calm Q (andThen x f) := by
  rcases x with _ | s | ⟨o, s⟩
  · trivial
  · exact hf _ h
  · exact h

theorem check_calm {P : Cmd → Prop} {o : Outcome Unit} {s : Cmd} (ho : o ≠ .panic) (hp : o = .ok () → P s) : Calm P (some (check o s)) := by
  rcases o with u | e | _
  · exact hp rfl
  · exact nofun
  · exact absurd rfl ho

/-- the key in memory, if any, has 32 bytes -/
def PfkOk (k : Krypto) : Prop := ∀ key, k.pfk = some key → key.length = 32

/-- there is a key in memory, and it has 32 bytes -/
def PfkSet (k : Krypto) : Prop := ∃ key, k.pfk = some key ∧ key.length = 32

theorem PfkSet.ok {k : Krypto} (h : PfkSet k) : PfkOk k := by
  obtain ⟨key, h1, h2⟩ := h
  intro key' h'
  rw [h1] at h'
  cases h'
  exact h2

theorem save_inst {C : Codec} {E : PwEnv} {W : World} {disk : Disk} {k : Krypto} {r : SaveRun} (h : save C E W disk k = some r) : r.k.inst = k.inst := by
  rcases save_cases h with ⟨-, h1, -⟩ | ⟨path, key, -, -, -, -, e, -⟩
  · exact h1
  · rw [e, saveWrite_k]

theorem derive_calm (E : PwEnv) (v : Bool) (n : Option (Nat → Nat)) (pw : Option Buf) (k : Krypto) : (derivePFK E v n pw k).1 ≠ .panic := by
  unfold derivePFK
  repeat' split
  all_goals simp

theorem saveWrite_calm {C : Codec} {W : World} {key : List Nat} {k : Krypto} (h : key.length = 32) : (saveWrite C W key k).outcome ≠ .panic := by
  unfold saveWrite
  dsimp only
  repeat' split
  all_goals first | omega | simp

section
variable {C : Codec} {E : PwEnv} (hE : ∀ p s, (E.kdf p s).length = 32)
include hE

theorem derive_pfk {v : Bool} {n : Option (Nat → Nat)} {pw : Option Buf} {k : Krypto} (hk : PfkOk k) : PfkOk (derivePFK E v n pw k).2.1 := by
  unfold derivePFK
  repeat' split
  all_goals first
    | exact hk
    | (intro key h; simp only [Option.some.injEq] at h; rw [← h]; exact hE _ _)

theorem saveKey_calm {W : World} {k : Krypto} {r : SaveRun} (hk : PfkOk k) (h : saveKey C E W k = some r) : r.outcome ≠ .panic := by
  unfold saveKey at h
  rcases hp : k.pfk with _ | key
  · rw [hp] at h
    dsimp only at h
    split at h
    · rcases ha : askAndConfirm E.strong W.inputs with _ | a
      · rw [ha] at h; cases h
      · rw [ha] at h
        dsimp only at h
        have h1 := (C43_partial _ _ _ ha).2.2.2
        split at h
        · rename_i pw hpw
          have h2 := derive_calm E false W.noise (some ⟨pw, false⟩) k
          have h3 := derive_pfk hE (v := false) (n := W.noise) (pw := some ⟨pw, false⟩) hk
          have h4 : (derivePFK E false W.noise (some ⟨pw, false⟩) k).1 = .ok () → (derivePFK E false W.noise (some ⟨pw, false⟩) k).2.1.pfk ≠ none := by
            unfold derivePFK
            dsimp only
            repeat' split
            all_goals simp
          generalize derivePFK E false W.noise (some ⟨pw, false⟩) k = d at h h2 h3 h4
          obtain ⟨o, k1, b⟩ := d
          rcases o with u | e | _
          · dsimp only at h
            split at h
            · rename_i key hkey
              simp only [Option.some.injEq] at h
              rw [← h]
              exact saveWrite_calm (h3 key hkey)
            · exact absurd (by assumption) (h4 rfl)
          · simp only [Option.some.injEq] at h; rw [← h]; exact nofun
          · exact absurd rfl h2
        · simp only [Option.some.injEq] at h; rw [← h]; exact nofun
        · rename_i hpw; exact absurd hpw h1
    · simp only [Option.some.injEq] at h; rw [← h]; exact nofun
  · rw [hp] at h
    simp only [Option.some.injEq] at h
    rw [← h]
    exact saveWrite_calm (hk _ hp)

theorem save_calm {W : World} {disk : Disk} {k : Krypto} {r : SaveRun} (hk : PfkOk k) (h : save C E W disk k = some r) : r.outcome ≠ .panic := by
  have hw : ∀ p, saveKey C E W { k with persistence := p } = some r → r.outcome ≠ .panic := fun p h => saveKey_calm hE (k := { k with persistence := p }) hk h
  unfold save at h
  dsimp only at h
  repeat' split at h
  all_goals first
    | exact hw _ h
    | (simp only [Option.some.injEq] at h; rw [← h]; exact nofun)

theorem load_calm {W : World} {disk : Disk} {k k' : Krypto} {o : Outcome Unit} (hk : PfkOk k) (h : load C E W disk k = some (o, k')) :
    o ≠ .panic ∧ (o = .ok () → PfkSet k') := by
  have hr : ∀ key (k : Krypto), key.length = 32 → (loadRead C W disk key k).1 ≠ .panic := by
    intro key k hl
    unfold loadRead
    repeat' split
    all_goals first | omega | simp
  refine ⟨?_, ?_⟩
  · rcases load_cases h with ⟨-, -⟩ | ⟨path, key, -, -, -, h2, hkey⟩
    · unfold load at h
      dsimp only at h
      have he : ∀ e k1, (Outcome.err e, k1) = (o, k') → o ≠ .panic := by
        intro e k1 h
        cases h
        exact nofun
      by_cases h0 : k.persistence.length = 0
      · rw [if_pos h0] at h; exact he _ _ (Option.some.inj h)
      rw [if_neg h0] at h
      generalize resolvePath W k.persistence = R at h
      rcases R with _ | path
      · exact he _ _ (Option.some.inj h)
      dsimp only at h
      by_cases hs : W.statFails = true
      · rw [if_pos hs] at h; exact he _ _ (Option.some.inj h)
      rw [if_neg hs] at h
      generalize disk path = R at h
      rcases R with _ | c
      · exact he _ _ (Option.some.inj h)
      dsimp only at h
      rcases hp : k.pfk with _ | key
      · rw [hp] at h
        dsimp only at h
        split at h
        · generalize askForPassword 0 W.inputs = R at h
          rcases R with _ | ⟨_ | pw, n⟩
          · cases h
          · exact he _ _ (Option.some.inj h)
          · dsimp only at h
            have h3 := derive_pfk hE (v := false) (n := W.noise) (pw := some ⟨pw, false⟩) (k := { k with persistence := path, pfk := none }) (by intro _ h; cases h)
            have h2 := derive_calm E false W.noise (some ⟨pw, false⟩) { k with persistence := path, pfk := none }
            have h4 : (derivePFK E false W.noise (some ⟨pw, false⟩) { k with persistence := path, pfk := none }).1 = .ok () →
                (derivePFK E false W.noise (some ⟨pw, false⟩) { k with persistence := path, pfk := none }).2.1.pfk ≠ none := by
              unfold derivePFK
              dsimp only
              repeat' split
              all_goals simp
            generalize derivePFK E false W.noise (some ⟨pw, false⟩) { k with persistence := path, pfk := none } = d at h h2 h3 h4
            obtain ⟨o1, k1, b⟩ := d
            rcases o1 with u | e | _
            · dsimp only at h
              split at h
              · rename_i key hkey
                have := hr key k1 (h3 key hkey)
                rw [Option.some.inj h] at this
                exact this
              · exact absurd (by assumption) (h4 rfl)
            · exact he _ _ (Option.some.inj h)
            · exact absurd rfl h2
        · exact he _ _ (Option.some.inj h)
      · rw [hp] at h
        have := hr key { k with persistence := path } (hk _ hp)
        dsimp only at h
        rw [hp] at this
        rw [Option.some.inj h] at this
        exact this
    · have : key.length = 32 := by
        rcases hkey with hkey | ⟨-, -, -, pw, n, salt, -, -, -, rfl⟩
        · exact hk _ hkey
        · exact hE _ _
      have := hr key { k with persistence := path, pfk := some key } this
      rw [← h2] at this
      exact this
  · rintro rfl
    obtain ⟨path, key, c, w, -, -, -, -, rfl, hkey⟩ := load_ok h
    refine ⟨key, rfl, ?_⟩
    rcases hkey with hkey | ⟨-, -, -, pw, n, salt, -, -, -, rfl⟩
    · exact hk _ hkey
    · exact hE _ _

theorem saveStep_calm {P : Cmd → Prop} {W : World} {s : Cmd} (hk : PfkOk s.k) (hp : ∀ r, save C E W s.disk s.k = some r → P (s.saved r)) : Calm P (saveStep C E W s) := by
  unfold saveStep
  rcases hs : save C E W s.disk s.k with _ | r
  · trivial
  · exact check_calm (save_calm hE hk hs) (fun _ => hp r hs)

theorem saveStep_set {W : World} {s : Cmd} (hk : PfkSet s.k) : Calm (fun s => PfkSet s.k) (saveStep C E W s) := by
  refine saveStep_calm hE hk.ok (fun r hr => ?_)
  obtain ⟨key, h1, h2⟩ := hk
  exact ⟨key, save_pfk hr h1, h2⟩

theorem loadStep_calm {W : World} {s : Cmd} (hk : PfkOk s.k) : Calm (fun s => PfkSet s.k) (loadStep C E W s) := by
  unfold loadStep
  rcases hs : load C E W s.disk s.k with _ | ⟨o, k'⟩
  · trivial
  · obtain ⟨h1, h2⟩ := load_calm hE hk hs
    exact check_calm h1 h2

theorem setSaltAndPFK_calm (a : Access) {k : Krypto} (hk : PfkOk k) : (setSaltAndPFK E a k).1 ≠ .panic ∧ PfkOk (setSaltAndPFK E a k).2 := by
  have h1 : ∀ s k, (setPFKFromString s k).1 ≠ .panic ∧ (PfkOk k → PfkOk (setPFKFromString s k).2) := by
    intro s k
    unfold setPFKFromString
    repeat' split
    all_goals refine ⟨by simp, fun hk => ?_⟩
    · exact hk
    · exact hk
    · intro key h
      simp only [Option.some.injEq] at h
      rw [← h]
      omega
  have h2 : ∀ s k, (setPFKFromPassword E s k).1 ≠ .panic ∧ (PfkOk k → PfkOk (setPFKFromPassword E s k).2) := fun s k => ⟨derive_calm _ _ _ _ _, fun hk => derive_pfk hE hk⟩
  have h3 : ∀ s k, (setSaltFromString s k).1 ≠ .panic ∧ (PfkOk k → PfkOk (setSaltFromString s k).2) := by
    intro s k
    unfold setSaltFromString
    repeat' split
    all_goals exact ⟨by simp, fun hk => hk⟩
  unfold setSaltAndPFK
  split
  · exact ⟨by simp, hk⟩
  rcases hs : a.salt with _ | s
  · dsimp only
    rcases a.pfk with _ | p
    · rcases a.password with _ | p
      · exact ⟨by simp, hk⟩
      · exact ⟨(h2 p k).1, (h2 p k).2 hk⟩
    · exact ⟨(h1 p k).1, (h1 p k).2 hk⟩
  · dsimp only
    have h4 := (h3 s k).1
    have h5 := (h3 s k).2 hk
    generalize setSaltFromString s k = d at h4 h5
    obtain ⟨o, k1⟩ := d
    rcases o with u | e | _
    · dsimp only
      rcases a.pfk with _ | p
      · rcases a.password with _ | p
        · exact ⟨by simp, h5⟩
        · exact ⟨(h2 p k1).1, (h2 p k1).2 h5⟩
      · exact ⟨(h1 p k1).1, (h1 p k1).2 h5⟩
    · exact ⟨h4, h5⟩
    · exact ⟨h4, h5⟩

theorem prepared_calm (a : Access) (file : List Nat) : (prepared E a file).1 ≠ .panic ∧ PfkOk (prepared E a file).2 :=
  setSaltAndPFK_calm hE a (fun _ h => by cases h)

theorem openStore_calm {W : World} {a : Access} {file : List Nat} {disk : Disk} : Calm (fun s => PfkSet s.k) (openStore C E W a file disk) := by
  unfold openStore
  dsimp only
  refine andThen_calm (P := fun s => PfkOk s.k) (check_calm (prepared_calm hE a file).1 (fun _ => (prepared_calm hE a file).2)) (fun s hs => loadStep_calm hE hs)

end

theorem output_calm {α : Type} {W : World} {type : Option (List Nat)} {render : OutKind → List α → Option (List Nat)} {file : Option (List Nat)} {items : List α} {s : Cmd} :
    Calm (fun _ => True) (some (outputStep W type render file items s)) := by
  have hw : ∀ file body, Calm (fun _ => True) (some (writeOutput W file body s)) := by
    intro file body
    unfold writeOutput
    dsimp only
    repeat' split
    all_goals first | trivial | exact nofun
  unfold outputStep
  repeat' split
  all_goals first | exact hw _ _ | trivial | exact nofun

theorem importLoop_calm (U : Unicode) (o : ImportOpts) (filter : Key → Bool) (call : Sl) : ∀ (l : List Key) (noise : Nat → Noise) (n : Nat) (inst : Inst),
    (importLoop U noise o filter call l n inst).1 ≠ .panic := by
  intro l
  induction l with
  | nil => intro noise n inst; exact nofun
  | cons k l ih =>
    intro noise n inst
    unfold importLoop
    dsimp only
    repeat' split
    all_goals first | exact ih _ _ _ | exact nofun

theorem keysCommand_calm {C : Codec} {E : PwEnv} (hE : ∀ p s, (E.kdf p s).length = 32) {U : Unicode} {V : KeysEnv} {o : KeysCmd} (he : o.expire ≠ some .panic) {disk : Disk} :
    Calm (fun _ => True) (keysCommand C E U V o disk) := by
  unfold keysCommand
  split
  · exact nofun
  refine andThen_calm (P := fun _ => True) ?_ (fun s _ => output_calm)
  refine andThen_calm (P := fun s => PfkSet s.k) ?_ (fun s hs => ?_)
  swap
  · unfold keysList
    dsimp only
    repeat' split
    all_goals first | trivial | exact nofun
  refine andThen_calm (P := fun s => PfkSet s.k) ?_ (fun s hs => ?_)
  swap
  · unfold keysExport
    split
    · exact hs
    split
    · exact nofun
    · rename_i f _ _
      have hk : PfkOk (exportKeys (keyFilter U V.now o.filter) [withPersistence f, withOverwrite o.yes] s.k) := by
        obtain ⟨key, h1, h2⟩ := hs
        intro key' h
        have : (exportKeys (keyFilter U V.now o.filter) [withPersistence f, withOverwrite o.yes] s.k).pfk = some (s.k.pfk.getD []) := rfl
        rw [this, h1] at h
        cases h
        exact h2
      rcases hq : save C E V.exportW s.disk (exportKeys (keyFilter U V.now o.filter) [withPersistence f, withOverwrite o.yes] s.k) with _ | r
      · trivial
      · exact check_calm (save_calm hE hk hq) (fun _ => hs)
  refine andThen_calm (P := fun s => PfkSet s.k) ?_ (fun s hs => ?_)
  swap
  · unfold keysImport
    split
    · exact hs
    split
    · exact nofun
    · rename_i f _ _
      rcases hq : importFrom C E V.readW U V.noise V.answer (keyFilter U V.now o.filter) [.persistence f, .interactive true] s.disk s.k with _ | ⟨r, n, k⟩
      · trivial
      · dsimp only
        have hp := importFrom_pfk hq
        have hr : r ≠ .panic := by
          have hl : ∀ o k', load C E V.readW s.disk (newIncoming U s.k [.persistence f, .interactive true]).k = some (o, k') → o ≠ .panic := by
            intro o k' h
            exact (load_calm hE (by intro _ h; cases h) h).1
          unfold importFrom at hq
          dsimp only at hq
          generalize load C E V.readW s.disk (newIncoming U s.k [.persistence f, .interactive true]).k = R at hq hl
          rcases R with _ | ⟨_ | e | _, k'⟩
          · cases hq
          · simp only [Option.some.injEq, Prod.mk.injEq] at hq
            rw [← hq.1]
            exact importLoop_calm _ _ _ _ _ _ _ _
          · simp only [Option.some.injEq, Prod.mk.injEq] at hq
            rw [← hq.1]
            exact nofun
          · exact absurd rfl (hl _ _ rfl)
        refine andThen_calm (P := fun s => PfkSet s.k) (check_calm hr (fun _ => ?_)) (fun s hs => saveStep_set hE hs)
        obtain ⟨key, h1, h2⟩ := hs
        exact ⟨key, hp.trans h1, h2⟩
  refine andThen_calm (P := fun s => PfkSet s.k) ?_ (fun s hs => ?_)
  swap
  · unfold keysNew
    split
    · exact hs
    split
    · split
      · trivial
      · rename_i r inst t hg
        have hr : r ≠ .panic := by
          unfold generateKeys at hg
          rcases hx : o.expire with _ | oc
          · rw [hx] at hg
            dsimp only at hg
            generalize generateLoop _ _ _ _ _ _ _ = R at hg
            rcases R with _ | R
            · cases hg
            · cases hg; exact nofun
          · rw [hx] at hg
            rcases oc with x | e | _
            · dsimp only at hg
              generalize generateLoop _ _ _ _ _ _ _ = R at hg
              rcases R with _ | R
              · cases hg
              · cases hg; exact nofun
            · cases hg; exact nofun
            · exact absurd hx he
        exact andThen_calm (P := fun s => PfkSet s.k) (check_calm hr (fun _ => hs)) (fun s hs => saveStep_set hE hs)
    · exact hs
  refine andThen_calm (P := fun s => PfkSet s.k) (openStore_calm hE) (fun s hs => ?_)
  unfold keysDelete
  dsimp only
  have fin : ∀ r : Nat × Inst, Calm (fun s => PfkSet s.k)
      (if r.1 > 0 then saveStep C E V.deleteW { s with k := { s.k with inst := r.2 } } else some (.go { s with k := { s.k with inst := r.2 } })) := by
    intro r
    split
    · exact saveStep_set hE hs
    · exact hs
  split
  · split
    · exact nofun
    split
    · split
      · exact nofun
      split
      · exact nofun
      split
      · exact fin _
      · exact fin (0, _)
    · exact fin _
  · exact hs

theorem pfkCommand_calm {C : Codec} {E : PwEnv} (hE : ∀ p s, (E.kdf p s).length = 32) {V : PfkEnv} (hd : V.draw ≠ none) {o : PfkCmd} {disk : Disk} :
    Calm (fun _ => True) (pfkCommand C E V o disk) := by
  have hex : ∀ (P : Cmd → Prop) (f : List Nat → Option Course) (s : Cmd), (∀ t, Calm P (f t)) →
      Calm P (match generateHex32 V.draw with | .ok t => f t | .err e => some (.stop (.err e) s) | .panic => some (.stop .panic s)) := by
    intro P f s h
    unfold generateHex32
    rcases hx : V.draw with _ | b
    · exact absurd hx hd
    · exact h _
  have hask : ∀ k r k', askNewPFK E V k = some (r, k') → r ≠ .panic ∧ (PfkOk k → PfkOk k') := by
    intro k r k' h
    unfold askNewPFK at h
    rcases ha : askAndConfirm E.strong V.inputs with _ | a
    · rw [ha] at h; cases h
    · rw [ha] at h
      dsimp only at h
      have h1 := (C43_partial _ _ _ ha).2.2.2
      split at h
      · cases h; exact ⟨nofun, id⟩
      · exact absurd (by assumption) h1
      · cases h; exact ⟨derive_calm _ _ _ _ _, fun hk => derive_pfk hE hk⟩
  have hstr : ∀ s k, (setPFKFromString s k).1 ≠ .panic ∧ (PfkOk k → PfkOk (setPFKFromString s k).2) := by
    intro s k
    unfold setPFKFromString
    repeat' split
    all_goals refine ⟨by simp, fun hk => ?_⟩
    · exact hk
    · exact hk
    · intro key h
      simp only [Option.some.injEq] at h
      rw [← h]
      omega
  have hpw : ∀ s k, (setPFKFromPassword E s k).1 ≠ .panic ∧ (PfkOk k → PfkOk (setPFKFromPassword E s k).2) := fun s k => ⟨derive_calm _ _ _ _ _, fun hk => derive_pfk hE hk⟩
  have hsalt : ∀ n k, (setNewSalt n k).1 ≠ .panic ∧ (PfkOk k → PfkOk (setNewSalt n k).2) := by
    intro n k
    unfold setNewSalt setSaltFromString
    repeat' split
    all_goals exact ⟨by simp, fun hk => hk⟩
  have hsave : ∀ s : Cmd, PfkOk s.k → Calm (fun _ => True) (saveStep C E V.saveW s) := fun s hs => saveStep_calm hE hs (fun _ _ => trivial)
  have hun : ∀ (s : Cmd) (next : Cmd → Option Course), Calm (fun _ => True) (next s) → Calm (fun _ => True) (unlessDeclined V o.yes s next) := by
    intro s next h
    unfold unlessDeclined
    repeat' split
    all_goals first | exact h | exact nofun
  unfold pfkCommand
  dsimp only
  split
  · exact nofun
  split
  · unfold generatePFKCommand
    dsimp only
    have h0 := setSaltAndPFK_calm hE o.access (k := new []) (fun _ h => by cases h)
    refine andThen_calm (P := fun s => PfkOk s.k) (check_calm h0.1 (fun _ => h0.2)) (fun s hs => ?_)
    refine andThen_calm (P := fun s => PfkOk s.k) (check_calm (hsalt _ _).1 (fun _ => (hsalt _ _).2 hs)) (fun s hs => ?_)
    split
    · exact hex _ _ _ (fun _ => trivial)
    split
    · exact andThen_calm (P := fun _ => True) (check_calm (derive_calm _ _ _ _ _) (fun _ => trivial)) (fun s _ => trivial)
    split
    · trivial
    · rename_i r k hq
      exact andThen_calm (P := fun _ => True) (check_calm (hask _ _ _ hq).1 (fun _ => trivial)) (fun s _ => trivial)
  split
  · exact hex _ _ _ (fun _ => trivial)
  split
  · trivial
  rename_i file _
  have hpre : (preparedOld E o.access o.old file).1 ≠ .panic ∧ PfkOk (preparedOld E o.access o.old file).2 := by
    unfold preparedOld
    have := prepared_calm hE o.access file
    generalize prepared E o.access file = p at this
    obtain ⟨_ | e | _, k⟩ := p
    · dsimp only
      split
      · exact this
      · exact ⟨(hpw _ _).1, (hpw _ _).2 this.2⟩
    · exact this
    · exact this
  refine andThen_calm (P := fun s => PfkSet s.k) ?_ (fun s hs => ?_)
  · exact andThen_calm (P := fun s => PfkOk s.k) (check_calm hpre.1 (fun _ => hpre.2)) (fun s hs => loadStep_calm hE hs)
  unfold changeFileKey
  dsimp only
  refine andThen_calm (P := fun s => PfkOk s.k) (check_calm (hsalt _ _).1 (fun _ => (hsalt _ _).2 hs.ok)) (fun s hs => ?_)
  split
  · exact nofun
  split
  · exact nofun
  split
  · refine hun _ _ ?_
    unfold generateHex32
    rcases hx : V.draw with _ | b
    · exact absurd hx hd
    · exact andThen_calm (P := fun s => PfkOk s.k) (check_calm (hstr _ _).1 (fun _ => (hstr _ _).2 hs)) (fun s hs => hsave _ hs)
  split
  · exact andThen_calm (P := fun s => PfkOk s.k) (check_calm (hpw _ _).1 (fun _ => (hpw _ _).2 hs)) (fun s hs => hun _ _ (hsave _ hs))
  split
  · exact andThen_calm (P := fun s => PfkOk s.k) (check_calm (hstr _ _).1 (fun _ => (hstr _ _).2 hs)) (fun s hs => hun _ _ (hsave _ hs))
  split
  · trivial
  · rename_i r k hq
    exact andThen_calm (P := fun s => PfkOk s.k) (check_calm (hask _ _ _ hq).1 (fun _ => (hask _ _ _ hq).2 hs)) (fun s hs => hsave _ hs)

theorem initCommand_calm {C : Codec} {E : PwEnv} (hE : ∀ p s, (E.kdf p s).length = 32) {U : Unicode} {V : InitEnv} (hp : ∀ s, V.parse s ≠ .panic) {o : InitCmd} {disk : Disk} :
    Calm (fun _ => True) (initCommand C E U V o disk) := by
  have hst : ∀ yes call keys expire keepers keyLength groupSize keyColumns columns,
      Calm (fun _ => True) (initStore C E U V o.access o.file yes call keys expire keepers keyLength groupSize keyColumns columns disk) := by
    intro yes call keys expire keepers keyLength groupSize keyColumns columns
    unfold initStore
    dsimp only
    generalize hn : new [withPersistence o.file, withInteractive true, withKeyLength keyLength.toNat, withGroupSize groupSize.toNat,
      withKeyColumns keyColumns.toNat, withColumns columns.toNat, withCallSign U call, withOverwrite yes] = k0
    have hk0 : PfkOk k0 := by
      intro key h
      rw [← hn] at h
      have : ∀ k : Krypto, (withCallSign U call k).pfk = k.pfk := by
        intro k
        unfold withCallSign setCallSign
        dsimp only
        repeat' split
        all_goals rfl
      simp only [new, List.foldl_cons, List.foldl_nil, withOverwrite] at h
      rw [this] at h
      cases h
    have h0 := setSaltAndPFK_calm hE o.access hk0
    refine andThen_calm (P := fun s => PfkOk s.k) (check_calm h0.1 (fun _ => h0.2)) (fun s hs => ?_)
    have ha : assertSettings s.k ≠ .panic := by
      unfold assertSettings
      repeat' split
      all_goals simp
    refine andThen_calm (P := fun s => PfkOk s.k) (check_calm ha (fun _ => hs)) (fun s hs => ?_)
    split
    · split
      · trivial
      · rename_i r inst t hg
        have hr : r ≠ .panic := by
          unfold generateKeys at hg
          split at hg
          · generalize generateLoop _ _ _ _ _ _ _ = R at hg
            rcases R with _ | R
            · cases hg
            · cases hg; exact nofun
          · cases hg; exact nofun
          · rename_i hx
            split at hx
            · cases hx
            · rename_i oc hoc
              split at hoc
              · cases hoc; exact absurd hx (hp _)
              · cases hoc
        exact andThen_calm (P := fun s => PfkOk s.k) (check_calm hr (fun _ => hs)) (fun s hs => saveStep_calm hE hs (fun _ _ => trivial))
    · exact saveStep_calm hE hs (fun _ _ => trivial)
  unfold initCommand
  dsimp only
  repeat' split
  all_goals first | exact hst _ _ _ _ _ _ _ _ _ | exact nofun

theorem scan_calm {U : Unicode} (hU : U.Lawful) {fresh : Nat → Runes} {filter : Msg → Bool} : ∀ (is : List Nat) (inst : Inst), inst.groupSize ≠ 0 →
    (∀ i ∈ is, i < inst.messages.length) → scanMessages U fresh filter is inst ≠ .panic := by
  intro is
  induction is with
  | nil => intro inst hg hi; exact nofun
  | cons i is ih =>
    intro inst hg hi h
    unfold scanMessages at h
    have hlt := hi i (by simp)
    rw [List.getElem?_eq_getElem hlt] at h
    dsimp only at h
    generalize inst.messages[i] = m at h
    have next : ∀ inst2 : Inst, inst2.groupSize = inst.groupSize → inst2.messages.length = inst.messages.length → scanMessages U fresh filter is inst2 ≠ .panic := by
      intro inst2 hg2 hl2
      exact ih inst2 (by rw [hg2]; exact hg) (by intro j hj; rw [hl2]; exact hi j (by simp [hj]))
    split at h
    · rcases h1 : tryDecipher U (fresh i) true inst m with ⟨o1, i1, m1⟩
      obtain ⟨nx1, e1⟩ := tryDecipher_frame h1
      have p1 := (C21_all_or_nothing U hU (fresh i) true inst i1 m m1 o1 hg h1).1
      have f1 := (tryDecipher_messages h1).1
      have g1 : i1.groupSize = inst.groupSize := by rw [e1]
      rw [h1] at h
      dsimp only at h
      rcases o1 with u | e | _
      · dsimp only at h
        rcases h2 : tryDecipher U (fresh i) false { i1 with messages := i1.messages.set i m1 } m1 with ⟨o2, i2, m2⟩
        obtain ⟨nx2, e2⟩ := tryDecipher_frame h2
        have p2 := (C21_all_or_nothing U hU (fresh i) false _ i2 m1 m2 o2 (by dsimp only; rw [g1]; exact hg) h2).1
        have f2 := (tryDecipher_messages h2).1
        have g2 : i2.groupSize = inst.groupSize := by rw [e2]; exact g1
        have l2 : (i2.messages.set i m2).length = inst.messages.length := by rw [List.length_set, f2, List.length_set, f1]
        rw [h2] at h
        rcases o2 with u | e | _
        · dsimp only at h
          split at h
          · cases h
          · cases h
          · rename_i hn; exact absurd hn (next _ g2 l2)
        · dsimp only at h
          split at h
          · cases h
          · cases h
          · rename_i hn; exact absurd hn (next _ g2 l2)
        · exact absurd rfl p2
      · dsimp only at h
        split at h
        · cases h
        · cases h
        · rename_i hn; exact absurd hn (next _ g1 (by dsimp only; rw [List.length_set, f1]))
      · exact absurd rfl p1
    · exact next _ rfl rfl h

theorem summary_calm {U : Unicode} (hU : U.Lawful) {fresh : Nat → Runes} {date : Int → Runes} {digest : Msg → Runes} {filter : Msg → Bool} {i : Inst} (hg : i.groupSize ≠ 0) :
    summaryOfMessages U fresh date digest filter i ≠ .panic := by
  unfold summaryOfMessages
  have := (scan_calm hU (fresh := fresh) (filter := filter) (List.range i.messages.length) i hg (by simp))
  generalize scanMessages U fresh filter (List.range i.messages.length) i = R at this
  rcases R with ⟨a, b⟩ | e | _
  · exact nofun
  · exact nofun
  · exact absurd rfl this

theorem newRun_calm {U : Unicode} (hU : U.Lawful) {noise : Nat → Rune} {R : RadioEnv} (hR : ∀ s, R.dtgParse s ≠ .panic) {f : Runes} {i i' : Inst} {rad : Runes} {t t' : Tape} {o : Outcome Msg}
    (hg : i.groupSize ≠ 0) (ht : ∀ p t', parseRadiogram U R i.messages rad t = some (.ok p, t') → isMyCall U i p = true → ∀ c ∈ p.plainText, c ∈ alphabet)
    (h : newTextMessageRun U noise R f i [rad] t = some ((o, i'), t')) : o ≠ .panic := by
  unfold newTextMessageRun at h
  dsimp only at h
  rcases hp : parseRadiogram U R i.messages rad t with _ | ⟨p, t1⟩
  · rw [hp] at h; cases h
  rw [hp] at h
  simp only [Option.some.injEq, Prod.mk.injEq] at h
  have hpp : p ≠ .panic := by
    rintro rfl
    unfold parseRadiogram at hp
    dsimp only at hp
    split at hp
    · cases hp
    split at hp
    · cases hp
    split at hp
    · cases hp
    · rename_i hx
      split at hx
      · cases hx
      · exact hR _ hx
    · cases hp
  obtain ⟨h, -⟩ := h
  unfold newTextMessage at h
  dsimp only at h
  rcases p with p | e | _
  · dsimp only at h
    split at h
    · rename_i hmy
      rw [if_neg (by simp)] at h
      dsimp only at h
      have hT := encipherT_not_panic hU noise f i p hg (ht p t1 hp hmy)
      have he : (encipher U noise f i p).1 ≠ .panic := by
        unfold encipher
        rcases hx : encipherT U noise f i p with ⟨c | e | _, a, b⟩
        · exact nofun
        · exact nofun
        · rw [hx] at hT; exact absurd rfl hT
      rcases hx : encipher U noise f i p with ⟨u | e | _, a, b⟩
      · rw [hx] at h; cases h; exact nofun
      · rw [hx] at h; cases h; exact nofun
      · rw [hx] at he; exact absurd rfl he
    · generalize (if p.recipients.length = 0 then { p with recipients := addRecipient U p.recipients [i.callSign] } else p) = q at h
      rcases hx : tryDecipher U f false i q with ⟨oc, a, b⟩
      have := (C21_all_or_nothing U hU f false i a q b oc hg hx).1
      rw [hx] at h
      rcases oc with u | e | _
      · cases h; exact nofun
      · cases h; exact nofun
      · exact absurd rfl this
  · cases h; exact nofun
  · exact absurd rfl hpp

theorem messagesCommand_calm {C : Codec} {E : PwEnv} (hE : ∀ p s, (E.kdf p s).length = 32) {U : Unicode} (hU : U.Lawful) {V : MsgsEnv} (hR : ∀ s, V.radio.dtgParse s ≠ .panic) {o : MsgsCmd}
    {disk : Disk} (hd : ∀ k, load C E V.loadW disk (prepared E o.access o.file).2 = some (.ok (), k) → InOrder U k.inst)
    (ht : o.new = true → ∀ rad, V.radiogram = some rad → ∀ i p t', parseRadiogram U V.radio i.messages rad V.tape = some (.ok p, t') → isMyCall U i p = true → ∀ c ∈ p.plainText, c ∈ alphabet) :
    Calm (fun _ => True) (messagesCommand C E U V o disk) := by
  unfold messagesCommand
  split
  · exact nofun
  refine andThen_calm (P := fun _ => True) ?_ (fun s _ => output_calm)
  refine andThen_calm (P := fun s => s.k.inst.groupSize ≠ 0) ?_ (fun s hs => ?_)
  swap
  · unfold messagesList
    split
    · split
      · exact nofun
      split
      · exact nofun
      · exact absurd (by assumption) (summary_calm hU hs)
      · dsimp only
        split
        · exact nofun
        · trivial
    · trivial
  refine andThen_calm (P := fun s => PfkSet s.k ∧ MsgsFine U (fun _ _ => True) s.k.inst) ?_ (fun s hs => ?_)
  swap
  · have hg := hs.2.order.nonzero.1
    unfold messagesNew
    split
    · rename_i hnew
      split
      · exact nofun
      rename_i rad hrad
      rcases hq : newTextMessageRun U V.wipeNoise V.radio V.freshId s.k.inst [rad] V.tape with _ | ⟨⟨oc, inst⟩, t⟩
      · trivial
      have := newRun_calm hU hR hg (ht hnew rad hrad s.k.inst) hq
      rcases oc with m | e | _
      · refine saveStep_calm hE hs.1.ok (fun r hr => ?_)
        have hgs := (hs.2.order.newMessage hq).nonzero.1
        rw [show (Cmd.saved _ r).k.inst = inst from (save_inst hr)]
        exact hgs
      · exact nofun
      · exact absurd rfl this
    · exact hg
  refine andThen_calm (P := fun s => PfkSet s.k ∧ MsgsFine U (fun _ _ => True) s.k.inst) ?_ (fun s hs => ?_)
  · rcases hq : openStore C E V.loadW o.access o.file disk with _ | q
    · trivial
    have h1 : Calm (fun s => PfkSet s.k) (openStore C E V.loadW o.access o.file disk) := openStore_calm hE
    rw [hq] at h1
    rcases openStore_cases hq with ⟨oc, k, -, rfl⟩ | ⟨k, -, hl, hop, rfl⟩
    · exact h1
    · exact ⟨h1, load_keyIds hl, (hd k hl).kept⟩
  have hg := hs.2.order.nonzero.1
  unfold messagesDelete
  dsimp only
  have fin : ∀ n i, MsgsFine U (fun _ _ => True) i → Calm (fun s => PfkSet s.k ∧ MsgsFine U (fun _ _ => True) s.k.inst)
      (if n > 0 then saveStep C E V.deleteW { s with k := { s.k with inst := i } } else some (.go { s with k := { s.k with inst := i } })) := by
    intro n i hi
    split
    · refine saveStep_calm hE hs.1.ok (fun r hr => ⟨?_, ?_⟩)
      · obtain ⟨key, h1, h2⟩ := hs.1
        exact ⟨key, save_pfk hr h1, h2⟩
      · rw [show (Cmd.saved _ r).k.inst = i from (save_inst hr)]
        exact hi
    · exact ⟨hs.1, hi⟩
  split
  · split
    · exact nofun
    split
    · split
      · exact nofun
      · exact absurd (by assumption) (summary_calm hU hg)
      · rename_i inst hdr lines hsum
        have hi := hs.2.summary hsum
        split
        · exact nofun
        split
        · exact nofun
        split
        · exact fin _ _ hi.bySummary
        · exact fin 0 _ hi
    · exact fin _ _ (hs.2.delete _ _)
  · exact hs

end K431
