import Verif.RunLemmas

/-!
# C74: commands that only show leave the files alone
-/

namespace K431
open Spec

/-- **C74**, full statement.  Listing and printing, whatever the filters and the output file, leave the file with the keys and messages as it is, even if the program is killed. -/
def C74_Statement (P : List Nat → Option (List Nat) → Prop) : Prop :=
  ∀ (C : Codec) (E : PwEnv) (U : Unicode) (file : List Nat) (output : Option (List Nat)) (disk disk' : Disk) (r : Course),
    Shows C E U file output disk r → P file output → Passes disk r disk' → disk' file = disk file

/-- what a run that only shows may touch -/
theorem shows_touches {C : Codec} {E : PwEnv} {U : Unicode} {file : List Nat} {output : Option (List Nat)} {disk : Disk} {r : Course}
    (h : Shows C E U file output disk r) {f : List Nat} (hf : output ≠ some f) : r.state.disk f = disk f ∧ ∀ t ∈ r.state.touched, t.path ≠ f := by
  cases h with
  | keys h1 h2 h3 h4 h =>
    rename_i V o
    unfold keysCommand at h
    split at h
    · cases h; exact ⟨rfl, by simp [Course.state]⟩
    rw [andThen_skip (f := keysDelete C E U V o) (fun s => by unfold keysDelete; rw [h1]; rfl), andThen_skip (f := keysNew C E U V o) (fun s => by unfold keysNew; rw [h2]),
      andThen_skip (f := keysImport C E U V o) (fun s => by unfold keysImport; rw [h3]), andThen_skip (f := keysExport C E U V o) (fun s => by unfold keysExport; rw [h4])] at h
    rcases hop : openStore C E V.loadW o.access o.file disk with _ | c
    · rw [hop] at h; cases h
    rw [hop] at h
    obtain ⟨a, b⟩ := openStore_state hop
    obtain ⟨a', l, b', hl⟩ := keysTail hf h
    exact ⟨by rw [a', a], by rw [b', b]; simpa using hl⟩
  | messages h1 h2 h =>
    rename_i V o
    unfold messagesCommand at h
    split at h
    · cases h; exact ⟨rfl, by simp [Course.state]⟩
    rw [andThen_skip (f := messagesDelete C E U V o) (fun s => by unfold messagesDelete; rw [h1]; rfl),
      andThen_skip (f := messagesNew C E U V o) (fun s => by unfold messagesNew; rw [h2]; rfl)] at h
    rcases hop : openStore C E V.loadW o.access o.file disk with _ | c
    · rw [hop] at h; cases h
    rw [hop] at h
    obtain ⟨a, b⟩ := openStore_state hop
    obtain ⟨a', l, b', hl⟩ := messagesTail hf h
    exact ⟨by rw [a', a], by rw [b', b]; simpa using hl⟩

/-- **C74**, what holds: no file but the output file is touched. -/
theorem C74_partial : (∀ (C : Codec) (E : PwEnv) (U : Unicode) (file : List Nat) (output : Option (List Nat)) (disk disk' : Disk) (r : Course) (f : List Nat),
    Shows C E U file output disk r → output ≠ some f → Passes disk r disk' → disk' f = disk f) ∧ C74_Statement (fun file output => output ≠ some file) := by
  have main : ∀ (C : Codec) (E : PwEnv) (U : Unicode) (file : List Nat) (output : Option (List Nat)) (disk disk' : Disk) (r : Course) (f : List Nat),
      Shows C E U file output disk r → output ≠ some f → Passes disk r disk' → disk' f = disk f := by
    intro C E U file output disk disk' r f h hf hp
    obtain ⟨a, b⟩ := shows_touches h hf
    cases hp with
    | before => rfl
    | returned => exact a
    | writing ht hc => exact set_other _ _ (Ne.symm (b _ ht))
  exact ⟨main, fun C E U file output disk disk' r h hP hp => main C E U file output disk disk' r file h hP hp⟩

/-- a run of `keys --output [1]` on the file `[1]`, type `txt`; the selected keys are laid out as `body` -/
def exShowEnv (body : List Nat) : KeysEnv := { exKeysEnv with render := fun _ _ => some body }
@[inherit_doc exShowEnv]
def exShowCmd (output : List Nat) : KeysCmd := { access := exAccess, file := [1], output := some output, type := some (ascii "txt"), list := true }

/-- printing writes what is to be printed, also over the file with the keys -/
theorem exShow_runs {C : Codec} (hC : C.Lawful) (E : PwEnv) (body out : List Nat) (ho : out ≠ []) :
    ∃ r, keysCommand C E unicode15 (exShowEnv body) (exShowCmd out) (exStoreDisk C) = some r ∧ r.outcome = .ok () ∧ r.state.disk = (exStoreDisk C).set out body := by
  obtain ⟨k, hl, hs, -, -⟩ := load_exStore hC E exStore 0 (by decide) (by decide) (by decide) (by decide)
  have hids := sameStore_ids hs
  have hlen : k.inst.keys.length = 3 := by simpa [exStore] using congrArg List.length hids
  have hsel : k.inst.keys.filter (keyFilter unicode15 0 {}) = k.inst.keys := by
    apply List.filter_eq_self.2
    intro a ha
    rfl
  have hlist : ∃ p, keysList unicode15 (exShowEnv body) (exShowCmd out) ⟨exStoreDisk C, k, [], []⟩ = .go ⟨exStoreDisk C, k, [], p⟩ := by
    have hn : ¬ (summaryOfKeys (exShowEnv body).date (keyFilter unicode15 (exShowEnv body).now (exShowCmd out).filter) k.inst).2.length = 0 := by
      show ¬ ((k.inst.keys.filter (keyFilter unicode15 0 {})).map _).length = 0
      rw [hsel, List.length_map, hlen]; decide
    unfold keysList
    dsimp only
    rw [if_pos (show (exShowCmd out).list = true from rfl), if_neg (by rw [hlen]; decide), if_neg hn]
    exact ⟨_, rfl⟩
  obtain ⟨p, hlist⟩ := hlist
  have hop : openStore C E (exShowEnv body).loadW (exShowCmd out).access (exShowCmd out).file (exStoreDisk C) = some (.go ⟨exStoreDisk C, k, [], []⟩) :=
    openStore_ok (by rw [show (exShowCmd out).access = exAccess from rfl, show (exShowCmd out).file = [1] from rfl, prepared_example]) hl
  have hcmd : keysCommand C E unicode15 (exShowEnv body) (exShowCmd out) (exStoreDisk C) = some (outputStep (exShowEnv body).outputW (exShowCmd out).type (exShowEnv body).render
      (exShowCmd out).output (k.inst.keys.filter (keyFilter unicode15 (exShowEnv body).now (exShowCmd out).filter)) ⟨exStoreDisk C, k, [], p⟩) := by
    unfold keysCommand
    rw [if_neg (by simp [KeysCmd.any, exShowCmd]), hop,
      andThen_skip (f := keysDelete C E unicode15 (exShowEnv body) (exShowCmd out)) (fun s => rfl), andThen_skip (f := keysNew C E unicode15 (exShowEnv body) (exShowCmd out)) (fun s => rfl),
      andThen_skip (f := keysImport C E unicode15 (exShowEnv body) (exShowCmd out)) (fun s => rfl),
      andThen_skip (f := keysExport C E unicode15 (exShowEnv body) (exShowCmd out)) (fun s => rfl), andThen_go, hlist, andThen_go]
  refine ⟨_, hcmd, ?_, ?_⟩
  all_goals
    unfold outputStep
    rw [show (exShowCmd out).output = some out from rfl]
    dsimp only
    rw [if_neg (by simpa using ho), show outKind (exShowCmd out).type out = .txt from rfl]
    dsimp only
    rw [show keyFilter unicode15 (exShowEnv body).now (exShowCmd out).filter = keyFilter unicode15 0 {} from rfl, hsel, if_neg (by rw [hlen]; decide)]
    rw [show (exShowEnv body).render .txt k.inst.keys = some body from rfl]
    dsimp only
    unfold writeOutput
    rw [if_neg (by simp [exShowEnv, exKeysEnv, exWorld]), show (exShowEnv body).outputW.room = none from rfl]
    dsimp only
    rw [if_neg (lt_irrefl _)]
  · rfl
  · show (exStoreDisk C).set out (body.take body.length) = _
    rw [List.take_length]

/-- **C74** is violated: `keys --output` naming the file with the keys replaces keys and messages by the printed text, without asking. -/
theorem C74_violated : ¬ C74_Statement (fun _ _ => True) := by
  intro h
  obtain ⟨C, hC⟩ := exists_lawful
  let E : PwEnv := ⟨fun _ _ => [], fun _ => true⟩
  obtain ⟨r, hr, -, hd⟩ := exShow_runs hC E (C.enc exPFK 0 (gobInst exStore) ++ [10]) [1] (by simp)
  have := h C E unicode15 [1] _ _ _ r (.keys rfl rfl rfl rfl hr) trivial .returned
  rw [hd, set_same, show exStoreDisk C [1] = some _ from set_same _ _ _] at this
  simp at this

/-- not vacuous: keys are listed and printed to another file, which is written while the file with the keys stays -/
example : ∃ (C : Codec) (E : PwEnv) (disk : Disk) (r : Course), C.Lawful ∧ Shows C E unicode15 [1] (some [2]) disk r ∧ r.outcome = .ok () ∧
    r.state.disk [2] = some (ascii "KEYS") ∧ disk [2] ≠ some (ascii "KEYS") ∧ r.state.disk [1] = disk [1] ∧ disk [1] ≠ none := by
  obtain ⟨C, hC⟩ := exists_lawful
  let E : PwEnv := ⟨fun _ _ => [], fun _ => true⟩
  obtain ⟨r, hr, ho, hd⟩ := exShow_runs hC E (ascii "KEYS") [2] (by simp)
  refine ⟨C, E, exStoreDisk C, r, hC, .keys rfl rfl rfl rfl hr, ho, by rw [hd, set_same], ?_, by rw [hd]; exact set_other _ _ (by decide), ?_⟩
  · rw [show exStoreDisk C [2] = exDisk [2] from set_other _ _ (by decide)]
    decide
  · rw [show exStoreDisk C [1] = some _ from set_same _ _ _]; simp

end K431
