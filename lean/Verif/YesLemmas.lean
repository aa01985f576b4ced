import Verif.SpecYes
import Verif.CliLemmas
import Verif.ImpSpec

/-! # Helper lemmas: which answers matter -/

namespace K431
open Spec

theorem andThen_congr {x : Option Course} {f g : Cmd → Option Course} (h : ∀ s, x = some (.go s) → f s = g s) : andThen x f = andThen x g := by
  rcases x with _ | s | ⟨o, s⟩
  · rfl
  · exact h s rfl
  · rfl

theorem andThen_goes {x : Option Course} {f : Cmd → Option Course} {s : Cmd} (h : andThen x f = some (.go s)) : ∃ t, x = some (.go t) ∧ f t = some (.go s) := by
  rcases x with _ | t | ⟨o, t⟩
  · cases h
  · exact ⟨t, rfl, h⟩
  · cases h

theorem check_goes {o : Outcome Unit} {s t : Cmd} (h : check o s = .go t) : o = .ok () ∧ t = s := by
  rcases o with ⟨⟨⟩⟩ | e | _
  · cases h; exact ⟨rfl, rfl⟩
  · cases h
  · cases h

/-- if overwriting is allowed, nothing is asked -/
theorem save_otherWorld {C : Codec} {E : PwEnv} {W : World} {disk : Disk} {k : Krypto} (c : Option Bool) (h : k.overwrite = true) : save C E (otherWorld c W) disk k = save C E W disk k := by
  unfold save
  have e : resolvePath (otherWorld c W) k.persistence = resolvePath W k.persistence := rfl
  rw [e]
  split
  · rfl
  · rcases resolvePath W k.persistence with _ | path
    · rfl
    · dsimp only
      have e2 : (otherWorld c W).statFails = W.statFails := rfl
      rw [e2]
      split
      · rfl
      · rcases disk path with _ | b
        · rfl
        · simp only [h, if_true]; rfl

theorem saveStep_otherWorld {C : Codec} {E : PwEnv} {W : World} {s : Cmd} (c : Option Bool) (h : s.k.overwrite = true) : saveStep C E (otherWorld c W) s = saveStep C E W s := by
  unfold saveStep
  rw [save_otherWorld c h]

theorem saveStep_overwrite {C : Codec} {E : PwEnv} {W : World} {s t : Cmd} (h : saveStep C E W s = some (.go t)) : t.k.overwrite = s.k.overwrite := by
  unfold saveStep at h
  rcases hs : save C E W s.disk s.k with _ | r
  · rw [hs] at h; cases h
  · rw [hs] at h
    simp only [Option.map_some, Option.some.injEq] at h
    obtain ⟨-, rfl⟩ := check_goes h
    rcases save_cases hs with ⟨-, -, e, -⟩ | ⟨path, key, -, -, -, -, rfl, -⟩
    · exact e
    · show (saveWrite C W key _).k.overwrite = _
      unfold saveWrite
      dsimp only
      repeat' split
      all_goals rfl

theorem openStore_overwrite {C : Codec} {E : PwEnv} {W : World} {a : Access} {file : List Nat} {disk : Disk} {s : Cmd} (h : openStore C E W a file disk = some (.go s)) : s.k.overwrite = true := by
  unfold openStore at h
  obtain ⟨t, h1, h2⟩ := andThen_goes h
  simp only [Option.some.injEq] at h1
  obtain ⟨-, rfl⟩ := check_goes h1
  unfold loadStep at h2
  rcases hl : load C E W disk (prepared E a file).2 with _ | ⟨o, k⟩
  · rw [hl] at h2; cases h2
  · rw [hl] at h2
    simp only [Option.map_some, Option.some.injEq] at h2
    obtain ⟨e, rfl⟩ := check_goes h2
    subst e
    exact (prepared_opened hl).overwrite

/-! ## keys -/

theorem keysDelete_answered {C : Codec} {E : PwEnv} {U : Unicode} {V : KeysEnv} {o : KeysCmd} {s : Cmd} (a : Answers) (hy : o.yes = true) (h : s.k.overwrite = true) :
    keysDelete C E U (keysAnswered a V) o s = keysDelete C E U V o s := by
  unfold keysDelete
  simp only [hy, Bool.not_true, Bool.false_eq_true, if_false]
  split
  · split
    · rfl
    · have e : ∀ i, saveStep C E (keysAnswered a V).deleteW { s with k := { s.k with inst := i } } = saveStep C E V.deleteW { s with k := { s.k with inst := i } } :=
        fun i => saveStep_otherWorld a.overwrite h
      rw [e]
      rfl
  · rfl

theorem keysDelete_overwrite {C : Codec} {E : PwEnv} {U : Unicode} {V : KeysEnv} {o : KeysCmd} {s t : Cmd} (hy : o.yes = true) (h : keysDelete C E U V o s = some (.go t)) :
    t.k.overwrite = s.k.overwrite := by
  unfold keysDelete at h
  simp only [hy, Bool.not_true, Bool.false_eq_true, if_false] at h
  split at h
  · split at h
    · cases h
    · split at h
      · have := saveStep_overwrite h
        exact this
      · cases h; rfl
  · cases h; rfl

theorem keysNew_answered {C : Codec} {E : PwEnv} {U : Unicode} {V : KeysEnv} {o : KeysCmd} {s : Cmd} (a : Answers) (h : s.k.overwrite = true) :
    keysNew C E U (keysAnswered a V) o s = keysNew C E U V o s := by
  unfold keysNew
  rcases o.newKeys with _ | n
  · rfl
  · dsimp only
    split
    · show (match generateKeys U V.clock V.now n o.expire o.filter.keepers s.k.inst V.tape with
        | none => none
        | some (r, inst, _) => andThen (some (check r { s with k := { s.k with inst := inst } })) (saveStep C E (otherWorld a.overwrite V.newW))) = _
      rcases generateKeys U V.clock V.now n o.expire o.filter.keepers s.k.inst V.tape with _ | ⟨r, inst, t⟩
      · rfl
      · refine andThen_congr fun q hq => ?_
        simp only [Option.some.injEq] at hq
        obtain ⟨-, rfl⟩ := check_goes hq
        exact saveStep_otherWorld a.overwrite h
    · rfl

theorem keysNew_overwrite {C : Codec} {E : PwEnv} {U : Unicode} {V : KeysEnv} {o : KeysCmd} {s t : Cmd} (h : keysNew C E U V o s = some (.go t)) : t.k.overwrite = s.k.overwrite := by
  unfold keysNew at h
  generalize o.newKeys = nk at h
  rcases nk with _ | n
  · cases h; rfl
  · dsimp only at h
    split at h
    · split at h
      · cases h
      · obtain ⟨q, hq, h⟩ := andThen_goes h
        simp only [Option.some.injEq] at hq
        obtain ⟨-, rfl⟩ := check_goes hq
        have := saveStep_overwrite h
        exact this
    · cases h; rfl

/-- where nobody can be asked, answers do not matter -/
theorem importLoop_answered {U : Unicode} {filter : Key → Bool} {call : Sl} {ow : Bool} {f g : Key → Option Bool} : ∀ (ks : List Key) (noise : Nat → Noise) (n : Nat) (inst : Inst),
    importLoop U noise ⟨ow, false, f⟩ filter call ks n inst = importLoop U noise ⟨ow, false, g⟩ filter call ks n inst := by
  intro ks
  induction ks with
  | nil => intro _ _ _; rfl
  | cons k ks ih =>
    intro noise n inst
    simp only [importLoop, Bool.and_false, Bool.false_eq_true, if_false, ih]

/-- where no key of the file is there already, nothing is asked -/
theorem importLoop_unasked {U : Unicode} {filter : Key → Bool} {call : Sl} {ow ask : Bool} {f g : Key → Option Bool} : ∀ (ks : List Key) (noise : Nat → Noise) (n : Nat) (inst : Inst),
    DistinctNames U (ks.map (fun x => x.id.val)) →
    (∀ k ∈ ks, k.id.val.length = inst.groupSize → filter k = true → ¬ InFold U k.id.val (inst.keys.map (fun x => x.id.val))) →
    importLoop U noise ⟨ow, ask, f⟩ filter call ks n inst = importLoop U noise ⟨ow, ask, g⟩ filter call ks n inst := by
  intro ks
  induction ks with
  | nil => intro _ _ _ _ _; rfl
  | cons k ks ih =>
    intro noise n inst hd hn
    simp only [List.map_cons, DistinctNames, List.pairwise_cons] at hd
    have hrest := fun j => ih (fun i => noise (i + 1)) j inst hd.2 (fun x hx => hn x (List.mem_cons_of_mem _ hx))
    simp only [importLoop]
    by_cases hl : k.id.val.length = inst.groupSize
    · by_cases hf : filter k = true
      · have hc : containsKeyId U inst.keys (some k.id.val) = false := by
          rw [← Bool.not_eq_true, containsKeyId_iff]
          exact hn k List.mem_cons_self hl hf
        simp only [hl, ne_eq, not_true, if_false, hf, if_true, hc, Bool.false_eq_true]
        refine ih _ _ _ hd.2 ?_
        intro x hx hxl hxf
        rintro ⟨y, hy, e⟩
        rw [List.map_append, List.mem_append] at hy
        rcases hy with hy | hy
        · exact hn x (List.mem_cons_of_mem _ hx) hxl hxf ⟨y, hy, e⟩
        · rw [List.map_singleton, List.mem_singleton] at hy
          subst hy
          exact hd.1 _ (List.mem_map.2 ⟨x, hx, rfl⟩) (SameFold.symm e)
      · simp only [hl, ne_eq, not_true, if_false, Bool.not_eq_true _ ▸ hf, Bool.false_eq_true, hrest]
    · simp only [hl, ne_eq, not_false_iff, if_true, hrest]

theorem keysImport_answered {C : Codec} {E : PwEnv} {U : Unicode} {V : KeysEnv} {o : KeysCmd} {s : Cmd} (a : Answers)
    (hi : o.importFile = none ∨ V.readW.terminal = false ∨ ∀ f j, o.importFile = some f → load C E V.readW s.disk (incomingFor f) = some (.ok (), j) →
      DistinctNames U (j.inst.keys.map (fun x => x.id.val)) ∧
      ∀ x ∈ j.inst.keys, x.id.val.length = s.k.inst.groupSize → keyFilter U V.now o.filter x = true → ¬ InFold U x.id.val (s.k.inst.keys.map (fun x => x.id.val)))
    (h : s.k.overwrite = true) : keysImport C E U (keysAnswered a V) o s = keysImport C E U V o s := by
  unfold keysImport
  rcases hf : o.importFile with _ | f
  · rfl
  · dsimp only
    split
    · rfl
    · have e : importFrom C E (keysAnswered a V).readW U (keysAnswered a V).noise (keysAnswered a V).answer (keyFilter U (keysAnswered a V).now o.filter) [.persistence f, .interactive true] s.disk s.k =
          importFrom C E V.readW U V.noise V.answer (keyFilter U V.now o.filter) [.persistence f, .interactive true] s.disk s.k := by
        have hinc : newIncoming U s.k [.persistence f, .interactive true] = ⟨incomingFor f, false, false⟩ := rfl
        unfold importFrom
        rw [hinc]
        dsimp only
        have el : load C E (keysAnswered a V).readW s.disk (incomingFor f) = load C E V.readW s.disk (incomingFor f) := rfl
        rw [el]
        rcases hj : load C E V.readW s.disk (incomingFor f) with _ | ⟨⟨⟨⟩⟩ | e | _, j⟩
        · rfl
        · have ei : importKeys U (keysAnswered a V).noise ⟨s.k.overwriteKeys, s.k.interactive && (keysAnswered a V).readW.terminal, (keysAnswered a V).answer⟩
              (keyFilter U (keysAnswered a V).now o.filter) (.ok (j.inst.keys, j.inst.callSign)) s.k.inst =
              importKeys U V.noise ⟨s.k.overwriteKeys, s.k.interactive && V.readW.terminal, V.answer⟩ (keyFilter U V.now o.filter) (.ok (j.inst.keys, j.inst.callSign)) s.k.inst := by
            have e1 : (keysAnswered a V).readW.terminal = V.readW.terminal := rfl
            rw [e1]
            unfold importKeys
            rcases hi with hi | hi | hi
            · rw [hi] at hf; cases hf
            · rw [hi, Bool.and_false]
              exact importLoop_answered _ _ _ _
            · obtain ⟨q1, q2⟩ := hi f j hf hj
              exact importLoop_unasked _ _ _ _ q1 q2
          simp only [ei]
          rfl
        · rfl
        · rfl
      rw [e]
      rcases hm : importFrom C E V.readW U V.noise V.answer (keyFilter U V.now o.filter) [.persistence f, .interactive true] s.disk s.k with _ | ⟨r, n, k⟩
      · rfl
      · refine andThen_congr fun q hq => ?_
        simp only [Option.some.injEq] at hq
        obtain ⟨-, rfl⟩ := check_goes hq
        refine saveStep_otherWorld a.overwrite ?_
        unfold importFrom at hm
        dsimp only at hm ⊢
        split at hm
        · cases hm
        · cases hm; exact h
        · cases hm; exact h
        · simp only [Option.some.injEq, Prod.mk.injEq] at hm
          obtain ⟨-, -, rfl⟩ := hm
          exact h

theorem keysExport_answered {C : Codec} {E : PwEnv} {U : Unicode} {V : KeysEnv} {o : KeysCmd} {s : Cmd} (a : Answers) (hy : o.yes = true) :
    keysExport C E U (keysAnswered a V) o s = keysExport C E U V o s := by
  unfold keysExport
  rcases o.exportFile with _ | f
  · rfl
  · dsimp only
    split
    · rfl
    · rw [hy]
      have : save C E (keysAnswered a V).exportW s.disk (exportKeys (keyFilter U (keysAnswered a V).now o.filter) [withPersistence f, withOverwrite true] s.k) =
          save C E V.exportW s.disk (exportKeys (keyFilter U V.now o.filter) [withPersistence f, withOverwrite true] s.k) := save_otherWorld a.overwrite rfl
      rw [this]

/-! ## messages -/

theorem messagesDelete_answered {C : Codec} {E : PwEnv} {U : Unicode} {V : MsgsEnv} {o : MsgsCmd} {s : Cmd} (a : Answers) (hy : o.yes = true) (h : s.k.overwrite = true) :
    messagesDelete C E U (messagesAnswered a V) o s = messagesDelete C E U V o s := by
  unfold messagesDelete
  simp only [hy, Bool.not_true, Bool.false_eq_true, if_false]
  split
  · split
    · rfl
    · have e : ∀ i, saveStep C E (messagesAnswered a V).deleteW { s with k := { s.k with inst := i } } = saveStep C E V.deleteW { s with k := { s.k with inst := i } } :=
        fun i => saveStep_otherWorld a.overwrite h
      rw [e]
      rfl
  · rfl

theorem messagesDelete_overwrite {C : Codec} {E : PwEnv} {U : Unicode} {V : MsgsEnv} {o : MsgsCmd} {s t : Cmd} (hy : o.yes = true) (h : messagesDelete C E U V o s = some (.go t)) :
    t.k.overwrite = s.k.overwrite := by
  unfold messagesDelete at h
  simp only [hy, Bool.not_true, Bool.false_eq_true, if_false] at h
  split at h
  · split at h
    · cases h
    · split at h
      · have := saveStep_overwrite h
        exact this
      · cases h; rfl
  · cases h; rfl

theorem messagesNew_answered {C : Codec} {E : PwEnv} {U : Unicode} {V : MsgsEnv} {o : MsgsCmd} {s : Cmd} (a : Answers) (h : s.k.overwrite = true) :
    messagesNew C E U (messagesAnswered a V) o s = messagesNew C E U V o s := by
  unfold messagesNew
  have e : ∀ i p, saveStep C E (messagesAnswered a V).newW { s with k := { s.k with inst := i }, printed := p } = saveStep C E V.newW { s with k := { s.k with inst := i }, printed := p } :=
    fun i p => saveStep_otherWorld a.overwrite h
  simp only [e]
  rfl

/-! ## pfk -/

theorem setNewSalt_overwrite {n : Option (List Nat)} {k : Krypto} : (setNewSalt n k).2.overwrite = k.overwrite := by
  unfold setNewSalt setSaltFromString
  repeat' split
  all_goals rfl

theorem setPFKFromString_overwrite {t : List Nat} {k : Krypto} : (setPFKFromString t k).2.overwrite = k.overwrite := by
  unfold setPFKFromString
  repeat' split
  all_goals rfl

theorem setPFKFromPassword_overwrite {E : PwEnv} {t : List Nat} {k : Krypto} : (setPFKFromPassword E t k).2.overwrite = k.overwrite := by
  unfold setPFKFromPassword
  exact derivePFK_overwrite _ _ _ _ _

theorem askNewPFK_overwrite {E : PwEnv} {V : PfkEnv} {k : Krypto} {r : Outcome Unit × Krypto} (h : askNewPFK E V k = some r) : r.2.overwrite = k.overwrite := by
  unfold askNewPFK at h
  repeat' split at h
  · cases h
  · cases h; rfl
  · cases h; rfl
  · cases h; exact derivePFK_overwrite _ _ _ _ _

theorem changeFileKey_answered {C : Codec} {E : PwEnv} {V : PfkEnv} {o : PfkCmd} {s : Cmd} (a : Answers) (hy : o.yes = true) (h : s.k.overwrite = true) :
    changeFileKey C E (pfkAnswered a V) o s = changeFileKey C E V o s := by
  unfold changeFileKey
  dsimp only
  refine andThen_congr fun q hq => ?_
  simp only [Option.some.injEq] at hq
  obtain ⟨-, rfl⟩ := check_goes hq
  have h1 : (setNewSalt o.newSalt s.k).2.overwrite = true := by rw [setNewSalt_overwrite]; exact h
  generalize (setNewSalt o.newSalt s.k).2 = k1 at h1
  simp only [unlessDeclined, hy, if_true]
  split
  · rfl
  · split
    · rfl
    · split
      · show (match generateHex32 V.draw with | .err e => _ | .panic => _ | .ok t => _) = _
        rcases generateHex32 V.draw with t | e | _
        · dsimp only
          refine andThen_congr fun q hq => ?_
          simp only [Option.some.injEq] at hq
          obtain ⟨-, rfl⟩ := check_goes hq
          exact saveStep_otherWorld a.overwrite (by dsimp only; rw [setPFKFromString_overwrite]; exact h1)
        · rfl
        · rfl
      · rcases o.new with _ | pw
        · rcases o.newPFK with _ | t
          · dsimp only
            have e : askNewPFK E (pfkAnswered a V) k1 = askNewPFK E V k1 := rfl
            rw [e]
            rcases hk : askNewPFK E V k1 with _ | ⟨r, k⟩
            · rfl
            · refine andThen_congr fun q hq => ?_
              simp only [Option.some.injEq] at hq
              obtain ⟨-, rfl⟩ := check_goes hq
              exact saveStep_otherWorld a.overwrite (by rw [askNewPFK_overwrite hk]; exact h1)
          · dsimp only
            refine andThen_congr fun q hq => ?_
            simp only [Option.some.injEq] at hq
            obtain ⟨-, rfl⟩ := check_goes hq
            exact saveStep_otherWorld a.overwrite (by dsimp only; rw [setPFKFromString_overwrite]; exact h1)
        · dsimp only
          refine andThen_congr fun q hq => ?_
          simp only [Option.some.injEq] at hq
          obtain ⟨-, rfl⟩ := check_goes hq
          exact saveStep_otherWorld a.overwrite (by dsimp only; rw [setPFKFromPassword_overwrite]; exact h1)

/-! ## initialize -/

theorem setSaltAndPFK_overwrite {E : PwEnv} {a : Access} {k : Krypto} : (setSaltAndPFK E a k).2.overwrite = k.overwrite := by
  unfold setSaltAndPFK
  split
  · rfl
  · rcases a.salt with _ | t
    · dsimp only
      rcases a.pfk with _ | p
      · rcases a.password with _ | w
        · rfl
        · exact setPFKFromPassword_overwrite
      · exact setPFKFromString_overwrite
    · dsimp only
      have e : (setSaltFromString t k).2.overwrite = k.overwrite := by
        unfold setSaltFromString
        repeat' split
        all_goals rfl
      generalize setSaltFromString t k = r at e
      obtain ⟨r1, k1⟩ := r
      dsimp only at e
      rcases r1 with ⟨⟨⟩⟩ | e' | _
      · dsimp only
        rcases a.pfk with _ | p
        · rcases a.password with _ | w
          · exact e
          · rw [setPFKFromPassword_overwrite]; exact e
        · rw [setPFKFromString_overwrite]; exact e
      · exact e
      · exact e

theorem initStore_answered {C : Codec} {E : PwEnv} {U : Unicode} {V : InitEnv} (a : Answers) (call' : Runes) (more : Option InitAnswers) {ac : Access} {file : List Nat} {call : Runes} {keys : Int}
    {expire : Runes} {keepers : List Runes} {keyLength groupSize keyColumns columns : Int} {disk : Disk} :
    initStore C E U (initAnswered a call' more V) ac file true call keys expire keepers keyLength groupSize keyColumns columns disk =
      initStore C E U V ac file true call keys expire keepers keyLength groupSize keyColumns columns disk := by
  unfold initStore
  dsimp only
  refine andThen_congr fun q hq => ?_
  simp only [Option.some.injEq] at hq
  obtain ⟨-, rfl⟩ := check_goes hq
  generalize hk : (setSaltAndPFK E ac _).2 = k1
  have h1 : k1.overwrite = true := by rw [← hk, setSaltAndPFK_overwrite]; rfl
  refine andThen_congr fun q hq => ?_
  simp only [Option.some.injEq] at hq
  obtain ⟨-, rfl⟩ := check_goes hq
  split
  · show (match generateKeys U V.clock V.now keys (if expire.length > 0 then some (V.parse expire) else none) keepers k1.inst V.tape with | none => none | some (r, inst, _) => _) = _
    rcases generateKeys U V.clock V.now keys (if expire.length > 0 then some (V.parse expire) else none) keepers k1.inst V.tape with _ | ⟨r, inst, t⟩
    · rfl
    · refine andThen_congr fun q hq => ?_
      simp only [Option.some.injEq] at hq
      obtain ⟨-, rfl⟩ := check_goes hq
      exact saveStep_otherWorld a.overwrite h1
  · exact saveStep_otherWorld a.overwrite h1

/-- if the question fails that is asked for a key that is there already, the import fails -/
theorem importLoop_asks {U : Unicode} {filter : Key → Bool} {call : Sl} : ∀ (ks : List Key) (noise : Nat → Noise) (n : Nat) (inst : Inst),
    (importLoop U noise ⟨false, true, fun _ => none⟩ filter call ks n inst).1 = .ok () →
    ∀ k ∈ ks, k.id.val.length = inst.groupSize → filter k = true → ¬ InFold U k.id.val (inst.keys.map (fun x => x.id.val)) := by
  intro ks
  induction ks with
  | nil => intro _ _ _ _ k hk; cases hk
  | cons a ks ih =>
    intro noise n inst h k hk hl hf
    obtain ⟨r, h1, h2⟩ := importLoop_cons U noise ⟨false, true, fun _ => none⟩ filter call a ks n inst
    rw [h2] at h
    rcases List.mem_cons.1 hk with rfl | hm
    · cases h1 with
      | skipLen g => exact absurd hl g
      | skipFilter g => rw [hf] at g; cases g
      | skipExisting _ _ _ _ g => exact absurd (g rfl) (by simp)
      | stop _ _ _ _ => cases h
      | new _ _ g => exact g
      | replace _ _ _ g => rcases g with g | ⟨-, g⟩ <;> cases g
    · cases h1 with
      | skipLen _ => exact ih _ _ _ h k hm hl hf
      | skipFilter _ => exact ih _ _ _ h k hm hl hf
      | skipExisting _ _ _ _ _ => exact ih _ _ _ h k hm hl hf
      | stop _ _ _ _ => cases h
      | new _ _ _ =>
        rintro ⟨x, hx, e⟩
        refine ih _ _ _ h k hm hl hf ⟨x, ?_, e⟩
        simp only [addImported, List.map_append, List.mem_append]
        exact .inl hx
      | replace _ _ _ g => rcases g with g | ⟨-, g⟩ <;> cases g

end K431
