import Verif.KeyedLemmas
import Verif.PropsRekey
import Verif.PropsHandCmd

/-!
# C134: without the right key nothing is shown or changed
-/

namespace K431
open Spec

/-- **C134**, `keys`: on a file that was written with `key`, whatever is asked for, if `key` does not follow from what is given as option or entered, then the command ends with an error; it has shown nothing and written
nothing. -/
theorem C134_keys {C : Codec} (hC : C.Lawful) {E : PwEnv} {U : Unicode} {V : KeysEnv} {o : KeysCmd} {disk : Disk} {r : Course} {path key : List Nat} (h : keysCommand C E U V o disk = some r)
    (ha : o.any = true) (hp : resolvePath V.loadW o.file = some path) (hs : SealedWith C disk path key) (hlen : key.length = 32)
    (hk : ¬ Provided E o.access.pfk (o.access.password :: V.loadW.inputs) key) : Refused r disk := by
  unfold keysCommand at h
  rw [if_neg (by simp [ha])] at h
  rcases hc : openStore C E V.loadW o.access o.file disk with _ | c
  · rw [hc] at h; cases h
  · obtain ⟨oc, s, rfl, hr⟩ := openStore_refused hC hlen hp hs hk hc
    rw [hc] at h
    simp only [andThen_stop, Option.some.injEq] at h
    subst h
    exact hr

/-- **C134**, `messages`, likewise. -/
theorem C134_messages {C : Codec} (hC : C.Lawful) {E : PwEnv} {U : Unicode} {V : MsgsEnv} {o : MsgsCmd} {disk : Disk} {r : Course} {path key : List Nat} (h : messagesCommand C E U V o disk = some r)
    (ha : o.any = true) (hp : resolvePath V.loadW o.file = some path) (hs : SealedWith C disk path key) (hlen : key.length = 32)
    (hk : ¬ Provided E o.access.pfk (o.access.password :: V.loadW.inputs) key) : Refused r disk := by
  unfold messagesCommand at h
  rw [if_neg (by simp [ha])] at h
  rcases hc : openStore C E V.loadW o.access o.file disk with _ | c
  · rw [hc] at h; cases h
  · obtain ⟨oc, s, rfl, hr⟩ := openStore_refused hC hlen hp hs hk hc
    rw [hc] at h
    simp only [andThen_stop, Option.some.injEq] at h
    subst h
    exact hr

/-- **C134**, `pfk --change`, likewise: the old key is needed. -/
theorem C134_pfk {C : Codec} (hC : C.Lawful) {E : PwEnv} {V : PfkEnv} {o : PfkCmd} {disk : Disk} {r : Course} {file path key : List Nat} (h : pfkCommand C E V o disk = some r)
    (hg : o.genPFK = false) (hgs : o.genSalt = false) (hc : o.change = some file) (hp : resolvePath V.loadW file = some path) (hs : SealedWith C disk path key) (hlen : key.length = 32)
    (hk : ¬ Provided E o.access.pfk (o.access.password :: o.old :: V.loadW.inputs) key) : Refused r disk := by
  unfold pfkCommand at h
  dsimp only at h
  rw [hg, hgs, hc] at h
  simp only [Bool.false_and, Bool.false_eq_true, if_false] at h
  have hno : ∀ k', load C E V.loadW disk (preparedOld E o.access o.old file).2 ≠ some (.ok (), k') := by
    intro k' hl
    apply hk
    obtain ⟨x, y, hf⟩ := preparedOld_frame E o.access o.old file
    rcases load_keyed hC hlen (by rw [hf]; exact hp) hs hl with ⟨b, hb, e⟩ | ⟨pw, salt, hb, e⟩
    · have hprep : ∀ b, (prepared E o.access file).2.pfk = some b → b.take 32 = key → Provided E o.access.pfk (o.access.password :: o.old :: V.loadW.inputs) key := by
        intro b hb e
        rcases setSaltAndPFK_keyed rfl hb with ⟨t, h1, h2⟩ | ⟨pw, salt, h1, rfl⟩
        · exact .inl ⟨t, b, h1, h2, e⟩
        · exact .inr ⟨pw, salt, by rw [h1]; exact List.mem_cons_self, e⟩
      unfold preparedOld at hb
      rcases hq : prepared E o.access file with ⟨⟨⟨⟩⟩ | e' | _, k⟩
      · rw [hq] at hb hprep
        dsimp only at hb hprep
        rcases ho : o.old with _ | pw
        · rw [ho] at hb
          rw [ho] at hprep
          exact hprep b hb e
        · rw [ho] at hb
          rw [ho] at hprep
          simp only [setPFKFromPassword, derivePFK] at hb
          rcases hsalt : k.salt with _ | salt
          · simp only [hsalt] at hb
            exact hprep b hb e
          · simp only [hsalt, Bool.false_and, Bool.false_eq_true, if_false] at hb
            split at hb
            · exact hprep b hb e
            · cases hb
              exact .inr ⟨pw, salt, by simp, e⟩
      · rw [hq] at hb hprep
        exact hprep b hb e
      · rw [hq] at hb hprep
        exact hprep b hb e
    · exact .inr ⟨pw, salt, by simp [hb], e⟩
  rcases hx : andThen (some (check (preparedOld E o.access o.old file).1 (⟨disk, (preparedOld E o.access o.old file).2, [], []⟩ : Cmd))) (loadStep C E V.loadW) with _ | c
  · rw [hx] at h; cases h
  · rw [hx] at h
    rcases andThen_check hx with ⟨-, h1⟩ | ⟨ho, rfl⟩
    · unfold loadStep at h1
      dsimp only at h1
      rcases hl : load C E V.loadW disk (preparedOld E o.access o.old file).2 with _ | ⟨oc, k⟩
      · rw [hl] at h1; cases h1
      · rw [hl] at h1
        simp only [Option.map_some, Option.some.injEq] at h1
        have ho : oc ≠ .ok () := by
          rintro rfl
          exact hno k hl
        rw [check_stop ho] at h1
        subst h1
        simp only [andThen_stop, Option.some.injEq] at h
        subst h
        exact ⟨ho, rfl, rfl, rfl⟩
    · simp only [andThen_stop, Option.some.injEq] at h
      subst h
      exact ⟨ho, rfl, rfl, rfl⟩

/-- **C134**, `keys --import` (without `--delete` and `--new`), the file to be imported: if its key does not follow from what is entered, then the command ends with an error; it has shown nothing and written nothing, in
particular the own file is as before. -/
theorem C134_import {C : Codec} (hC : C.Lawful) {E : PwEnv} {U : Unicode} {V : KeysEnv} {o : KeysCmd} {disk : Disk} {r : Course} {f path key : List Nat} (h : keysCommand C E U V o disk = some r)
    (hdel : o.delete = false) (hnew : o.newKeys = none) (himp : o.importFile = some f) (hp : resolvePath V.readW f = some path) (hs : SealedWith C disk path key) (hlen : key.length = 32)
    (hk : ¬ Provided E none V.readW.inputs key) : Refused r disk := by
  unfold keysCommand at h
  rw [if_neg (by simp [KeysCmd.any, himp])] at h
  rcases hc : openStore C E V.loadW o.access o.file disk with _ | c
  · rw [hc] at h; cases h
  · rw [hc, andThen_skip (f := keysDelete C E U V o) (fun s => by unfold keysDelete; rw [hdel]; rfl), andThen_skip (f := keysNew C E U V o) (fun s => by unfold keysNew; rw [hnew])] at h
    unfold openStore at hc
    dsimp only at hc
    have stopped : ∀ (oc : Outcome Unit) (s : Cmd), c = .stop oc s → oc ≠ .ok () → s.disk = disk → s.touched = [] → s.printed = [] → Refused r disk := by
      rintro oc s rfl h1 h2 h3 h4
      simp only [andThen_stop, Option.some.injEq] at h
      subst h
      exact ⟨h1, h4, h3, h2⟩
    rcases andThen_check hc with ⟨-, h1⟩ | ⟨ho, rfl⟩
    · unfold loadStep at h1
      dsimp only at h1
      rcases hl : load C E V.loadW disk (prepared E o.access o.file).2 with _ | ⟨oc, k⟩
      · rw [hl] at h1; cases h1
      · rw [hl] at h1
        simp only [Option.map_some, Option.some.injEq] at h1
        by_cases ho : oc = .ok ()
        · rw [check_ok ho] at h1
          subst h1
          rw [andThen_go] at h
          rcases hi : keysImport C E U V o ⟨disk, k, [], []⟩ with _ | q
          · rw [hi] at h; cases h
          · have hq : ∃ oc s, q = .stop oc s ∧ Refused q disk := by
              unfold keysImport at hi
              rw [himp] at hi
              dsimp only at hi
              split at hi
              · cases hi
                exact ⟨_, _, rfl, (by intro e; cases e), rfl, rfl, rfl⟩
              · have hinc : newIncoming U k [.persistence f, .interactive true] = ⟨incomingFor f, false, false⟩ := rfl
                unfold importFrom at hi
                rw [hinc] at hi
                dsimp only at hi
                rcases hj : load C E V.readW disk (incomingFor f) with _ | ⟨⟨⟨⟩⟩ | e | _, j⟩
                · rw [hj] at hi; cases hi
                · exact absurd (load_keyed hC (k := incomingFor f) hlen hp hs hj) (by
                    rintro (⟨b, hb, -⟩ | ⟨pw, salt, q1, q2⟩)
                    · cases hb
                    · exact hk (.inr ⟨pw, salt, q1, q2⟩))
                · rw [hj] at hi
                  cases hi
                  exact ⟨_, _, rfl, (by intro e; cases e), rfl, rfl, rfl⟩
                · rw [hj] at hi
                  cases hi
                  exact ⟨_, _, rfl, (by intro e; cases e), rfl, rfl, rfl⟩
            obtain ⟨oc', s, rfl, hr⟩ := hq
            rw [hi] at h
            simp only [andThen_stop, Option.some.injEq] at h
            subst h
            exact hr
        · rw [check_stop ho] at h1
          exact stopped _ _ h1.symm ho rfl rfl rfl
    · exact stopped _ _ rfl ho rfl rfl rfl

/-- non-vacuity: the example file, a wrong key, and a command to delete a key; the command returns -/
example : ∃ (C : Codec) (E : PwEnv) (o : KeysCmd) (r : Course), C.Lawful ∧ keysCommand C E unicode15 exKeysEnv o (exStoreDisk C) = some r ∧ o.any = true ∧ o.delete = true ∧
    resolvePath exKeysEnv.loadW o.file = some [1] ∧ SealedWith C (exStoreDisk C) [1] exPFK ∧ exPFK.length = 32 ∧
    ¬ Provided E o.access.pfk (o.access.password :: exKeysEnv.loadW.inputs) exPFK := by
  obtain ⟨C, hC⟩ := exists_lawful
  let E : PwEnv := ⟨fun _ _ => [], fun _ => true⟩
  let o : KeysCmd := { file := [1], access := { pfk := some (hexEncode exBytes) }, delete := true, yes := true, filter := { ids := [lit "A"] } }
  have hex : hexDecode (hexEncode exBytes) = some exBytes := by decide
  have hsealed : SealedWith C (exStoreDisk C) [1] exPFK := ⟨0, gobInst exStore, (C.enc exPFK 0 (gobInst exStore)).length, by rw [List.take_length]; exact set_same _ _ _⟩
  have hnot : ¬ Provided E o.access.pfk (o.access.password :: exKeysEnv.loadW.inputs) exPFK := by
    rintro (⟨t, b, h1, h2, h3⟩ | ⟨pw, salt, -, h3⟩)
    · cases h1
      rw [hex] at h2
      cases h2
      revert h3
      decide
    · cases h3
  have hopen : ∃ c, openStore C E exKeysEnv.loadW o.access o.file (exStoreDisk C) = some c := by
    have hp : prepared E o.access o.file = (.ok (), { newBase with persistence := [1], interactive := true, pfk := some exBytes }) := by
      have h2 : exBytes.length = 32 := by decide
      unfold prepared setSaltAndPFK setPFKFromString
      simp only [o, Option.isSome_none, Bool.and_false, Bool.false_eq_true, if_false, hex, h2, ne_eq, not_true]
      rfl
    have hd : exStoreDisk C [1] = some (C.enc exPFK 0 (gobInst exStore)) := set_same _ _ _
    unfold openStore
    dsimp only
    rw [hp, check_ok rfl, andThen_go]
    unfold loadStep load
    rw [if_neg (by simp)]
    have hres : ∀ k : Krypto, k.persistence = [1] → resolvePath exKeysEnv.loadW k.persistence = some [1] := fun k hk => by rw [hk]; rfl
    rw [hres _ rfl]
    dsimp only
    rw [hd]
    exact ⟨_, rfl⟩
  obtain ⟨c, hc⟩ := hopen
  obtain ⟨oc, s, rfl, -⟩ := openStore_refused hC (by decide) rfl hsealed hnot hc
  refine ⟨C, E, o, .stop oc s, hC, ?_, rfl, rfl, rfl, hsealed, by decide, hnot⟩
  unfold keysCommand
  rw [if_neg (by decide), hc]
  rfl

end K431
