import Verif.SpecHistory
import Verif.MsgLemmas

/-! # Helper lemmas: what a history does to the marks of keys -/

namespace K431
open Spec

/-- each id has its own array, and the allocator is ahead -/
structure Addrs (inst : Inst) : Prop where
  nodup : (inst.keys.map (fun k => k.id.addr)).Nodup
  fresh : ∀ k ∈ inst.keys, k.id.addr < inst.nextAddr

/-- every key of `b` is new or comes from a key of `a`, and is marked if that was -/
structure Flows (a b : Inst) : Prop where
  next : a.nextAddr ≤ b.nextAddr
  group : b.groupSize = a.groupSize
  addrs : Addrs b
  origin : ∀ k ∈ b.keys, a.nextAddr ≤ k.id.addr ∨ ∃ k0 ∈ a.keys, k0.id.addr = k.id.addr ∧ (k0.used = true → k.used = true)

def Flow (a b : Inst) : Prop := Addrs a → Flows a b

theorem Flow.refl (a : Inst) : Flow a a := fun h =>
  ⟨Nat.le_refl _, rfl, h, fun k hk => .inr ⟨k, hk, rfl, fun h => h⟩⟩

theorem Flow.trans {a b c : Inst} (h1 : Flow a b) (h2 : Flow b c) : Flow a c := fun h => by
  have f1 := h1 h
  have f2 := h2 f1.addrs
  refine ⟨Nat.le_trans f1.next f2.next, f2.group.trans f1.group, f2.addrs, ?_⟩
  intro k hk
  rcases f2.origin k hk with hn | ⟨k1, hk1, ha, hu⟩
  · exact .inl (Nat.le_trans f1.next hn)
  · rcases f1.origin k1 hk1 with hn | ⟨k0, hk0, ha0, hu0⟩
    · exact .inl (by rw [← ha]; exact hn)
    · exact .inr ⟨k0, hk0, ha0.trans ha, fun h => hu (hu0 h)⟩

/-- only flags are set, and arrays overwritten -/
structure Keeps (a b : Inst) : Prop where
  next : a.nextAddr ≤ b.nextAddr
  group : b.groupSize = a.groupSize
  length : b.keys.length = a.keys.length
  point : ∀ (j : Nat) (k : Key), a.keys[j]? = some k →
    ∃ k' : Key, b.keys[j]? = some k' ∧ k'.id.addr = k.id.addr ∧ (k.used = true → k'.used = true)

theorem Keeps.refl (a : Inst) : Keeps a a := ⟨Nat.le_refl _, rfl, rfl, fun _ k hk => ⟨k, hk, rfl, fun h => h⟩⟩

theorem Keeps.flow {a b : Inst} : Keeps a b → Flow a b := fun ⟨hn, hg, hl, h⟩ ha => by
  have hmap : b.keys.map (fun k => k.id.addr) = a.keys.map (fun k => k.id.addr) := by
    apply List.ext_getElem?
    intro j
    rw [List.getElem?_map, List.getElem?_map]
    rcases hj : a.keys[j]? with _ | k
    · rw [List.getElem?_eq_none_iff] at hj
      rw [List.getElem?_eq_none_iff.2 (by omega)]
    · obtain ⟨k', h1, h2, _⟩ := h j k hj
      rw [h1]; simp [h2]
  have horig : ∀ k' ∈ b.keys, ∃ k ∈ a.keys, k.id.addr = k'.id.addr ∧ (k.used = true → k'.used = true) := by
    intro k' hk'
    obtain ⟨j, hj⟩ := List.mem_iff_getElem?.1 hk'
    have hjl := (List.getElem?_eq_some_iff.1 hj).1
    obtain ⟨k2, h1, h2, h3⟩ := h j (a.keys[j]'(by omega)) (List.getElem?_eq_getElem _)
    rw [hj] at h1; cases h1
    exact ⟨_, List.getElem_mem _, h2.symm, h3⟩
  refine ⟨hn, hg, ⟨by rw [hmap]; exact ha.nodup, ?_⟩, fun k hk => .inr (horig k hk)⟩
  intro k hk
  obtain ⟨k0, h0, h1, _⟩ := horig k hk
  have := ha.fresh k0 h0
  omega

theorem Keeps.mapped {a b : Inst} (hn : a.nextAddr ≤ b.nextAddr) (hg : b.groupSize = a.groupSize) (g : Nat → Key → Key)
    (h : ∀ j : Nat, b.keys[j]? = (a.keys[j]?).map (g j))
    (hid : ∀ (j : Nat) (k : Key), a.keys[j]? = some k → (g j k).id.addr = k.id.addr ∧ (k.used = true → (g j k).used = true)) :
    Keeps a b := by
  refine ⟨hn, hg, ?_, ?_⟩
  · have hln : ∀ n, b.keys.length ≤ n ↔ a.keys.length ≤ n := by
      intro n
      rw [← List.getElem?_eq_none_iff, ← List.getElem?_eq_none_iff, h n, Option.map_eq_none_iff]
    exact Nat.le_antisymm ((hln _).2 (Nat.le_refl _)) ((hln _).1 (Nat.le_refl _))
  · intro j k hk
    exact ⟨g j k, by rw [h j, hk]; rfl, hid j k hk⟩

theorem Flow.sub {a b : Inst} (hn : a.nextAddr ≤ b.nextAddr) (hg : b.groupSize = a.groupSize) {l : List Key}
    (hp : b.keys.Perm l) (hs : l.Sublist a.keys) : Flow a b := fun ha => by
  have hmem : ∀ k ∈ b.keys, k ∈ a.keys := fun k hk => hs.subset (hp.mem_iff.1 hk)
  refine ⟨hn, hg, ⟨?_, ?_⟩, fun k hk => .inr ⟨k, hmem k hk, rfl, fun h => h⟩⟩
  · exact (hp.map (fun k => k.id.addr)).nodup_iff.2 (ha.nodup.sublist (hs.map _))
  · intro k hk
    exact Nat.lt_of_lt_of_le (ha.fresh k (hmem k hk)) hn

theorem Flow.add {a b : Inst} {k : Key} (hn : a.nextAddr < b.nextAddr) (hg : b.groupSize = a.groupSize)
    (hk : b.keys = a.keys ++ [k]) (hka : k.id.addr = a.nextAddr) : Flow a b := fun ha => by
  refine ⟨Nat.le_of_lt hn, hg, ⟨?_, ?_⟩, ?_⟩
  · rw [hk, List.map_append, List.nodup_append]
    refine ⟨ha.nodup, by simp, ?_⟩
    intro x hx y hy e
    obtain ⟨k0, h0, rfl⟩ := List.mem_map.1 hx
    simp at hy
    have := ha.fresh k0 h0
    omega
  · intro x hx
    rw [hk, List.mem_append, List.mem_singleton] at hx
    rcases hx with hx | rfl
    · have := ha.fresh x hx; omega
    · omega
  · intro x hx
    rw [hk, List.mem_append, List.mem_singleton] at hx
    rcases hx with hx | rfl
    · exact .inr ⟨x, hx, rfl, fun h => h⟩
    · exact .inl (by omega)

/-- messages do not matter -/
theorem Flow.messages (a : Inst) (ms : List Msg) : Flow a { a with messages := ms } :=
  Keeps.flow ⟨Nat.le_refl _, rfl, rfl, fun _ k hk => ⟨k, hk, rfl, fun h => h⟩⟩

theorem Flow.alloc (a : Inst) (n : Nat) : Flow a { a with nextAddr := a.nextAddr + n } :=
  Keeps.flow ⟨Nat.le_add_right _ _, rfl, rfl, fun _ k hk => ⟨k, hk, rfl, fun h => h⟩⟩

/-! ## Keys -/

theorem Flow.newKey {U : Unicode} {now expire : Int} {keepers : List Runes} {inst inst' : Inst} {t t' : Tape} {k : Key}
    (h : newKey U now expire keepers inst t = some (k, inst', t')) : Flow inst inst' := by
  obtain ⟨rfl, h1, _⟩ := newKey_spec h
  exact Flow.add (k := k) (by simp only; omega) rfl rfl h1

theorem Flow.generateLoop {U : Unicode} {now : Nat → Int} {expire : Int} {keepers : List Runes} : ∀ {n : Nat} {inst inst' : Inst}
    {t t' : Tape}, K431.generateLoop U now expire keepers n inst t = some (inst', t') → Flow inst inst' := by
  intro n
  induction n with
  | zero => intro inst inst' t t' e; simp [K431.generateLoop] at e; rw [← e.1]; exact Flow.refl _
  | succ n ih =>
    intro inst inst' t t' e
    simp only [K431.generateLoop] at e
    rcases hk : K431.newKey U (now n) expire keepers inst t with _ | ⟨k, inst1, t1⟩
    · rw [hk] at e; cases e
    · rw [hk] at e
      exact (Flow.newKey hk).trans (ih e)

theorem Flow.generateKeys {U : Unicode} {now : Nat → Int} {start n : Int} {expire : Option (Outcome Int)} {keepers : List Runes}
    {inst inst' : Inst} {t t' : Tape} {o : Outcome Unit}
    (hg : generateKeys U now start n expire keepers inst t = some (o, inst', t')) : Flow inst inst' := by
  unfold K431.generateKeys at hg
  split at hg
  · rcases hl : K431.generateLoop U now _ keepers n.toNat _ t with _ | ⟨i1, t1⟩
    · rw [hl] at hg; cases hg
    · rw [hl] at hg
      simp only [Option.map_some, Option.some.injEq, Prod.mk.injEq] at hg
      rw [← hg.2.1]
      exact Flow.generateLoop hl
  · simp only [Option.some.injEq, Prod.mk.injEq] at hg; rw [← hg.2.1]; exact Flow.refl _
  · simp only [Option.some.injEq, Prod.mk.injEq] at hg; rw [← hg.2.1]; exact Flow.refl _

theorem Flow.wipeKey (noise : Noise) (k : Key) (inst : Inst) : Flow inst (wipeKey noise k inst) := by
  apply Keeps.flow
  refine Keeps.mapped (Nat.le_refl _) rfl (fun _ => _) (fun j => by simp only [K431.wipeKey, List.getElem?_map]; rfl) ?_
  intro j x hx
  exact ⟨wipedIn_addr _ _ _, fun h => h⟩

theorem Flow.deleteKeyOnce (U : Unicode) (noise : Noise) (inst : Inst) (id : Runes) :
    Flow inst (deleteKeyOnce U noise inst id).2 := by
  unfold K431.deleteKeyOnce
  split
  · exact Flow.refl _
  · rename_i i _
    split
    · exact Flow.refl _
    · rename_i k hk
      have hi : i < (K431.wipeKey noise k inst).keys.length := by
        simp [K431.wipeKey]; exact (List.getElem?_eq_some_iff.1 hk).1
      refine (Flow.wipeKey noise k inst).trans ?_
      exact Flow.sub (Nat.le_refl _) rfl (swapRemove_perm hi) (List.eraseIdx_sublist _ _)

theorem Flow.deleteKey (U : Unicode) : ∀ (ids : List Runes) (noise : Nat → Noise) (inst : Inst),
    Flow inst (deleteKey U noise inst ids).2 := by
  intro ids
  induction ids with
  | nil => intro noise inst; exact Flow.refl _
  | cons id ids ih => intro noise inst; exact (Flow.deleteKeyOnce U _ inst id).trans (ih _ _)

theorem Flow.deleteBySummary (U : Unicode) : ∀ (lines : List Runes) (noise : Nat → Nat → Noise) (inst : Inst),
    Flow inst (deleteKeysBySummary U noise inst lines).2 := by
  intro lines
  induction lines with
  | nil => intro noise inst; exact Flow.refl _
  | cons l ls ih => intro noise inst; exact (Flow.deleteKey U _ _ inst).trans (ih _ _)

theorem Flow.addImported (U : Unicode) (call : Sl) (k : Key) (inst : Inst) : Flow inst (addImported U call k inst) :=
  Flow.add (k := importedKey U inst call k) (by simp only [K431.addImported]; omega) rfl rfl rfl

theorem Flow.importLoop {U : Unicode} {o : ImportOpts} {filter : Key → Bool} {call : Sl} : ∀ (ks : List Key)
    (noise : Nat → Noise) (n : Nat) (inst : Inst), Flow inst (importLoop U noise o filter call ks n inst).2.2 := by
  intro ks
  induction ks with
  | nil => intro noise n inst; exact Flow.refl _
  | cons k ks ih =>
    intro noise n inst
    obtain ⟨r, h1, h2⟩ := importLoop_cons U noise o filter call k ks n inst
    rw [h2]
    rcases r with _ | ⟨b, inst1⟩
    · exact Flow.refl _
    · refine Flow.trans ?_ (ih _ _ _)
      cases h1 with
      | skipLen => exact Flow.refl _
      | skipFilter => exact Flow.refl _
      | skipExisting => exact Flow.refl _
      | new => exact Flow.addImported U call k inst
      | replace => exact (Flow.deleteKey U _ _ inst).trans (Flow.addImported U call k _)

theorem Flow.importKeys (U : Unicode) (noise : Nat → Noise) (o : ImportOpts) (filter : Key → Bool)
    (loaded : Outcome (List Key × Runes)) (inst : Inst) : Flow inst (importKeys U noise o filter loaded inst).2.2 := by
  unfold K431.importKeys
  rcases loaded with ⟨keys, call⟩ | e | _
  · exact (Flow.alloc inst 1).trans (Flow.importLoop _ _ _ _)
  · exact Flow.refl _
  · exact Flow.refl _

theorem Keeps.setUsed (inst : Inst) (i : Nat) : Keeps inst { inst with keys := setUsed inst.keys i true } := by
  refine Keeps.mapped (Nat.le_refl _) rfl _ (fun j => setUsed_get _ _ _ _) ?_
  intro j k hk
  refine ⟨?_, ?_⟩
  · split <;> rfl
  · split
    · intro _; rfl
    · exact fun h => h

theorem Flow.mark (U : Unicode) (id : Runes) (inst : Inst) : Flow inst { inst with keys := (markKeyUsed U inst.keys id true).2 } := by
  unfold markKeyUsed
  split
  · exact (Keeps.setUsed inst _).flow
  · exact Flow.refl _

/-! ## Messages -/

theorem Flow.wipeMessage (noise : Nat → Rune) (m : Msg) (inst : Inst) : Flow inst (wipeMessage noise m inst) := by
  unfold K431.wipeMessage
  split
  · exact Flow.refl _
  · apply Keeps.flow
    refine Keeps.mapped (Nat.le_refl _) rfl (fun _ => _) (fun j => wipeKeys_get _ _ _ _) ?_
    intro j k hk
    refine ⟨?_, fun h => h⟩
    simp only [Sl.wiped]; split <;> rfl

theorem Flow.deleteMessageOnce (noise : Nat → Rune) (inst : Inst) (id : Runes) : Flow inst (deleteMessageOnce noise inst id).2 := by
  unfold K431.deleteMessageOnce
  split
  · exact Flow.refl _
  · split
    · exact Flow.refl _
    · exact (Flow.wipeMessage noise _ inst).trans (Flow.messages _ _)

theorem Flow.deleteMessage : ∀ (ids : List Runes) (noise : Nat → Nat → Rune) (inst : Inst), Flow inst (deleteMessage noise inst ids).2 := by
  intro ids
  induction ids with
  | nil => intro noise inst; exact Flow.refl _
  | cons id ids ih => intro noise inst; exact (Flow.deleteMessageOnce _ inst id).trans (ih _ _)

theorem Flow.decipher {U : Unicode} {f : Runes} {inst inst' : Inst} {m m' : Msg} {o : Outcome Unit}
    (h : decipher U f inst m = (o, inst', m')) : Flow inst inst' := by
  unfold K431.decipher at h
  simp only at h
  repeat' split at h
  all_goals
    simp only [Prod.mk.injEq] at h
    obtain ⟨_, rfl, _⟩ := h
    first
    | exact Flow.refl _
    | (apply Keeps.flow
       refine Keeps.mapped (Nat.le_refl _) rfl _ (fun j => foldl_setUsed _ _ _) ?_
       intro j k hk
       refine ⟨rfl, ?_⟩
       intro hu
       simp [hu])

theorem Flow.tryDecipher {U : Unicode} {f : Runes} {dry : Bool} {inst inst' : Inst} {m m' : Msg} {o : Outcome Unit}
    (h : tryDecipher U f dry inst m = (o, inst', m')) : Flow inst inst' := by
  unfold K431.tryDecipher at h
  simp only at h
  repeat' split at h
  all_goals
    simp only [Prod.mk.injEq] at h
    obtain ⟨_, rfl, _⟩ := h
    first
    | exact Flow.refl _
    | exact (Flow.alloc inst 1).trans (Flow.decipher (by assumption))

/-! ## Enciphering with an automatically selected key -/

theorem Keeps.encipher_ok {U : Unicode} (hU : U.Lawful) {noise : Nat → Rune} {f : Runes} {inst inst' : Inst} {m m' : Msg}
    {chunks : List Chunk} (h : encipherT U noise f inst m = (.ok chunks, inst', m'))
    (hauto : m.keyId.val = []) (hd : Distinguishable U inst.keys) : Keeps inst inst' := by
  obtain ⟨inst1, m1, i, s, out, e⟩ := encipherT_ok h
  obtain ⟨h1, _, _⟩ := e.auto_flags hU hauto hd
  have hsm : SameMat inst'.keys inst.keys := by rw [e.keyId_eq.2.2]; exact e.sameMat
  have hn : inst'.nextAddr = inst.nextAddr ∧ inst'.groupSize = inst.groupSize := by
    have h2 := e.enriched
    have h3 := e.hinst
    rw [h3]
    cases h2 <;> exact ⟨rfl, rfl⟩
  refine ⟨Nat.le_of_eq hn.1.symm, hn.2, hsm.length, ?_⟩
  intro j k hk
  obtain ⟨k', a, b⟩ := hsm.symm.get hk
  refine ⟨k', a, ?_, ?_⟩
  · have := congrArg (fun k => k.id.addr) b; exact this
  · intro hu
    have := h1 j
    simp only [usedAt, a, hk, hu, Bool.true_or] at this
    exact this

theorem Keeps.encipher_fail {U : Unicode} (hU : U.Lawful) {noise : Nat → Rune} {f : Runes} {inst inst' : Inst} {m m' : Msg}
    {o : Outcome Unit} (hg : inst.groupSize ≠ 0) (h : encipher U noise f inst m = (o, inst', m')) (ho : o ≠ .ok ())
    (hauto : m.keyId.val = []) (hd : Distinguishable U inst.keys) : Keeps inst inst' := by
  have hwk : (withId f m).keyId.val = [] := by rw [(withId_fields f m).2.2.1]; exact hauto
  -- the release, `cs` being the chunks
  have key : ∀ (inst1 : Inst) (m1 : Msg) (i : Nat) (s s2 : LoopState) (ol : Outcome Unit) (ct : Runes),
      Enriched U inst (withId f m) inst1 m1 → getKey U inst1.keys m1.keyId.val = some i →
      encLoop U inst.groupSize m1.recipients m1.plainText ⟨inst1.keys, newState, [], ⟨[], i⟩⟩ = (ol, s) →
      s2.keys = s.keys → (∀ j, j ∈ keysOf (s2.chunks ++ [s2.cur]) ↔ j ∈ keysOf (s.chunks ++ [s.cur])) →
      Keeps inst (release U noise inst1 { m1 with cipherText := [] } s2 ct).1 := by
    intro inst1 m1 i s s2 ol ct hen hgk hel hs2 hs2c
    obtain ⟨t1, t2, t3, t4⟩ := encLoop_touched (loopOk_start _ _) rfl hel
    simp only at t1 t2 t3 t4
    cases hen with
    | preset j k h1 => exact absurd hwk h1
    | auto j k h1 h2 h3 h4 =>
      simp only at hgk t1 t2 t3 t4 ⊢
      have hids : (K431.setUsed inst.keys j true).map (fun k => k.id.val) = inst.keys.map (fun k => k.id.val) :=
        (setUsed_sameMat _ _ _).ids
      rw [getKey_congr U _ hids] at hgk
      have hij : i = j := hd.getKey hU h4 hgk
      subst hij
      obtain ⟨k', e1, e2, _⟩ := findKey_some h3
      rw [h4] at e1; cases e1
      have hne : k.id.val ≠ [] := by
        intro e
        have := e2.2.1
        rw [e] at this
        exact hg (by simpa using this.symm)
      have hgk2 : getKey U s2.keys k.id.val = some i := by
        rw [hs2, getKey_congr U _ (t1.ids.trans hids)]; exact hgk
      have hil := (List.getElem?_eq_some_iff.1 h4).1
      have hget := release_get (noise := noise) (inst := { inst with keys := K431.setUsed inst.keys i true })
        (m := { { withId f m with keyId := k.id } with cipherText := [] }) (ct := ct) hne hgk2
      have hsm : SameMat s2.keys inst.keys := by rw [hs2]; exact t1.trans (setUsed_sameMat _ _ _)
      refine ⟨Nat.le_refl _, rfl, ?_, ?_⟩
      · have hln : ∀ n, (release U noise { inst with keys := K431.setUsed inst.keys i true }
            { { withId f m with keyId := k.id } with cipherText := [] } s2 ct).1.keys.length ≤ n ↔ inst.keys.length ≤ n := by
          intro n
          rw [← List.getElem?_eq_none_iff, hget n, Option.map_eq_none_iff, List.getElem?_eq_none_iff, hsm.length]
        exact Nat.le_antisymm ((hln _).2 (Nat.le_refl _)) ((hln _).1 (Nat.le_refl _))
      · intro n x hx
        obtain ⟨x', a, b⟩ := hsm.symm.get hx
        have hgn := hget n
        rw [a, Option.map_some] at hgn
        refine ⟨_, hgn, ?_, ?_⟩
        · simp only [releasedKey, Sl.wiped]
          have : x'.mat.id = x.mat.id := by rw [b]
          replace this : x'.id = x.id := this
          split <;> simp [this]
        · intro hu
          have hni : n ≠ i := by
            intro e; subst e
            rw [h4] at hx; cases hx
            rw [e2.1] at hu; cases hu
          have hnu : usedAt (K431.setUsed inst.keys i true) n = true := by
            rw [usedAt_setUsed hil, if_neg (fun e => hni e.symm)]; simp [usedAt, hx, hu]
          have hnot : n ∉ keysOf (s2.chunks ++ [s2.cur]) := by
            rw [hs2c]
            intro hm
            rcases t3 n hm with e | e
            · exact hni e
            · rw [hnu] at e; cases e
          have hcl : ¬ (n = i ∨ n ∈ keysOf (s2.chunks ++ [s2.cur])) := fun e => e.elim hni hnot
          have hux : usedAt s2.keys n = true := by
            rw [hs2, t2 n (by rw [← hs2c]; exact hnot)]; exact hnu
          simp only [releasedKey, if_neg hcl]
          simp only [usedAt, a] at hux
          exact hux
  cases K431.encipher_fail hg h ho with
  | enrich => exact Keeps.refl _
  | lost inst1 m1 hen _ _ =>
    cases hen with
    | preset j k h1 => exact absurd hwk h1
    | auto j k h1 h2 h3 h4 => exact Keeps.setUsed inst j
  | loop inst1 m1 i s hen hgk hel => exact key _ _ _ _ _ _ _ hen hgk hel rfl (fun _ => Iff.rfl)
  | cipher inst1 m1 i s cur out hen hgk hel hck _ _ =>
    refine key _ _ _ _ _ _ _ hen hgk hel rfl ?_
    intro j
    simp [keysOf, hck]

theorem encipherT_encipher {U : Unicode} {noise : Nat → Rune} {f : Runes} {inst inst' : Inst} {m m' : Msg}
    {o : Outcome (List Chunk)} (h : encipherT U noise f inst m = (o, inst', m')) (ho : ∀ c, o ≠ .ok c) :
    ∃ o' : Outcome Unit, o' ≠ .ok () ∧ encipher U noise f inst m = (o', inst', m') := by
  unfold encipher
  rw [h]
  rcases o with c | e | _
  · exact absurd rfl (ho c)
  · exact ⟨_, by simp, rfl⟩
  · exact ⟨_, by simp, rfl⟩

theorem Keeps.encipherT {U : Unicode} (hU : U.Lawful) {noise : Nat → Rune} {f : Runes} {inst inst' : Inst} {m m' : Msg}
    {o : Outcome (List Chunk)} (hg : inst.groupSize ≠ 0) (h : encipherT U noise f inst m = (o, inst', m'))
    (hauto : m.keyId.val = []) (hd : Distinguishable U inst.keys) : Keeps inst inst' := by
  rcases o with c | e | _
  · exact Keeps.encipher_ok hU h hauto hd
  · obtain ⟨o', h1, h2⟩ := encipherT_encipher h (by simp)
    exact Keeps.encipher_fail hU hg h2 h1 hauto hd
  · obtain ⟨o', h1, h2⟩ := encipherT_encipher h (by simp)
    exact Keeps.encipher_fail hU hg h2 h1 hauto hd

/-- the consumed keys are new ones, pairwise different, and marked afterwards -/
theorem consumed_spec {U : Unicode} (hU : U.Lawful) {noise : Nat → Rune} {f : Runes} {inst inst' : Inst} {m m' : Msg}
    {o : Outcome (List Chunk)} (h : encipherT U noise f inst m = (o, inst', m')) (ha : Addrs inst)
    (hauto : m.keyId.val = []) (hd : Distinguishable U inst.keys) :
    (consumed inst.keys o).Nodup ∧
    (∀ a ∈ consumed inst.keys o, ∃ k ∈ inst.keys, k.id.addr = a ∧ k.used = false) ∧
    (∀ k ∈ inst'.keys, k.id.addr ∈ consumed inst.keys o → k.used = true) := by
  rcases o with chunks | e | _
  · obtain ⟨inst1, m1, i, s, out, e⟩ := encipherT_ok h
    obtain ⟨h1, h2, h3⟩ := e.auto_flags hU hauto hd
    have hsm : SameMat inst'.keys inst.keys := by rw [e.keyId_eq.2.2]; exact e.sameMat
    have hmem : ∀ a, a ∈ consumed inst.keys (.ok chunks) ↔ ∃ j ∈ keysOf chunks, ∃ k, inst.keys[j]? = some k ∧ k.id.addr = a := by
      intro a
      simp only [consumed, List.mem_filterMap, Option.map_eq_some_iff, keysOf, List.mem_map]
      constructor
      · rintro ⟨c, hc, k, hk, rfl⟩
        exact ⟨_, ⟨c, hc, rfl⟩, k, hk, rfl⟩
      · rintro ⟨_, ⟨c, hc, rfl⟩, k, hk, rfl⟩
        exact ⟨c, hc, k, hk, rfl⟩
    have hinj : ∀ (i j : Nat) (k k' : Key), inst.keys[i]? = some k → inst.keys[j]? = some k' → k.id.addr = k'.id.addr → i = j := by
      intro i j k k' hi hj hkk
      apply nodup_getElem? ha.nodup (a := k.id.addr)
      · rw [List.getElem?_map, hi]; rfl
      · rw [List.getElem?_map, hj, hkk]; rfl
    refine ⟨?_, ?_, ?_⟩
    · have : consumed inst.keys (.ok chunks) = (keysOf chunks).filterMap (fun j => (inst.keys[j]?).map (fun k => k.id.addr)) := by
        simp only [consumed, keysOf, List.filterMap_map]; rfl
      rw [this]
      apply List.Nodup.filterMap _ h2
      intro i j b hi hj
      simp only [Option.mem_def, Option.map_eq_some_iff] at hi hj
      obtain ⟨k, hk, hka⟩ := hi
      obtain ⟨k', hk', hka'⟩ := hj
      exact hinj _ _ _ _ hk hk' (hka.trans hka'.symm)
    · intro a hm
      obtain ⟨j, hj, k, hk, rfl⟩ := (hmem a).1 hm
      obtain ⟨k', hk', hel⟩ := h3 j hj
      rw [hk] at hk'; cases hk'
      exact ⟨k, List.mem_of_getElem? hk, rfl, hel.1⟩
    · intro k' hk' hm
      obtain ⟨n, hn⟩ := List.mem_iff_getElem?.1 hk'
      obtain ⟨j, hj, k, hk, hka⟩ := (hmem _).1 hm
      obtain ⟨x, hx, hxm⟩ := hsm.get hn
      have hxa : x.id.addr = k'.id.addr := by
        have : x.mat.id.addr = k'.mat.id.addr := by rw [hxm]
        exact this
      have := hinj _ _ _ _ hx hk (hxa.trans hka.symm)
      subst this
      have hu := h1 n
      simp only [usedAt, hn, hj, decide_true, Bool.or_true] at hu
      exact hu
  · exact ⟨by simp [consumed], by simp [consumed], by simp [consumed]⟩
  · exact ⟨by simp [consumed], by simp [consumed], by simp [consumed]⟩

/-- `NewTextMessage` apart from its Encipher -/
theorem newTextMessage_flow {U : Unicode} {noise : Nat → Rune} {f : Runes} {p : Outcome Msg} {inst inst' : Inst}
    {r : Runes} {rest : List Runes} {o : Outcome Msg} (h : newTextMessage U noise f (fun _ => p) inst (r :: rest) = (o, inst')) :
    (handed U inst (r :: rest) p = none ∧ Flow inst inst') ∨
    ∃ i m n, handed U inst (r :: rest) p = some (i, m) ∧ i = { inst with nextAddr := inst.nextAddr + n } ∧
      ∃ i2, i2 = (K431.encipherT U noise f i m).2.1 ∧ inst'.keys.length = i2.keys.length ∧ Flow i2 inst' := by
  unfold newTextMessage at h
  simp only at h
  have hrun : ∀ (inst1 : Inst) (p1 : Msg),
      (match encipher U noise f inst1 p1 with
        | (.ok _, inst, m) => (.ok m, { inst with messages := inst.messages ++ [m] })
        | (.err e, inst, m) => (.err e, wipeMessage noise m inst)
        | (.panic, inst, m) => (.panic, wipeMessage noise m inst) : Outcome Msg × Inst) = (o, inst') →
      ∃ i2, i2 = (K431.encipherT U noise f inst1 p1).2.1 ∧ inst'.keys.length = i2.keys.length ∧ Flow i2 inst' := by
    intro inst1 p1 hm
    have hw : ∀ (m : Msg) (i : Inst), (wipeMessage noise m i).keys.length = i.keys.length := by
      intro m i; unfold wipeMessage; split <;> simp [wipeKeys]
    unfold encipher at hm
    rcases he : K431.encipherT U noise f inst1 p1 with ⟨u | e | _, i2, m2⟩
    · rw [he] at hm
      simp only [Prod.mk.injEq] at hm
      obtain ⟨rfl, rfl⟩ := hm
      exact ⟨_, rfl, rfl, Flow.messages _ _⟩
    · rw [he] at hm
      simp only [Prod.mk.injEq] at hm
      obtain ⟨rfl, rfl⟩ := hm
      exact ⟨_, rfl, hw _ _, Flow.wipeMessage _ _ _⟩
    · rw [he] at hm
      simp only [Prod.mk.injEq] at hm
      obtain ⟨rfl, rfl⟩ := hm
      exact ⟨_, rfl, hw _ _, Flow.wipeMessage _ _ _⟩
  rcases p with p | e | _
  · simp only at h
    by_cases hc : isMyCall U inst p = true
    · rw [if_pos hc] at h
      match rest, h with
      | [], h =>
        right
        exact ⟨inst, p, 0, by simp [handed, hc], rfl, hrun _ _ h⟩
      | [a], h =>
        left
        simp at h
        obtain ⟨rfl, rfl⟩ := h
        exact ⟨by simp [handed, hc], Flow.wipeMessage _ _ _⟩
      | a :: b :: tl, h =>
        simp only [List.length_cons, ge_iff_le, Nat.le_add_left, if_true, List.getElem?_cons_succ, List.getElem?_cons_zero] at h
        by_cases hl : (toUpperStr U (trimSpace U b)).length ≠ inst.groupSize
        · rw [if_pos hl] at h
          simp only [Prod.mk.injEq] at h
          obtain ⟨rfl, rfl⟩ := h
          exact .inl ⟨by simp only [handed]; rw [if_pos hc, if_pos hl], (Flow.alloc inst 1).trans (Flow.wipeMessage _ _ _)⟩
        · rw [if_neg hl] at h
          exact .inr ⟨_, _, 1, by simp only [handed]; rw [if_pos hc, if_neg hl], rfl, hrun _ _ h⟩
    · left
      rw [if_neg hc] at h
      refine ⟨by simp only [handed]; rw [if_neg hc], ?_⟩
      rcases ht : K431.tryDecipher U f false inst (if p.recipients.length = 0 then
          { p with recipients := addRecipient U p.recipients [inst.callSign] } else p) with ⟨u | e | _, i2, m2⟩
      · rw [ht] at h
        simp only [Prod.mk.injEq] at h
        obtain ⟨_, rfl⟩ := h
        exact (Flow.tryDecipher ht).trans (Flow.messages _ _)
      · rw [ht] at h
        simp only [Prod.mk.injEq] at h
        obtain ⟨_, rfl⟩ := h
        exact (Flow.tryDecipher ht).trans (Flow.messages _ _)
      · rw [ht] at h
        simp only [Prod.mk.injEq] at h
        obtain ⟨_, rfl⟩ := h
        exact (Flow.tryDecipher ht).trans (Flow.wipeMessage _ _ _)
  · simp only [Prod.mk.injEq] at h
    obtain ⟨_, rfl⟩ := h
    exact .inl ⟨rfl, Flow.refl _⟩
  · simp only [Prod.mk.injEq] at h
    obtain ⟨_, rfl⟩ := h
    exact .inl ⟨rfl, Flow.refl _⟩

end K431
