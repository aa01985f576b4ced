import Verif.FaceKeeps
import Verif.NamedLemmas

/-!
# Lemmas: the order of the keys in the store, and the order in which they are taken
-/

namespace K431
open Spec

/-- the arrays of the ids, in the order of the store -/
def Inst.arrays (a : Inst) : List Nat := a.keys.map (fun k => k.id.addr)

/-- keys at the front of the store of which none gets lost stay there, in the same order -/
def OrderFlow (a b : Inst) : Prop :=
  Addrs a → KeepsAll a b ∧ ∀ l fr, a.arrays = l ++ fr → (∀ x ∈ l, x ∈ b.arrays) → ∃ fr', b.arrays = l ++ fr'

theorem Addrs.array_lt {a : Inst} (h : Addrs a) {x : Nat} (hx : x ∈ a.arrays) : x < a.nextAddr := by
  obtain ⟨k, hk, rfl⟩ := List.mem_map.1 hx
  exact h.fresh k hk

theorem KeepsAll.back {a b : Inst} (h : KeepsAll a b) {x : Nat} (hx : x < a.nextAddr) (hb : x ∈ b.arrays) : x ∈ a.arrays := by
  obtain ⟨k, hk, rfl⟩ := List.mem_map.1 hb
  rcases h.origin k hk with hn | ⟨k0, hk0, e⟩
  · omega
  · exact List.mem_map.2 ⟨k0, hk0, congrArg Prod.fst e⟩

theorem OrderFlow.trans {a b c : Inst} (h1 : OrderFlow a b) (h2 : OrderFlow b c) : OrderFlow a c := fun h => by
  obtain ⟨f1, g1⟩ := h1 h
  obtain ⟨f2, g2⟩ := h2 f1.addrs
  refine ⟨(KeepsFlow.trans (fun _ => f1) (fun _ => f2)) h, ?_⟩
  intro l fr e hc
  have hb : ∀ x ∈ l, x ∈ b.arrays := by
    intro x hx
    have := h.array_lt (x := x) (by rw [e]; exact List.mem_append_left _ hx)
    exact f2.back (Nat.lt_of_lt_of_le this f1.next) (hc x hx)
  obtain ⟨fr', e'⟩ := g1 l fr e hb
  exact g2 l fr' e' hc

theorem KeptAlike.arrays {a b : Inst} (h : KeptAlike b.keys a.keys) : b.arrays = a.arrays := by
  have e : ∀ l : List Key, l.map (fun k => k.id.addr) = (l.map Key.kept).map Prod.fst := by
    intro l; rw [List.map_map]; rfl
  unfold Inst.arrays
  rw [e, h, ← e]

theorem KeptAlike.orders {a b : Inst} (hn : a.nextAddr ≤ b.nextAddr) (h : KeptAlike b.keys a.keys) : OrderFlow a b := fun ha =>
  ⟨KeptAlike.carry hn h ha, fun l fr e _ => ⟨fr, by rw [h.arrays, e]⟩⟩

theorem OrderFlow.refl (a : Inst) : OrderFlow a a := KeptAlike.orders (Nat.le_refl _) (KeptAlike.refl _)

theorem OrderFlow.messages (a : Inst) (ms : List Msg) : OrderFlow a { a with messages := ms } := KeptAlike.orders (Nat.le_refl _) (KeptAlike.refl _)

theorem OrderFlow.alloc (a : Inst) (n : Nat) : OrderFlow a { a with nextAddr := a.nextAddr + n } := KeptAlike.orders (Nat.le_add_right _ _) (KeptAlike.refl _)

theorem swapRemove_front {α : Type} {l fr : List α} {i : Nat} (hl : l.length ≤ i) (hi : i < (l ++ fr).length) :
    swapRemove (l ++ fr) i = l ++ swapRemove fr (i - l.length) := by
  have hne : fr ≠ [] := by
    rintro rfl
    simp at hi; omega
  unfold swapRemove
  rw [List.getLast?_append_of_ne_nil _ hne]
  rcases hx : fr.getLast? with _ | x
  · rfl
  · simp only
    rw [List.set_append_right _ _ hl, List.dropLast_append_of_ne_nil]
    intro h0
    apply hne
    simpa using h0

theorem OrderFlow.swap {a : Inst} {i : Nat} (hi : i < a.keys.length) : OrderFlow a { a with keys := swapRemove a.keys i } := fun ha => by
  refine ⟨KeepsFlow.sub (Nat.le_refl _) (swapRemove_perm hi) (List.eraseIdx_sublist _ _) ha, ?_⟩
  intro l fr e hc
  have e' : ({ a with keys := swapRemove a.keys i } : Inst).arrays = swapRemove (l ++ fr) i := by
    rw [← e]
    exact swapRemove_map _ _ _
  have hi' : i < (l ++ fr).length := by rw [← e]; simpa [Inst.arrays] using hi
  rw [e']
  by_cases hl : l.length ≤ i
  · exact ⟨_, swapRemove_front hl hi'⟩
  · exfalso
    have hlt : i < l.length := by omega
    have hx := hc l[i] (List.getElem_mem hlt)
    rw [e', (swapRemove_perm hi').mem_iff] at hx
    have hnd : (l ++ fr).Nodup := by rw [← e]; exact ha.nodup
    rw [List.mem_eraseIdx_iff_getElem] at hx
    obtain ⟨j, hj, hne, hje⟩ := hx
    apply hne
    have : (l ++ fr)[j] = (l ++ fr)[i] := by rw [hje, List.getElem_append_left hlt]
    exact (List.Nodup.getElem_inj_iff hnd).1 this

theorem OrderFlow.add {a b : Inst} {k : Key} (hn : a.nextAddr < b.nextAddr) (hg : b.groupSize = a.groupSize)
    (hk : b.keys = a.keys ++ [k]) (hka : k.id.addr = a.nextAddr) : OrderFlow a b := fun ha => by
  refine ⟨KeepsFlow.add hn hg hk hka ha, ?_⟩
  intro l fr e _
  refine ⟨fr ++ [k.id.addr], ?_⟩
  have : b.arrays = a.arrays ++ [k.id.addr] := by unfold Inst.arrays; rw [hk]; simp
  rw [this, e, List.append_assoc]

theorem OrderFlow.newKey {U : Unicode} {now expire : Int} {keepers : List Runes} {inst inst' : Inst} {t t' : Tape} {k : Key}
    (h : newKey U now expire keepers inst t = some (k, inst', t')) : OrderFlow inst inst' := by
  obtain ⟨rfl, h1, _⟩ := newKey_spec h
  exact OrderFlow.add (k := k) (by simp only; omega) rfl rfl h1

theorem OrderFlow.generateLoop {U : Unicode} {now : Nat → Int} {expire : Int} {keepers : List Runes} : ∀ {n : Nat} {inst inst' : Inst}
    {t t' : Tape}, K431.generateLoop U now expire keepers n inst t = some (inst', t') → OrderFlow inst inst' := by
  intro n
  induction n with
  | zero => intro inst inst' t t' e; simp [K431.generateLoop] at e; rw [← e.1]; exact OrderFlow.refl _
  | succ n ih =>
    intro inst inst' t t' e
    simp only [K431.generateLoop] at e
    rcases hk : K431.newKey U (now n) expire keepers inst t with _ | ⟨k, inst1, t1⟩
    · rw [hk] at e; cases e
    · rw [hk] at e
      exact (OrderFlow.newKey hk).trans (ih e)

theorem OrderFlow.generateKeys {U : Unicode} {now : Nat → Int} {start n : Int} {expire : Option (Outcome Int)} {keepers : List Runes}
    {inst inst' : Inst} {t t' : Tape} {o : Outcome Unit}
    (hg : generateKeys U now start n expire keepers inst t = some (o, inst', t')) : OrderFlow inst inst' := by
  unfold K431.generateKeys at hg
  split at hg
  · rcases hl : K431.generateLoop U now _ keepers n.toNat _ t with _ | ⟨i1, t1⟩
    · rw [hl] at hg; cases hg
    · rw [hl] at hg
      simp only [Option.map_some, Option.some.injEq, Prod.mk.injEq] at hg
      rw [← hg.2.1]
      exact OrderFlow.generateLoop hl
  · simp only [Option.some.injEq, Prod.mk.injEq] at hg; rw [← hg.2.1]; exact OrderFlow.refl _
  · simp only [Option.some.injEq, Prod.mk.injEq] at hg; rw [← hg.2.1]; exact OrderFlow.refl _

theorem OrderFlow.wipeKey (noise : Noise) (k : Key) (inst : Inst) : OrderFlow inst (wipeKey noise k inst) := by
  refine KeptAlike.orders (Nat.le_refl _) ?_
  unfold KeptAlike
  simp only [K431.wipeKey, List.map_map]
  apply List.map_congr_left
  intro x _
  simp only [Function.comp, Key.kept, wipedIn_addr]

theorem OrderFlow.deleteKeyOnce (U : Unicode) (noise : Noise) (inst : Inst) (id : Runes) :
    OrderFlow inst (deleteKeyOnce U noise inst id).2 := by
  unfold K431.deleteKeyOnce
  split
  · exact OrderFlow.refl _
  · rename_i i _
    split
    · exact OrderFlow.refl _
    · rename_i k hk
      have hi : i < (K431.wipeKey noise k inst).keys.length := by
        simp [K431.wipeKey]; exact (List.getElem?_eq_some_iff.1 hk).1
      refine (OrderFlow.wipeKey noise k inst).trans ?_
      exact OrderFlow.swap hi

theorem OrderFlow.deleteKey (U : Unicode) : ∀ (ids : List Runes) (noise : Nat → Noise) (inst : Inst),
    OrderFlow inst (deleteKey U noise inst ids).2 := by
  intro ids
  induction ids with
  | nil => intro noise inst; exact OrderFlow.refl _
  | cons id ids ih => intro noise inst; exact (OrderFlow.deleteKeyOnce U _ inst id).trans (ih _ _)

theorem OrderFlow.deleteBySummary (U : Unicode) : ∀ (lines : List Runes) (noise : Nat → Nat → Noise) (inst : Inst),
    OrderFlow inst (deleteKeysBySummary U noise inst lines).2 := by
  intro lines
  induction lines with
  | nil => intro noise inst; exact OrderFlow.refl _
  | cons l ls ih => intro noise inst; exact (OrderFlow.deleteKey U _ _ inst).trans (ih _ _)

theorem OrderFlow.addImported (U : Unicode) (call : Sl) (k : Key) (inst : Inst) : OrderFlow inst (addImported U call k inst) :=
  OrderFlow.add (k := importedKey U inst call k) (by simp only [K431.addImported]; omega) rfl rfl rfl

theorem OrderFlow.importLoop {U : Unicode} {o : ImportOpts} {filter : Key → Bool} {call : Sl} : ∀ (ks : List Key)
    (noise : Nat → Noise) (n : Nat) (inst : Inst), OrderFlow inst (importLoop U noise o filter call ks n inst).2.2 := by
  intro ks
  induction ks with
  | nil => intro noise n inst; exact OrderFlow.refl _
  | cons k ks ih =>
    intro noise n inst
    obtain ⟨r, h1, h2⟩ := importLoop_cons U noise o filter call k ks n inst
    rw [h2]
    rcases r with _ | ⟨b, inst1⟩
    · exact OrderFlow.refl _
    · refine OrderFlow.trans ?_ (ih _ _ _)
      cases h1 with
      | skipLen => exact OrderFlow.refl _
      | skipFilter => exact OrderFlow.refl _
      | skipExisting => exact OrderFlow.refl _
      | new => exact OrderFlow.addImported U call k inst
      | replace => exact (OrderFlow.deleteKey U _ _ inst).trans (OrderFlow.addImported U call k _)

theorem OrderFlow.importKeys (U : Unicode) (noise : Nat → Noise) (o : ImportOpts) (filter : Key → Bool)
    (loaded : Outcome (List Key × Runes)) (inst : Inst) : OrderFlow inst (importKeys U noise o filter loaded inst).2.2 := by
  unfold K431.importKeys
  rcases loaded with ⟨keys, call⟩ | e | _
  · exact (OrderFlow.alloc inst 1).trans (OrderFlow.importLoop _ _ _ _)
  · exact OrderFlow.refl _
  · exact OrderFlow.refl _

theorem OrderFlow.wipeMessage (noise : Nat → Rune) (m : Msg) (inst : Inst) : OrderFlow inst (wipeMessage noise m inst) := by
  unfold K431.wipeMessage
  split
  · exact OrderFlow.refl _
  · exact KeptAlike.orders (Nat.le_refl _) (KeptAlike.wipeKeys _ _ _)

theorem OrderFlow.deleteMessageOnce (noise : Nat → Rune) (inst : Inst) (id : Runes) : OrderFlow inst (deleteMessageOnce noise inst id).2 := by
  unfold K431.deleteMessageOnce
  split
  · exact OrderFlow.refl _
  · split
    · exact OrderFlow.refl _
    · exact (OrderFlow.wipeMessage noise _ inst).trans (OrderFlow.messages _ _)

theorem OrderFlow.deleteMessage : ∀ (ids : List Runes) (noise : Nat → Nat → Rune) (inst : Inst), OrderFlow inst (deleteMessage noise inst ids).2 := by
  intro ids
  induction ids with
  | nil => intro noise inst; exact OrderFlow.refl _
  | cons id ids ih => intro noise inst; exact (OrderFlow.deleteMessageOnce _ inst id).trans (ih _ _)

theorem OrderFlow.decipher {U : Unicode} {f : Runes} {inst inst' : Inst} {m m' : Msg} {o : Outcome Unit}
    (h : decipher U f inst m = (o, inst', m')) : OrderFlow inst inst' := by
  unfold K431.decipher at h
  simp only at h
  repeat' split at h
  all_goals
    simp only [Prod.mk.injEq] at h
    obtain ⟨_, rfl, _⟩ := h
    first
    | exact OrderFlow.refl _
    | exact KeptAlike.orders (Nat.le_refl _) (KeptAlike.foldUsed (fun j => j) true _ _)

theorem OrderFlow.tryDecipher {U : Unicode} {f : Runes} {dry : Bool} {inst inst' : Inst} {m m' : Msg} {o : Outcome Unit}
    (h : tryDecipher U f dry inst m = (o, inst', m')) : OrderFlow inst inst' := by
  unfold K431.tryDecipher at h
  simp only at h
  repeat' split at h
  all_goals
    simp only [Prod.mk.injEq] at h
    obtain ⟨_, rfl, _⟩ := h
    first
    | exact OrderFlow.refl _
    | exact (OrderFlow.alloc inst 1).trans (OrderFlow.decipher (by assumption))

theorem OrderFlow.encipherT {U : Unicode} {noise : Nat → Rune} {f : Runes} {inst inst' : Inst} {m m' : Msg} {o : Outcome (List Chunk)}
    (h : encipherT U noise f inst m = (o, inst', m')) : OrderFlow inst inst' := by
  obtain ⟨h1, h2⟩ := encipherT_alike h
  exact KeptAlike.orders (Nat.le_of_eq h2.symm) h1

theorem OrderFlow.encipher {U : Unicode} {noise : Nat → Rune} {f : Runes} {inst inst' : Inst} {m m' : Msg} {o : Outcome Unit}
    (h : encipher U noise f inst m = (o, inst', m')) : OrderFlow inst inst' := by
  unfold K431.encipher at h
  rcases he : K431.encipherT U noise f inst m with ⟨u | e | _, i2, m2⟩ <;> rw [he] at h <;> simp only [Prod.mk.injEq] at h <;>
    (rw [← h.2.1]; exact OrderFlow.encipherT he)

theorem OrderFlow.newTextMessage {U : Unicode} {noise : Nat → Rune} {f : Runes} {p : Outcome Msg} {inst inst' : Inst}
    {r : Runes} {rest : List Runes} {o : Outcome Msg} (h : newTextMessage U noise f (fun _ => p) inst (r :: rest) = (o, inst')) : OrderFlow inst inst' := by
  unfold K431.newTextMessage at h
  simp only at h
  have hrun : ∀ (inst1 : Inst) (p1 : Msg),
      (match K431.encipher U noise f inst1 p1 with
        | (.ok _, inst, m) => (.ok m, { inst with messages := inst.messages ++ [m] })
        | (.err e, inst, m) => (.err e, K431.wipeMessage noise m inst)
        | (.panic, inst, m) => (.panic, K431.wipeMessage noise m inst) : Outcome Msg × Inst) = (o, inst') → OrderFlow inst1 inst' := by
    intro inst1 p1 hm
    rcases he : K431.encipher U noise f inst1 p1 with ⟨u | e | _, i2, m2⟩ <;> rw [he] at hm <;> simp only [Prod.mk.injEq] at hm <;> rw [← hm.2]
    · exact (OrderFlow.encipher he).trans (OrderFlow.messages _ _)
    · exact (OrderFlow.encipher he).trans (OrderFlow.wipeMessage _ _ _)
    · exact (OrderFlow.encipher he).trans (OrderFlow.wipeMessage _ _ _)
  rcases p with p | e | _
  · simp only at h
    by_cases hc : isMyCall U inst p = true
    · rw [if_pos hc] at h
      match rest, h with
      | [], h => exact hrun _ _ h
      | [a], h =>
        simp at h
        rw [← h.2]
        exact OrderFlow.wipeMessage _ _ _
      | a :: b :: tl, h =>
        simp only [List.length_cons, ge_iff_le, Nat.le_add_left, if_true, List.getElem?_cons_succ, List.getElem?_cons_zero] at h
        refine (OrderFlow.alloc inst 1).trans ?_
        by_cases hl : (toUpperStr U (trimSpace U b)).length ≠ inst.groupSize
        · rw [if_pos hl] at h
          simp only [Prod.mk.injEq] at h
          rw [← h.2]
          exact OrderFlow.wipeMessage _ _ _
        · rw [if_neg hl] at h
          exact hrun _ _ h
    · rw [if_neg hc] at h
      rcases ht : K431.tryDecipher U f false inst (if p.recipients.length = 0 then
          { p with recipients := addRecipient U p.recipients [inst.callSign] } else p) with ⟨u | e | _, i2, m2⟩ <;>
        rw [ht] at h <;> simp only [Prod.mk.injEq] at h <;> rw [← h.2]
      · exact (OrderFlow.tryDecipher ht).trans (OrderFlow.messages _ _)
      · exact (OrderFlow.tryDecipher ht).trans (OrderFlow.messages _ _)
      · exact (OrderFlow.tryDecipher ht).trans (OrderFlow.wipeMessage _ _ _)
  · simp only [Prod.mk.injEq] at h
    rw [← h.2]; exact OrderFlow.refl _
  · simp only [Prod.mk.injEq] at h
    rw [← h.2]; exact OrderFlow.refl _

/-- every step keeps the order of the keys at the front -/
theorem step_order {U : Unicode} {P : Inst → Msg → Prop} {h h' : Hist} (hs : HStep U P h h') : OrderFlow h.inst h'.inst := by
  cases hs with
  | newKey hk => exact OrderFlow.newKey hk
  | generate hk => exact OrderFlow.generateKeys hk
  | deleteKey noise ids => exact OrderFlow.deleteKey U _ _ _
  | deleteKeyByString noise args => exact OrderFlow.deleteKey U _ _ _
  | deleteKeysBySummary noise lines => exact OrderFlow.deleteBySummary U _ _ _
  | importKeys noise o filter loaded => exact OrderFlow.importKeys U _ _ _ _ _
  | mark id => exact KeptAlike.orders (Nat.le_refl _) (KeptAlike.mark U _ _ _)
  | deleteMessage noise ids => exact OrderFlow.deleteMessage _ _ _
  | deleteMessageByString noise args => exact OrderFlow.deleteMessage _ _ _
  | decipher _ hd => exact (OrderFlow.decipher hd).trans (OrderFlow.messages _ _)
  | tryDecipher _ hd => exact (OrderFlow.tryDecipher hd).trans (OrderFlow.messages _ _)
  | encipher _ he hP => exact (OrderFlow.encipherT he).trans (OrderFlow.messages _ _)
  | encipherOther he hP => exact OrderFlow.encipherT he
  | create hp hm hP => exact OrderFlow.newTextMessage hm

theorem Eligible.of_setUsed {U : Unicode} {g : Nat} {r : List Runes} {keys : List Key} {i j : Nat} {k : Key}
    (hk : (setUsed keys j true)[i]? = some k) (he : Eligible U g r k) : keys[i]? = some k := by
  rw [setUsed_get] at hk
  rcases hx : keys[i]? with _ | x
  · rw [hx] at hk; cases hk
  · rw [hx] at hk
    simp only [Option.map_some, Option.some.injEq] at hk
    split at hk
    · subst hk
      exact absurd he.1 (by simp)
    · rw [hk]

/-- the loop takes a key only if no key before it is left -/
theorem encLoop_order {U : Unicode} {g : Nat} {r : List Runes} {text : Runes} {s s' : LoopState} {o : Outcome Unit} (hs : LoopOk s) (hch : s.chunks = [])
    (hfirst : ∀ i, i < s.cur.key → ∀ k, s.keys[i]? = some k → ¬ Eligible U g r k) (h : encLoop U g r text s = (o, s')) :
    ∀ j ∈ keysOf (s'.chunks ++ [s'.cur]), ∀ i, i < j → ∀ k, s'.keys[i]? = some k → ¬ Eligible U g r k := by
  obtain ⟨_, d1, d2, _, hP, _⟩ := encLoop_inv (U := U) (g := g) (r := r)
    (fun _ a => ∀ j ∈ keysOf (a.chunks ++ [a.cur]), ∀ i, i < j → ∀ k, a.keys[i]? = some k → ¬ Eligible U g r k)
    (by
      intro d a b hP hok hn
      obtain ⟨j, k, hf, hk, rfl⟩ := nextChunk_ok hok hn
      obtain ⟨k', e1, e2, e3⟩ := findKey_some hf
      intro j' hj' i hi x hx he
      have hx' := Eligible.of_setUsed hx he
      have hj2 : j' ∈ keysOf (a.chunks ++ [a.cur]) ∨ j' = j := by
        simp only [keysOf, List.map_append, List.map_cons, List.map_nil, List.mem_append, List.mem_singleton] at hj' ⊢
        exact hj'
      rcases hj2 with hj2 | rfl
      · exact hP j' hj2 i hi x hx' he
      · exact e3 i x hi hx' he)
    (by
      intro d a c t i hP _ _
      have hkeys : keysOf ((afterChar U a c t i).chunks ++ [(afterChar U a c t i).cur]) = keysOf (a.chunks ++ [a.cur]) := by simp [keysOf, afterChar]
      intro j hj
      exact hP j (by rw [← hkeys]; exact hj))
    text [] s o s'
    (by
      intro j hj
      simp only [keysOf, hch, List.nil_append, List.map_cons, List.map_nil, List.mem_singleton] at hj
      subst hj
      exact hfirst) hs h
  exact hP

/-- with an automatically selected key: whenever a key is taken, every suitable key before it is taken too -/
theorem EncOk.auto_order {U : Unicode} {f : Runes} {inst inst' inst1 : Inst} {m m' m1 : Msg} {chunks : List Chunk} {i : Nat} {s : LoopState} {out : Runes}
    (hU : U.Lawful) (e : EncOk U f inst m chunks inst' m' inst1 m1 i s out) (hauto : m.keyId.val = []) (hwf : Distinguishable U inst.keys) :
    ∀ j ∈ keysOf chunks, ∀ a, a < j → ∀ k, inst.keys[a]? = some k → Eligible U inst.groupSize m.recipients k → a ∈ keysOf chunks := by
  have hrec : m1.recipients = m.recipients := by
    rw [e.enriched.plainText.2.1, (withId_fields f m).2.1]
  obtain ⟨hk1, _⟩ := e.auto_first hU hauto hwf
  obtain ⟨hfl, _, _⟩ := e.auto_flags hU hauto hwf
  have hfind : findKey U inst.groupSize inst.keys m.recipients = some i := by
    have h := e.enriched
    have hk1 := e.first
    rw [getKey_congr U _ e.enriched.sameMat.ids] at hk1
    cases h with
    | preset j k h1 => rw [(withId_fields f m).2.2.1, hauto] at h1; exact absurd rfl h1
    | auto j k h1 h2 h3 h4 =>
      simp only at hk1
      cases hwf.getKey hU h4 hk1
      rw [(withId_fields f m).2.1] at h3
      exact h3
  obtain ⟨k0, _, _, hlow⟩ := findKey_some hfind
  have hord := encLoop_order (loopOk_start _ _) rfl (by
    intro a ha k hk he
    simp only at ha hk
    rw [hk1] at hk
    rw [hrec] at he
    exact hlow a k ha (Eligible.of_setUsed hk he) he) e.loop
  rw [hrec, ← e.keysOf_eq] at hord
  intro j hj a ha k hk he
  have hkeys : inst'.keys = s.keys := by rw [e.hinst]
  have hsm : SameMat inst'.keys inst.keys := by rw [e.keyId_eq.2.2]; exact e.sameMat
  obtain ⟨k', hk', hm⟩ := hsm.symm.get hk
  have hu := hfl a
  simp only [usedAt, hk', hk, he.1, Bool.false_or] at hu
  by_contra hno
  rw [decide_eq_false hno] at hu
  refine hord j hj a ha k' (by rw [← hkeys]; exact hk') ⟨hu, ?_, ?_⟩
  · rw [Key.mat_id hm]; exact he.2.1
  · rw [Key.names, Key.mat_keepers hm]; exact he.2.2

end K431
