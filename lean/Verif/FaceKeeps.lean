import Verif.HistLemmas

/-!
# Lemmas: what a history does to the letters, dates and other contents of keys
-/

namespace K431
open Spec

/-- the array of the id, and what is never changed -/
def Key.kept (k : Key) : Nat × Runes × Int × Int × Bool × Runes := (k.id.addr, k.runes, k.created, k.expires, k.compromised, k.comment)

/-- the same keys in the same order, up to ids, keepers and marks -/
def KeptAlike (a b : List Key) : Prop := a.map Key.kept = b.map Key.kept

theorem KeptAlike.refl (a : List Key) : KeptAlike a a := rfl
theorem KeptAlike.symm {a b : List Key} (h : KeptAlike a b) : KeptAlike b a := Eq.symm h
theorem KeptAlike.trans {a b c : List Key} (h : KeptAlike a b) (h' : KeptAlike b c) : KeptAlike a c := Eq.trans h h'

theorem SameMat.alike {a b : List Key} (h : SameMat a b) : KeptAlike a b := by
  have e : ∀ l : List Key, l.map Key.kept = (l.map Key.mat).map Key.kept := by
    intro l; rw [List.map_map]; rfl
  unfold KeptAlike
  rw [e a, e b, h]

theorem KeptAlike.setUsed (l : List Key) (i : Nat) (b : Bool) : KeptAlike (setUsed l i b) l := (setUsed_sameMat l i b).alike

theorem KeptAlike.wipeKeys (a : Nat) (noise : Nat → Rune) (l : List Key) : KeptAlike (wipeKeys a noise l) l := by
  unfold KeptAlike K431.wipeKeys
  rw [List.map_map]
  apply List.map_congr_left
  intro k _
  simp only [Function.comp, Key.kept, Sl.wiped]
  split <;> rfl

theorem KeptAlike.foldUsed {α : Type} (f : α → Nat) (b : Bool) : ∀ (cs : List α) (l : List Key), KeptAlike (cs.foldl (fun ks c => K431.setUsed ks (f c) b) l) l := by
  intro cs
  induction cs with
  | nil => intro l; exact KeptAlike.refl _
  | cons c cs ih => intro l; exact (ih _).trans (KeptAlike.setUsed _ _ _)

theorem KeptAlike.mark (U : Unicode) (l : List Key) (id : Runes) (b : Bool) : KeptAlike (markKeyUsed U l id b).2 l := by
  unfold markKeyUsed
  split
  · exact KeptAlike.setUsed _ _ _
  · exact KeptAlike.refl _

theorem KeptAlike.release (U : Unicode) (noise : Nat → Rune) (inst : Inst) (m : Msg) (s : LoopState) (ct : Runes) : KeptAlike (release U noise inst m s ct).1.keys s.keys := by
  unfold K431.release
  refine (KeptAlike.foldUsed Chunk.key false _ _).trans ((KeptAlike.setUsed _ _ _).trans ?_)
  split
  · exact KeptAlike.mark U _ _ _
  · exact (KeptAlike.wipeKeys _ _ _).trans (KeptAlike.mark U _ _ _)

theorem enrich_alike {U : Unicode} {f : Runes} {inst inst1 : Inst} {m m1 : Msg} {o : Outcome Unit} (h : enrichWithKey U f inst m = (o, inst1, m1)) :
    KeptAlike inst1.keys inst.keys ∧ inst1.nextAddr = inst.nextAddr := by
  unfold enrichWithKey at h
  simp only at h
  repeat' split at h
  all_goals
    simp only [Prod.mk.injEq] at h
    obtain ⟨_, rfl, _⟩ := h
    first
    | exact ⟨KeptAlike.refl _, rfl⟩
    | exact ⟨KeptAlike.setUsed _ _ _, rfl⟩

theorem encipherT_alike {U : Unicode} {noise : Nat → Rune} {f : Runes} {inst inst' : Inst} {m m' : Msg} {o : Outcome (List Chunk)}
    (h : encipherT U noise f inst m = (o, inst', m')) : KeptAlike inst'.keys inst.keys ∧ inst'.nextAddr = inst.nextAddr := by
  unfold encipherT at h
  simp only [enrich_withId] at h
  rcases he : enrichWithKey U f inst m with ⟨u | e | _, inst1, m1⟩
  · obtain ⟨ha, hn⟩ := enrich_alike he
    rw [he] at h
    dsimp only at h
    rcases hk : getKey U inst1.keys m1.keyId.val with _ | i
    · rw [hk] at h
      simp only [Prod.mk.injEq] at h
      rw [← h.2.1]; exact ⟨ha, hn⟩
    · rw [hk] at h
      dsimp only at h
      rcases hl : encLoop U inst1.groupSize m1.recipients m1.plainText ⟨inst1.keys, newState, [], ⟨[], i⟩⟩ with ⟨ol, s⟩
      have hs : KeptAlike s.keys inst.keys := (encLoop_sameMat (loopOk_start _ _) hl).alike.trans ha
      rw [hl] at h
      rcases ol with u' | e' | _
      · dsimp only at h
        split at h
        · simp only [Prod.mk.injEq] at h
          rw [← h.2.1]
          exact ⟨(KeptAlike.release _ _ _ _ _ _).trans hs, hn⟩
        · split at h
          · simp only [Prod.mk.injEq] at h
            rw [← h.2.1]
            exact ⟨hs, hn⟩
          · simp only [Prod.mk.injEq] at h
            rw [← h.2.1]
            exact ⟨(KeptAlike.release _ _ _ _ _ _).trans hs, hn⟩
          · simp only [Prod.mk.injEq] at h
            rw [← h.2.1]
            exact ⟨(KeptAlike.release _ _ _ _ _ _).trans hs, hn⟩
      · simp only [Prod.mk.injEq] at h
        rw [← h.2.1]
        exact ⟨(KeptAlike.release _ _ _ _ _ _).trans hs, hn⟩
      · simp only [Prod.mk.injEq] at h
        rw [← h.2.1]
        exact ⟨(KeptAlike.release _ _ _ _ _ _).trans hs, hn⟩
  · rw [he] at h
    simp only [Prod.mk.injEq] at h
    rw [← h.2.1]; exact enrich_alike he
  · rw [he] at h
    simp only [Prod.mk.injEq] at h
    rw [← h.2.1]; exact enrich_alike he

/-- every key of `b` is new or a key of `a`, up to id, keepers and mark -/
structure KeepsAll (a b : Inst) : Prop where
  next : a.nextAddr ≤ b.nextAddr
  addrs : Addrs b
  origin : ∀ k ∈ b.keys, a.nextAddr ≤ k.id.addr ∨ ∃ k0 ∈ a.keys, k0.kept = k.kept

def KeepsFlow (a b : Inst) : Prop := Addrs a → KeepsAll a b

theorem KeepsFlow.trans {a b c : Inst} (h1 : KeepsFlow a b) (h2 : KeepsFlow b c) : KeepsFlow a c := fun h => by
  have f1 := h1 h
  have f2 := h2 f1.addrs
  refine ⟨Nat.le_trans f1.next f2.next, f2.addrs, ?_⟩
  intro k hk
  rcases f2.origin k hk with hn | ⟨k1, hk1, e1⟩
  · exact .inl (Nat.le_trans f1.next hn)
  · rcases f1.origin k1 hk1 with hn | ⟨k0, hk0, e0⟩
    · left
      have : k1.id.addr = k.id.addr := congrArg Prod.fst e1
      omega
    · exact .inr ⟨k0, hk0, e0.trans e1⟩

theorem KeptAlike.carry {a b : Inst} (hn : a.nextAddr ≤ b.nextAddr) (h : KeptAlike b.keys a.keys) : KeepsFlow a b := fun ha => by
  have horig : ∀ k ∈ b.keys, ∃ k0 ∈ a.keys, k0.kept = k.kept := by
    intro k hk
    have : k.kept ∈ a.keys.map Key.kept := by rw [← h]; exact List.mem_map_of_mem hk
    obtain ⟨k0, h0, e⟩ := List.mem_map.1 this
    exact ⟨k0, h0, e⟩
  have e : ∀ l : List Key, l.map (fun k => k.id.addr) = (l.map Key.kept).map Prod.fst := by
    intro l; rw [List.map_map]; rfl
  refine ⟨hn, ⟨?_, ?_⟩, fun k hk => .inr (horig k hk)⟩
  · rw [e, h, ← e]; exact ha.nodup
  · intro k hk
    obtain ⟨k0, h0, e0⟩ := horig k hk
    have := ha.fresh k0 h0
    have e1 : k0.id.addr = k.id.addr := congrArg Prod.fst e0
    omega

theorem KeepsFlow.refl (a : Inst) : KeepsFlow a a := KeptAlike.carry (Nat.le_refl _) (KeptAlike.refl _)

theorem KeepsFlow.messages (a : Inst) (ms : List Msg) : KeepsFlow a { a with messages := ms } := KeptAlike.carry (Nat.le_refl _) (KeptAlike.refl _)

theorem KeepsFlow.alloc (a : Inst) (n : Nat) : KeepsFlow a { a with nextAddr := a.nextAddr + n } := KeptAlike.carry (Nat.le_add_right _ _) (KeptAlike.refl _)

theorem KeepsFlow.sub {a b : Inst} (hn : a.nextAddr ≤ b.nextAddr) {l : List Key} (hp : b.keys.Perm l) (hs : l.Sublist a.keys) : KeepsFlow a b := fun ha => by
  have hmem : ∀ k ∈ b.keys, k ∈ a.keys := fun k hk => hs.subset (hp.mem_iff.1 hk)
  refine ⟨hn, ⟨?_, ?_⟩, fun k hk => .inr ⟨k, hmem k hk, rfl⟩⟩
  · exact (hp.map (fun k => k.id.addr)).nodup_iff.2 (ha.nodup.sublist (hs.map _))
  · intro k hk
    exact Nat.lt_of_lt_of_le (ha.fresh k (hmem k hk)) hn

theorem KeepsFlow.add {a b : Inst} {k : Key} (hn : a.nextAddr < b.nextAddr) (hg : b.groupSize = a.groupSize)
    (hk : b.keys = a.keys ++ [k]) (hka : k.id.addr = a.nextAddr) : KeepsFlow a b := fun ha => by
  have f := Flow.add hn hg hk hka ha
  refine ⟨f.next, f.addrs, ?_⟩
  intro x hx
  rw [hk, List.mem_append, List.mem_singleton] at hx
  rcases hx with hx | rfl
  · exact .inr ⟨x, hx, rfl⟩
  · exact .inl (by omega)

theorem KeepsFlow.newKey {U : Unicode} {now expire : Int} {keepers : List Runes} {inst inst' : Inst} {t t' : Tape} {k : Key}
    (h : newKey U now expire keepers inst t = some (k, inst', t')) : KeepsFlow inst inst' := by
  obtain ⟨rfl, h1, _⟩ := newKey_spec h
  exact KeepsFlow.add (k := k) (by simp only; omega) rfl rfl h1

theorem KeepsFlow.generateLoop {U : Unicode} {now : Nat → Int} {expire : Int} {keepers : List Runes} : ∀ {n : Nat} {inst inst' : Inst}
    {t t' : Tape}, K431.generateLoop U now expire keepers n inst t = some (inst', t') → KeepsFlow inst inst' := by
  intro n
  induction n with
  | zero => intro inst inst' t t' e; simp [K431.generateLoop] at e; rw [← e.1]; exact KeepsFlow.refl _
  | succ n ih =>
    intro inst inst' t t' e
    simp only [K431.generateLoop] at e
    rcases hk : K431.newKey U (now n) expire keepers inst t with _ | ⟨k, inst1, t1⟩
    · rw [hk] at e; cases e
    · rw [hk] at e
      exact (KeepsFlow.newKey hk).trans (ih e)

theorem KeepsFlow.generateKeys {U : Unicode} {now : Nat → Int} {start n : Int} {expire : Option (Outcome Int)} {keepers : List Runes}
    {inst inst' : Inst} {t t' : Tape} {o : Outcome Unit}
    (hg : generateKeys U now start n expire keepers inst t = some (o, inst', t')) : KeepsFlow inst inst' := by
  unfold K431.generateKeys at hg
  split at hg
  · rcases hl : K431.generateLoop U now _ keepers n.toNat _ t with _ | ⟨i1, t1⟩
    · rw [hl] at hg; cases hg
    · rw [hl] at hg
      simp only [Option.map_some, Option.some.injEq, Prod.mk.injEq] at hg
      rw [← hg.2.1]
      exact KeepsFlow.generateLoop hl
  · simp only [Option.some.injEq, Prod.mk.injEq] at hg; rw [← hg.2.1]; exact KeepsFlow.refl _
  · simp only [Option.some.injEq, Prod.mk.injEq] at hg; rw [← hg.2.1]; exact KeepsFlow.refl _

theorem KeepsFlow.wipeKey (noise : Noise) (k : Key) (inst : Inst) : KeepsFlow inst (wipeKey noise k inst) := by
  refine KeptAlike.carry (Nat.le_refl _) ?_
  unfold KeptAlike
  simp only [K431.wipeKey, List.map_map]
  apply List.map_congr_left
  intro x _
  simp only [Function.comp, Key.kept, wipedIn_addr]

theorem KeepsFlow.deleteKeyOnce (U : Unicode) (noise : Noise) (inst : Inst) (id : Runes) :
    KeepsFlow inst (deleteKeyOnce U noise inst id).2 := by
  unfold K431.deleteKeyOnce
  split
  · exact KeepsFlow.refl _
  · rename_i i _
    split
    · exact KeepsFlow.refl _
    · rename_i k hk
      have hi : i < (K431.wipeKey noise k inst).keys.length := by
        simp [K431.wipeKey]; exact (List.getElem?_eq_some_iff.1 hk).1
      refine (KeepsFlow.wipeKey noise k inst).trans ?_
      exact KeepsFlow.sub (Nat.le_refl _) (swapRemove_perm hi) (List.eraseIdx_sublist _ _)

theorem KeepsFlow.deleteKey (U : Unicode) : ∀ (ids : List Runes) (noise : Nat → Noise) (inst : Inst),
    KeepsFlow inst (deleteKey U noise inst ids).2 := by
  intro ids
  induction ids with
  | nil => intro noise inst; exact KeepsFlow.refl _
  | cons id ids ih => intro noise inst; exact (KeepsFlow.deleteKeyOnce U _ inst id).trans (ih _ _)

theorem KeepsFlow.deleteBySummary (U : Unicode) : ∀ (lines : List Runes) (noise : Nat → Nat → Noise) (inst : Inst),
    KeepsFlow inst (deleteKeysBySummary U noise inst lines).2 := by
  intro lines
  induction lines with
  | nil => intro noise inst; exact KeepsFlow.refl _
  | cons l ls ih => intro noise inst; exact (KeepsFlow.deleteKey U _ _ inst).trans (ih _ _)

theorem KeepsFlow.addImported (U : Unicode) (call : Sl) (k : Key) (inst : Inst) : KeepsFlow inst (addImported U call k inst) :=
  KeepsFlow.add (k := importedKey U inst call k) (by simp only [K431.addImported]; omega) rfl rfl rfl

theorem KeepsFlow.importLoop {U : Unicode} {o : ImportOpts} {filter : Key → Bool} {call : Sl} : ∀ (ks : List Key)
    (noise : Nat → Noise) (n : Nat) (inst : Inst), KeepsFlow inst (importLoop U noise o filter call ks n inst).2.2 := by
  intro ks
  induction ks with
  | nil => intro noise n inst; exact KeepsFlow.refl _
  | cons k ks ih =>
    intro noise n inst
    obtain ⟨r, h1, h2⟩ := importLoop_cons U noise o filter call k ks n inst
    rw [h2]
    rcases r with _ | ⟨b, inst1⟩
    · exact KeepsFlow.refl _
    · refine KeepsFlow.trans ?_ (ih _ _ _)
      cases h1 with
      | skipLen => exact KeepsFlow.refl _
      | skipFilter => exact KeepsFlow.refl _
      | skipExisting => exact KeepsFlow.refl _
      | new => exact KeepsFlow.addImported U call k inst
      | replace => exact (KeepsFlow.deleteKey U _ _ inst).trans (KeepsFlow.addImported U call k _)

theorem KeepsFlow.importKeys (U : Unicode) (noise : Nat → Noise) (o : ImportOpts) (filter : Key → Bool)
    (loaded : Outcome (List Key × Runes)) (inst : Inst) : KeepsFlow inst (importKeys U noise o filter loaded inst).2.2 := by
  unfold K431.importKeys
  rcases loaded with ⟨keys, call⟩ | e | _
  · exact (KeepsFlow.alloc inst 1).trans (KeepsFlow.importLoop _ _ _ _)
  · exact KeepsFlow.refl _
  · exact KeepsFlow.refl _

theorem KeepsFlow.wipeMessage (noise : Nat → Rune) (m : Msg) (inst : Inst) : KeepsFlow inst (wipeMessage noise m inst) := by
  unfold K431.wipeMessage
  split
  · exact KeepsFlow.refl _
  · exact KeptAlike.carry (Nat.le_refl _) (KeptAlike.wipeKeys _ _ _)

theorem KeepsFlow.deleteMessageOnce (noise : Nat → Rune) (inst : Inst) (id : Runes) : KeepsFlow inst (deleteMessageOnce noise inst id).2 := by
  unfold K431.deleteMessageOnce
  split
  · exact KeepsFlow.refl _
  · split
    · exact KeepsFlow.refl _
    · exact (KeepsFlow.wipeMessage noise _ inst).trans (KeepsFlow.messages _ _)

theorem KeepsFlow.deleteMessage : ∀ (ids : List Runes) (noise : Nat → Nat → Rune) (inst : Inst), KeepsFlow inst (deleteMessage noise inst ids).2 := by
  intro ids
  induction ids with
  | nil => intro noise inst; exact KeepsFlow.refl _
  | cons id ids ih => intro noise inst; exact (KeepsFlow.deleteMessageOnce _ inst id).trans (ih _ _)

theorem KeepsFlow.decipher {U : Unicode} {f : Runes} {inst inst' : Inst} {m m' : Msg} {o : Outcome Unit}
    (h : decipher U f inst m = (o, inst', m')) : KeepsFlow inst inst' := by
  unfold K431.decipher at h
  simp only at h
  repeat' split at h
  all_goals
    simp only [Prod.mk.injEq] at h
    obtain ⟨_, rfl, _⟩ := h
    first
    | exact KeepsFlow.refl _
    | exact KeptAlike.carry (Nat.le_refl _) (KeptAlike.foldUsed (fun j => j) true _ _)

theorem KeepsFlow.tryDecipher {U : Unicode} {f : Runes} {dry : Bool} {inst inst' : Inst} {m m' : Msg} {o : Outcome Unit}
    (h : tryDecipher U f dry inst m = (o, inst', m')) : KeepsFlow inst inst' := by
  unfold K431.tryDecipher at h
  simp only at h
  repeat' split at h
  all_goals
    simp only [Prod.mk.injEq] at h
    obtain ⟨_, rfl, _⟩ := h
    first
    | exact KeepsFlow.refl _
    | exact (KeepsFlow.alloc inst 1).trans (KeepsFlow.decipher (by assumption))

theorem KeepsFlow.encipherT {U : Unicode} {noise : Nat → Rune} {f : Runes} {inst inst' : Inst} {m m' : Msg} {o : Outcome (List Chunk)}
    (h : encipherT U noise f inst m = (o, inst', m')) : KeepsFlow inst inst' := by
  obtain ⟨h1, h2⟩ := encipherT_alike h
  exact KeptAlike.carry (Nat.le_of_eq h2.symm) h1

theorem KeepsFlow.encipher {U : Unicode} {noise : Nat → Rune} {f : Runes} {inst inst' : Inst} {m m' : Msg} {o : Outcome Unit}
    (h : encipher U noise f inst m = (o, inst', m')) : KeepsFlow inst inst' := by
  unfold K431.encipher at h
  rcases he : K431.encipherT U noise f inst m with ⟨u | e | _, i2, m2⟩ <;> rw [he] at h <;> simp only [Prod.mk.injEq] at h <;>
    (rw [← h.2.1]; exact KeepsFlow.encipherT he)

theorem KeepsFlow.newTextMessage {U : Unicode} {noise : Nat → Rune} {f : Runes} {p : Outcome Msg} {inst inst' : Inst}
    {r : Runes} {rest : List Runes} {o : Outcome Msg} (h : newTextMessage U noise f (fun _ => p) inst (r :: rest) = (o, inst')) : KeepsFlow inst inst' := by
  unfold K431.newTextMessage at h
  simp only at h
  have hrun : ∀ (inst1 : Inst) (p1 : Msg),
      (match K431.encipher U noise f inst1 p1 with
        | (.ok _, inst, m) => (.ok m, { inst with messages := inst.messages ++ [m] })
        | (.err e, inst, m) => (.err e, K431.wipeMessage noise m inst)
        | (.panic, inst, m) => (.panic, K431.wipeMessage noise m inst) : Outcome Msg × Inst) = (o, inst') → KeepsFlow inst1 inst' := by
    intro inst1 p1 hm
    rcases he : K431.encipher U noise f inst1 p1 with ⟨u | e | _, i2, m2⟩ <;> rw [he] at hm <;> simp only [Prod.mk.injEq] at hm <;> rw [← hm.2]
    · exact (KeepsFlow.encipher he).trans (KeepsFlow.messages _ _)
    · exact (KeepsFlow.encipher he).trans (KeepsFlow.wipeMessage _ _ _)
    · exact (KeepsFlow.encipher he).trans (KeepsFlow.wipeMessage _ _ _)
  rcases p with p | e | _
  · simp only at h
    by_cases hc : isMyCall U inst p = true
    · rw [if_pos hc] at h
      match rest, h with
      | [], h => exact hrun _ _ h
      | [a], h =>
        simp at h
        rw [← h.2]
        exact KeepsFlow.wipeMessage _ _ _
      | a :: b :: tl, h =>
        simp only [List.length_cons, ge_iff_le, Nat.le_add_left, if_true, List.getElem?_cons_succ, List.getElem?_cons_zero] at h
        refine (KeepsFlow.alloc inst 1).trans ?_
        by_cases hl : (toUpperStr U (trimSpace U b)).length ≠ inst.groupSize
        · rw [if_pos hl] at h
          simp only [Prod.mk.injEq] at h
          rw [← h.2]
          exact KeepsFlow.wipeMessage _ _ _
        · rw [if_neg hl] at h
          exact hrun _ _ h
    · rw [if_neg hc] at h
      rcases ht : K431.tryDecipher U f false inst (if p.recipients.length = 0 then
          { p with recipients := addRecipient U p.recipients [inst.callSign] } else p) with ⟨u | e | _, i2, m2⟩ <;>
        rw [ht] at h <;> simp only [Prod.mk.injEq] at h <;> rw [← h.2]
      · exact (KeepsFlow.tryDecipher ht).trans (KeepsFlow.messages _ _)
      · exact (KeepsFlow.tryDecipher ht).trans (KeepsFlow.messages _ _)
      · exact (KeepsFlow.tryDecipher ht).trans (KeepsFlow.wipeMessage _ _ _)
  · simp only [Prod.mk.injEq] at h
    rw [← h.2]; exact KeepsFlow.refl _
  · simp only [Prod.mk.injEq] at h
    rw [← h.2]; exact KeepsFlow.refl _

end K431
