import Verif.SpecRest
import Verif.FaceKeeps
import Verif.MsgLemmas

/-!
# Lemmas: what work elsewhere does to a message
-/

namespace K431
open Spec

/-- the message says the same; its key id is as long as it was, and the same if its array is in `A` -/
structure Unmoved (A : Nat → Prop) (m m' : Msg) : Prop where
  record : m'.record = m.record
  length : m'.keyId.val.length = m.keyId.val.length
  same : A m.keyId.addr → m'.keyId = m.keyId

theorem Unmoved.refl {A : Nat → Prop} (m : Msg) : Unmoved A m m := ⟨rfl, rfl, fun _ => rfl⟩

theorem Unmoved.id_eq {A : Nat → Prop} {m m' : Msg} (h : Unmoved A m m') : m'.id = m.id := congrArg Prod.fst h.record

theorem Unmoved.trans {A : Nat → Prop} {m m1 m2 : Msg} (h1 : Unmoved A m m1) (h2 : Unmoved A m1 m2) : Unmoved A m m2 := by
  refine ⟨h2.record.trans h1.record, h2.length.trans h1.length, fun ha => ?_⟩
  have := h1.same ha
  rw [h2.same (by rw [this]; exact ha), this]

/-- the message with the id `x` stays, and its key id too if its array is in `A` -/
def Rests (A : Nat → Prop) (x : Runes) (a b : Inst) : Prop :=
  Reserved A x a → Reserved A x b ∧ ∀ m ∈ a.messages, m.id = x → ∃ m' ∈ b.messages, Unmoved A m m'

variable {A : Nat → Prop} {x : Runes}

theorem Rests.refl (a : Inst) : Rests A x a a := fun h => ⟨h, fun m hm _ => ⟨m, hm, Unmoved.refl m⟩⟩

theorem Rests.trans {a b c : Inst} (h1 : Rests A x a b) (h2 : Rests A x b c) : Rests A x a c := fun h => by
  obtain ⟨hb, f1⟩ := h1 h
  obtain ⟨hc, f2⟩ := h2 hb
  refine ⟨hc, fun m hm hx => ?_⟩
  obtain ⟨m1, hm1, e1⟩ := f1 m hm hx
  obtain ⟨m2, hm2, e2⟩ := f2 m1 hm1 (e1.id_eq.trans hx)
  exact ⟨m2, hm2, e1.trans e2⟩

/-- arrays outside `A` are overwritten -/
theorem Rests.over {a b : Inst} (hn : a.nextAddr ≤ b.nextAddr) (hk : Reserved A x a → ∀ k ∈ b.keys, ¬ A k.id.addr)
    (hm : Reserved A x a → ∃ g : Sl → Sl, Overwrite (fun n => ¬ A n) g ∧ b.messages = a.messages.map (Msg.withKey g)) : Rests A x a b := fun h => by
  obtain ⟨g, hg, e⟩ := hm h
  refine ⟨⟨fun n ha => Nat.lt_of_lt_of_le (h.fresh n ha) hn, hk h, ?_⟩, ?_⟩
  · intro m hmem hx
    rw [e] at hmem
    obtain ⟨m0, h0, rfl⟩ := List.mem_map.1 hmem
    rcases h.msgs m0 h0 hx with hv | hv
    · left
      have := hg.length m0.keyId
      rw [hv] at this
      exact List.length_eq_zero_iff.1 this
    · right
      show ¬ A (g m0.keyId).addr
      rw [hg.addr]; exact hv
  · intro m hmem hx
    refine ⟨m.withKey g, by rw [e]; exact List.mem_map_of_mem hmem, rfl, hg.length _, fun ha => ?_⟩
    exact hg.other _ (fun hn => hn ha)

theorem KeptAlike.off {a b : List Key} (h : KeptAlike b a) (ha : ∀ k ∈ a, ¬ A k.id.addr) : ∀ k ∈ b, ¬ A k.id.addr := by
  intro k hk
  have : k.kept ∈ a.map Key.kept := by rw [← h]; exact List.mem_map_of_mem hk
  obtain ⟨k0, h0, e⟩ := List.mem_map.1 this
  have e1 : k0.id.addr = k.id.addr := congrArg Prod.fst e
  rw [← e1]; exact ha k0 h0

/-- the messages stay, the keys stay at their places -/
theorem Rests.same {a b : Inst} (hn : a.nextAddr ≤ b.nextAddr) (hk : KeptAlike b.keys a.keys) (hm : b.messages = a.messages) : Rests A x a b :=
  Rests.over hn (fun h => hk.off h.keys) (fun _ => ⟨fun s => s, Overwrite.id _, by rw [hm]; exact (List.map_id _).symm⟩)

/-- the messages stay, a new key comes -/
theorem Rests.add {a b : Inst} {k : Key} (hn : a.nextAddr ≤ b.nextAddr) (hk : b.keys = a.keys ++ [k]) (hka : k.id.addr = a.nextAddr)
    (hm : b.messages = a.messages) : Rests A x a b :=
  Rests.over hn (fun h y hy => by
    rw [hk, List.mem_append, List.mem_singleton] at hy
    rcases hy with hy | rfl
    · exact h.keys y hy
    · intro ha
      have := h.fresh _ ha
      omega) (fun _ => ⟨fun s => s, Overwrite.id _, by rw [hm]; exact (List.map_id _).symm⟩)

/-- another message is replaced -/
theorem Rests.set {a : Inst} {i : Nat} {m m' : Msg} (hi : a.messages[i]? = some m) (hx : m.id ≠ x)
    (hm' : Reserved A x a → m'.keyId.val = [] ∨ ¬ A m'.keyId.addr) : Rests A x a { a with messages := a.messages.set i m' } := fun h => by
  refine ⟨⟨h.fresh, h.keys, ?_⟩, ?_⟩
  · intro y hy hyx
    rcases List.mem_or_eq_of_mem_set hy with hy | rfl
    · exact h.msgs y hy hyx
    · exact hm' h
  · intro y hy hyx
    obtain ⟨j, hj⟩ := List.mem_iff_getElem?.1 hy
    have hij : i ≠ j := by
      rintro rfl
      rw [hi] at hj
      cases hj
      exact hx hyx
    exact ⟨y, List.mem_iff_getElem?.2 ⟨j, by simp only; rw [List.getElem?_set_ne hij]; exact hj⟩, Unmoved.refl y⟩

/-- a message is added -/
theorem Rests.append {a : Inst} {m : Msg} (hm : Reserved A x a → m.keyId.val = [] ∨ ¬ A m.keyId.addr) :
    Rests A x a { a with messages := a.messages ++ [m] } := fun h => by
  refine ⟨⟨h.fresh, h.keys, ?_⟩, ?_⟩
  · intro y hy hyx
    simp only [List.mem_append, List.mem_singleton] at hy
    rcases hy with hy | rfl
    · exact h.msgs y hy hyx
    · exact hm h
  · intro y hy _
    exact ⟨y, by simp only [List.mem_append]; exact .inl hy, Unmoved.refl y⟩

theorem Rests.alloc (a : Inst) (n : Nat) : Rests A x a { a with nextAddr := a.nextAddr + n } :=
  Rests.same (Nat.le_add_right _ _) (KeptAlike.refl _) rfl

theorem Rests.newKey {U : Unicode} {now expire : Int} {keepers : List Runes} {inst inst' : Inst} {t t' : Tape} {k : Key}
    (h : newKey U now expire keepers inst t = some (k, inst', t')) : Rests A x inst inst' := by
  obtain ⟨rfl, h1, _⟩ := newKey_spec h
  exact Rests.add (k := k) (by simp only; omega) rfl h1 rfl

theorem Rests.generateLoop {U : Unicode} {now : Nat → Int} {expire : Int} {keepers : List Runes} : ∀ {n : Nat} {inst inst' : Inst}
    {t t' : Tape}, K431.generateLoop U now expire keepers n inst t = some (inst', t') → Rests A x inst inst' := by
  intro n
  induction n with
  | zero => intro inst inst' t t' e; simp [K431.generateLoop] at e; rw [← e.1]; exact Rests.refl _
  | succ n ih =>
    intro inst inst' t t' e
    simp only [K431.generateLoop] at e
    rcases hk : K431.newKey U (now n) expire keepers inst t with _ | ⟨k, inst1, t1⟩
    · rw [hk] at e; cases e
    · rw [hk] at e
      exact (Rests.newKey hk).trans (ih e)

theorem Rests.generateKeys {U : Unicode} {now : Nat → Int} {start n : Int} {expire : Option (Outcome Int)} {keepers : List Runes}
    {inst inst' : Inst} {t t' : Tape} {o : Outcome Unit}
    (hg : generateKeys U now start n expire keepers inst t = some (o, inst', t')) : Rests A x inst inst' := by
  unfold K431.generateKeys at hg
  split at hg
  · rcases hl : K431.generateLoop U now _ keepers n.toNat _ t with _ | ⟨i1, t1⟩
    · rw [hl] at hg; cases hg
    · rw [hl] at hg
      simp only [Option.map_some, Option.some.injEq, Prod.mk.injEq] at hg
      rw [← hg.2.1]
      exact Rests.generateLoop hl
  · simp only [Option.some.injEq, Prod.mk.injEq] at hg; rw [← hg.2.1]; exact Rests.refl _
  · simp only [Option.some.injEq, Prod.mk.injEq] at hg; rw [← hg.2.1]; exact Rests.refl _

theorem Overwrite.wipedIn (ids : List Nat) (noise : Nat → Nat → Rune) : Overwrite (fun a => a ∈ ids) (Sl.wipedIn ids noise) := by
  refine ⟨?_, ?_, ?_⟩ <;> intro s
  · intro h; unfold Sl.wipedIn; rw [if_neg h]
  · unfold Sl.wipedIn; split <;> rfl
  · unfold Sl.wipedIn; split <;> simp [noiseRunes]

theorem Rests.wipeKey (noise : Noise) {k : Key} {inst : Inst} (hk : k ∈ inst.keys) : Rests A x inst (wipeKey noise k inst) := by
  refine Rests.over (Nat.le_refl _) ?_ ?_
  · intro h y hy
    simp only [K431.wipeKey] at hy
    obtain ⟨y0, h0, rfl⟩ := List.mem_map.1 hy
    simp only [wipedIn_addr]
    exact h.keys y0 h0
  · intro h
    refine ⟨_, (Overwrite.wipedIn (if k.id.val ≠ [] then [k.id.addr] else []) noise.ids).mono ?_, rfl⟩
    intro a ha
    split at ha
    · rw [List.mem_singleton] at ha
      rw [ha]; exact h.keys k hk
    · cases ha

theorem Rests.deleteKeyOnce (U : Unicode) (noise : Noise) (inst : Inst) (id : Runes) : Rests A x inst (deleteKeyOnce U noise inst id).2 := by
  unfold K431.deleteKeyOnce
  split
  · exact Rests.refl _
  · rename_i i _
    split
    · exact Rests.refl _
    · rename_i k hk
      have hi : i < (K431.wipeKey noise k inst).keys.length := by
        simp [K431.wipeKey]; exact (List.getElem?_eq_some_iff.1 hk).1
      refine (Rests.wipeKey noise (List.mem_of_getElem? hk)).trans ?_
      refine Rests.over (Nat.le_refl _) ?_ (fun _ => ⟨fun s => s, Overwrite.id _, (List.map_id _).symm⟩)
      intro h y hy
      exact h.keys y ((List.eraseIdx_sublist _ _).subset ((swapRemove_perm hi).mem_iff.1 hy))

theorem Rests.deleteKey (U : Unicode) : ∀ (ids : List Runes) (noise : Nat → Noise) (inst : Inst), Rests A x inst (deleteKey U noise inst ids).2 := by
  intro ids
  induction ids with
  | nil => intro noise inst; exact Rests.refl _
  | cons id ids ih => intro noise inst; exact (Rests.deleteKeyOnce U _ inst id).trans (ih _ _)

theorem Rests.deleteBySummary (U : Unicode) : ∀ (lines : List Runes) (noise : Nat → Nat → Noise) (inst : Inst),
    Rests A x inst (deleteKeysBySummary U noise inst lines).2 := by
  intro lines
  induction lines with
  | nil => intro noise inst; exact Rests.refl _
  | cons l ls ih => intro noise inst; exact (Rests.deleteKey U _ _ inst).trans (ih _ _)

theorem Rests.addImported (U : Unicode) (call : Sl) (k : Key) (inst : Inst) : Rests A x inst (addImported U call k inst) :=
  Rests.add (k := importedKey U inst call k) (by simp only [K431.addImported]; omega) rfl rfl rfl

theorem Rests.importLoop {U : Unicode} {o : ImportOpts} {filter : Key → Bool} {call : Sl} : ∀ (ks : List Key)
    (noise : Nat → Noise) (n : Nat) (inst : Inst), Rests A x inst (importLoop U noise o filter call ks n inst).2.2 := by
  intro ks
  induction ks with
  | nil => intro noise n inst; exact Rests.refl _
  | cons k ks ih =>
    intro noise n inst
    obtain ⟨r, h1, h2⟩ := importLoop_cons U noise o filter call k ks n inst
    rw [h2]
    rcases r with _ | ⟨b, inst1⟩
    · exact Rests.refl _
    · refine Rests.trans ?_ (ih _ _ _)
      cases h1 with
      | skipLen => exact Rests.refl _
      | skipFilter => exact Rests.refl _
      | skipExisting => exact Rests.refl _
      | new => exact Rests.addImported U call k inst
      | replace => exact (Rests.deleteKey U _ _ inst).trans (Rests.addImported U call k _)

theorem Rests.importKeys (U : Unicode) (noise : Nat → Noise) (o : ImportOpts) (filter : Key → Bool)
    (loaded : Outcome (List Key × Runes)) (inst : Inst) : Rests A x inst (importKeys U noise o filter loaded inst).2.2 := by
  unfold K431.importKeys
  rcases loaded with ⟨keys, call⟩ | e | _
  · exact (Rests.alloc inst 1).trans (Rests.importLoop _ _ _ _)
  · exact Rests.refl _
  · exact Rests.refl _

theorem Rests.wipeMessage (noise : Nat → Rune) {m : Msg} {inst : Inst} (hm : Reserved A x inst → m.keyId.val = [] ∨ ¬ A m.keyId.addr) :
    Rests A x inst (wipeMessage noise m inst) := by
  unfold K431.wipeMessage
  split
  · exact Rests.refl _
  · rename_i hl
    refine Rests.over (Nat.le_refl _) (fun h => (KeptAlike.wipeKeys _ _ _).off h.keys) (fun h => ?_)
    refine ⟨Sl.wiped m.keyId.addr noise, (Overwrite.wiped _ _).mono ?_, rfl⟩
    rintro a rfl
    exact (hm h).resolve_left (fun e => hl (by rw [e]; rfl))

theorem Rests.deleteMessageOnce (noise : Nat → Rune) (inst : Inst) {id : Runes} (hx : x ≠ id) : Rests A x inst (deleteMessageOnce noise inst id).2 := by
  unfold K431.deleteMessageOnce
  split
  · exact Rests.refl _
  · rename_i i hf
    split
    · exact Rests.refl _
    · rename_i m hm
      obtain ⟨⟨m0, hm0, hp⟩, _⟩ := firstIdx_some hf
      rw [hm] at hm0
      cases hm0
      rw [equalRunes_iff] at hp
      have hne : m.id ≠ x := fun e => hx (e.symm.trans hp)
      have hmem := List.mem_of_getElem? hm
      have hlt := (List.getElem?_eq_some_iff.1 hm).1
      refine (Rests.wipeMessage noise (fun h => h.msgs m hmem hne)).trans ?_
      obtain ⟨g, _, e⟩ := wipeMessage_messages noise m inst
      have hlt' : i < (K431.wipeMessage noise m inst).messages.length := by rw [e, List.length_map]; exact hlt
      have hperm := swapRemove_perm hlt'
      intro h
      refine ⟨⟨h.fresh, h.keys, fun y hy => h.msgs y ((List.eraseIdx_sublist _ _).subset (hperm.mem_iff.1 hy))⟩, ?_⟩
      intro y hy hyx
      refine ⟨y, hperm.mem_iff.2 ?_, Unmoved.refl y⟩
      obtain ⟨j, hj⟩ := List.mem_iff_getElem?.1 hy
      rw [List.mem_eraseIdx_iff_getElem?]
      refine ⟨j, ?_, hj⟩
      rintro rfl
      rw [e, List.getElem?_map, hm] at hj
      cases hj
      exact hne hyx

theorem Rests.deleteMessage : ∀ (ids : List Runes) (noise : Nat → Nat → Rune) (inst : Inst), x ∉ ids → Rests A x inst (deleteMessage noise inst ids).2 := by
  intro ids
  induction ids with
  | nil => intro noise inst _; exact Rests.refl _
  | cons id ids ih =>
    intro noise inst hx
    simp only [List.mem_cons, not_or] at hx
    exact (Rests.deleteMessageOnce _ inst hx.1).trans (ih _ _ hx.2)

theorem decipher_rests {U : Unicode} {f : Runes} {inst inst' : Inst} {m m' : Msg} {o : Outcome Unit}
    (h : decipher U f inst m = (o, inst', m')) : Rests A x inst inst' ∧ m'.keyId = m.keyId := by
  have hw : (withId f m).keyId = m.keyId := by unfold withId; split <;> rfl
  unfold decipher at h
  simp only at h
  repeat' split at h
  all_goals
    simp only [Prod.mk.injEq] at h
    obtain ⟨_, rfl, rfl⟩ := h
    first
    | exact ⟨Rests.refl _, hw⟩
    | exact ⟨Rests.same (Nat.le_refl _) (KeptAlike.foldUsed (fun j => j) true _ _) rfl, hw⟩

theorem tryDecipher_rests {U : Unicode} {f : Runes} {dry : Bool} {inst inst' : Inst} {m m' : Msg} {o : Outcome Unit}
    (h : tryDecipher U f dry inst m = (o, inst', m')) :
    Rests A x inst inst' ∧ (m'.keyId = m.keyId ∨ m'.keyId.val = [] ∨ m'.keyId.addr = inst.nextAddr) := by
  have hw : (withId f m).keyId = m.keyId := by unfold withId; split <;> rfl
  unfold tryDecipher at h
  simp only at h
  repeat' split at h
  all_goals
    simp only [Prod.mk.injEq] at h
    obtain ⟨ho, rfl, rfl⟩ := h
    clear ho
    first
    | exact ⟨Rests.refl _, .inl hw⟩
    | (rename_i hd; have hk := decipher_rests (A := A) (x := x) hd; exact ⟨(Rests.alloc _ 1).trans hk.1, .inr (.inr (congrArg Sl.addr hk.2))⟩)
    | (rename_i hd; have hk := decipher_rests (A := A) (x := x) hd; exact ⟨(Rests.alloc _ 1).trans hk.1, .inr (.inl rfl)⟩)

theorem decipher_alike {U : Unicode} {f : Runes} {inst inst' : Inst} {m m' : Msg} {o : Outcome Unit}
    (h : decipher U f inst m = (o, inst', m')) : KeptAlike inst'.keys inst.keys ∧ inst'.nextAddr = inst.nextAddr := by
  unfold decipher at h
  simp only at h
  repeat' split at h
  all_goals
    simp only [Prod.mk.injEq] at h
    obtain ⟨_, rfl, rfl⟩ := h
    first
    | exact ⟨KeptAlike.refl _, rfl⟩
    | exact ⟨KeptAlike.foldUsed (fun j => j) true _ _, rfl⟩

theorem tryDecipher_own {U : Unicode} {f : Runes} {dry : Bool} {inst inst' : Inst} {m m' : Msg} {o : Outcome Unit}
    (h : tryDecipher U f dry inst m = (o, inst', m')) (hk : m.keyId.val = []) :
    m'.keyId.val = [] ∨ (m'.keyId.addr = inst.nextAddr ∧ inst.nextAddr < inst'.nextAddr ∧ KeptAlike inst'.keys inst.keys) := by
  have hw : (withId f m).keyId.val = [] := by unfold withId; split <;> exact hk
  unfold tryDecipher at h
  simp only at h
  repeat' split at h
  all_goals
    simp only [Prod.mk.injEq] at h
    obtain ⟨ho, rfl, rfl⟩ := h
    clear ho
    first
    | exact .inl hw
    | exact .inl rfl
    | (rename_i hd
       have h1 := (decipher_rests (A := fun _ => False) (x := []) hd).2
       have h2 := decipher_alike hd
       exact .inr ⟨congrArg Sl.addr h1, by rw [h2.2]; simp only; omega, h2.1⟩)

/-- after `EnrichWithKey` the key id is a view of the array it was a view of, or of that of a key -/
theorem enrich_off {U : Unicode} {f : Runes} {inst inst' : Inst} {m m' : Msg} {o : Outcome Unit}
    (h : enrichWithKey U f inst m = (o, inst', m')) : m'.keyId = m.keyId ∨ ∃ k ∈ inst.keys, m'.keyId = k.id := by
  have hw : (withId f m).keyId = m.keyId := by unfold withId; split <;> rfl
  unfold enrichWithKey at h
  simp only at h
  repeat' split at h
  all_goals
    simp only [Prod.mk.injEq] at h
    obtain ⟨ho, rfl, rfl⟩ := h
    clear ho
    first
    | exact .inl hw
    | (rename_i hk; exact .inr ⟨_, List.mem_of_getElem? hk, rfl⟩)

theorem encipherT_rests {U : Unicode} {noise : Nat → Rune} {f : Runes} {inst inst' : Inst} {m m' : Msg} {o : Outcome (List Chunk)}
    (h : encipherT U noise f inst m = (o, inst', m')) (hm : Reserved A x inst → m.keyId.val = [] ∨ ¬ A m.keyId.addr) :
    Rests A x inst inst' ∧ (Reserved A x inst → m'.keyId.val = [] ∨ ¬ A m'.keyId.addr) := by
  obtain ⟨hal, hnx⟩ := encipherT_alike h
  have hkeys : Reserved A x inst → ∀ k ∈ inst'.keys, ¬ A k.id.addr := fun hR => hal.off hR.keys
  suffices hs : (Reserved A x inst → ∃ g : Sl → Sl, Overwrite (fun n => ¬ A n) g ∧ inst'.messages = inst.messages.map (Msg.withKey g)) ∧
      (Reserved A x inst → m'.keyId.val = [] ∨ ¬ A m'.keyId.addr) by
    exact ⟨Rests.over (Nat.le_of_eq hnx.symm) hkeys hs.1, hs.2⟩
  have hw : (withId f m).keyId = m.keyId := by unfold withId; split <;> rfl
  have hself : ∀ l : List Msg, ∃ g : Sl → Sl, Overwrite (fun n => ¬ A n) g ∧ l = l.map (Msg.withKey g) :=
    fun l => ⟨fun s => s, Overwrite.id _, (List.map_id _).symm⟩
  unfold encipherT at h
  simp only at h
  rcases he : enrichWithKey U f inst (withId f m) with ⟨ou, inst1, m1⟩
  have h1 : Reserved A x inst → m1.keyId.val = [] ∨ ¬ A m1.keyId.addr := by
    intro hR
    rcases enrich_off he with e | ⟨k, hk, e⟩
    · rw [e, hw]; exact hm hR
    · rw [e]; exact .inr (hR.keys k hk)
  have e1 := (enrich_messages he).1
  rw [he] at h
  have hrel : ∀ s ct, Reserved A x inst → ∃ g : Sl → Sl, Overwrite (fun n => ¬ A n) g ∧
      (release U noise inst1 { m1 with cipherText := [] } s ct).1.messages = inst.messages.map (Msg.withKey g) := by
    intro s ct hR
    obtain ⟨⟨g, hg1, hg2⟩, _⟩ := release_messages U noise inst1 { m1 with cipherText := [] } s ct
    refine ⟨g, hg1.mono ?_, by rw [hg2, e1]⟩
    rintro a ⟨hv, rfl⟩
    exact (h1 hR).resolve_left hv
  rcases ou with u | e | _
  · simp only at h
    repeat' split at h
    all_goals
      simp only [Prod.mk.injEq] at h
      obtain ⟨_, rfl, rfl⟩ := h
      first
      | exact ⟨hrel _ _, fun _ => .inl rfl⟩
      | exact ⟨fun _ => by simp only [e1]; exact hself _, h1⟩
  · simp only [Prod.mk.injEq] at h
    obtain ⟨_, rfl, rfl⟩ := h
    exact ⟨fun _ => by rw [e1]; exact hself _, h1⟩
  · simp only [Prod.mk.injEq] at h
    obtain ⟨_, rfl, rfl⟩ := h
    exact ⟨fun _ => by rw [e1]; exact hself _, h1⟩

theorem encipher_rests {U : Unicode} {noise : Nat → Rune} {f : Runes} {inst inst' : Inst} {m m' : Msg} {o : Outcome Unit}
    (h : encipher U noise f inst m = (o, inst', m')) (hm : Reserved A x inst → m.keyId.val = [] ∨ ¬ A m.keyId.addr) :
    Rests A x inst inst' ∧ (Reserved A x inst → m'.keyId.val = [] ∨ ¬ A m'.keyId.addr) := by
  unfold encipher at h
  rcases he : encipherT U noise f inst m with ⟨c | e | _, a, b⟩ <;> rw [he] at h <;> simp only [Prod.mk.injEq] at h <;>
    (obtain ⟨_, rfl, rfl⟩ := h; exact encipherT_rests he hm)

theorem parse_noKey {U : Unicode} {E : RadioEnv} {msgs : List Msg} {radiogram : Runes} {t t' : Tape} {m : Msg}
    (h : parseRadiogram U E msgs radiogram t = some (.ok m, t')) : m.keyId = Sl.nil := by
  unfold parseRadiogram at h
  simp only at h
  repeat' split at h
  all_goals first | cases h; done | (simp only [Option.some.injEq, Prod.mk.injEq] at h; obtain ⟨h, _⟩ := h; cases h; rfl)

/-- what holds of the message before a step that keeps what is reserved holds after it -/
theorem Rests.after {a b c : Inst} (h : Rests A x a b) (h' : Reserved A x a → Rests A x b c) : Rests A x a c :=
  fun hR => (h.trans (h' hR)) hR

theorem newTextMessage_rests {U : Unicode} {noise : Nat → Rune} {f : Runes} {p : Outcome Msg} {inst inst' : Inst} {r : Runes}
    {rest : List Runes} {o : Outcome Msg} (hp : ∀ m, p = .ok m → m.keyId.val = [])
    (h : newTextMessage U noise f (fun _ => p) inst (r :: rest) = (o, inst')) : Rests A x inst inst' := by
  unfold newTextMessage at h
  simp only at h
  rcases p with p | e | _
  · have hpk := hp p rfl
    simp only at h
    have hrun : ∀ (inst1 : Inst) (p1 : Msg), Rests A x inst inst1 → (Reserved A x inst → p1.keyId.val = [] ∨ ¬ A p1.keyId.addr) →
        (match encipher U noise f inst1 p1 with
          | (.ok _, inst, m) => (.ok m, { inst with messages := inst.messages ++ [m] })
          | (.err e, inst, m) => (.err e, wipeMessage noise m inst)
          | (.panic, inst, m) => (.panic, wipeMessage noise m inst) : Outcome Msg × Inst) = (o, inst') →
        Rests A x inst inst' := by
      intro inst1 p1 hi hq hm
      refine hi.after (fun hR => ?_)
      have hR1 := (hi hR).1
      rcases he : encipher U noise f inst1 p1 with ⟨ou, i2, m2⟩
      obtain ⟨h1, h2⟩ := encipher_rests (A := A) (x := x) he (fun _ => hq hR)
      rw [he] at hm
      rcases ou with u | e | _ <;> simp only [Prod.mk.injEq] at hm <;> obtain ⟨_, rfl⟩ := hm
      · exact h1.trans (Rests.append (fun _ => h2 hR1))
      · exact h1.trans (Rests.wipeMessage _ (fun _ => h2 hR1))
      · exact h1.trans (Rests.wipeMessage _ (fun _ => h2 hR1))
    have hfresh : ∀ {v : Runes}, Reserved A x inst → (⟨inst.nextAddr, v⟩ : Sl).val = [] ∨ ¬ A (⟨inst.nextAddr, v⟩ : Sl).addr :=
      fun hR => .inr (fun ha => Nat.lt_irrefl _ (hR.fresh _ ha))
    by_cases hc : isMyCall U inst p = true
    · rw [if_pos hc] at h
      match rest, h with
      | [], h => exact hrun inst p (Rests.refl _) (fun _ => .inl hpk) h
      | [a], h =>
        simp at h
        obtain ⟨_, rfl⟩ := h
        exact Rests.wipeMessage _ (fun _ => .inl hpk)
      | a :: b :: tl, h =>
        simp only [List.length_cons, ge_iff_le, Nat.le_add_left, if_true, List.getElem?_cons_succ, List.getElem?_cons_zero] at h
        by_cases hl : (toUpperStr U (trimSpace U b)).length ≠ inst.groupSize
        · rw [if_pos hl] at h
          simp only [Prod.mk.injEq] at h
          obtain ⟨_, rfl⟩ := h
          exact (Rests.alloc inst 1).after (fun hR => Rests.wipeMessage _ (fun _ => hfresh hR))
        · rw [if_neg hl] at h
          exact hrun { inst with nextAddr := inst.nextAddr + 1 } _ (Rests.alloc inst 1) hfresh h
    · rw [if_neg hc] at h
      have hq : (if p.recipients.length = 0 then { p with recipients := addRecipient U p.recipients [inst.callSign] } else p).keyId.val = [] := by
        split
        · exact hpk
        · exact hpk
      rcases ht : tryDecipher U f false inst (if p.recipients.length = 0 then
          { p with recipients := addRecipient U p.recipients [inst.callSign] } else p) with ⟨ou, i2, m2⟩
      obtain ⟨h1, h2⟩ := tryDecipher_rests (A := A) (x := x) ht
      have h3 : Reserved A x inst → m2.keyId.val = [] ∨ ¬ A m2.keyId.addr := by
        intro hR
        rcases h2 with e | e | e
        · left; rw [e]; exact hq
        · exact .inl e
        · right; rw [e]; exact fun ha => Nat.lt_irrefl _ (hR.fresh _ ha)
      rw [ht] at h
      rcases ou with u | e | _ <;> simp only [Prod.mk.injEq] at h <;> obtain ⟨_, rfl⟩ := h
      · exact h1.after (fun hR => Rests.append (fun _ => h3 hR))
      · exact h1.after (fun hR => Rests.append (fun _ => h3 hR))
      · exact h1.after (fun hR => Rests.wipeMessage _ (fun _ => h3 hR))
  · cases h; exact Rests.refl _
  · cases h; exact Rests.refl _

theorem encipher_ok_preset {U : Unicode} {noise : Nat → Rune} {f : Runes} {inst inst' : Inst} {m m' : Msg}
    (h : encipher U noise f inst m = (.ok (), inst', m')) (hk : m.keyId.val.length = inst.groupSize) :
    m'.keyId = m.keyId ∧ KeptAlike inst'.keys inst.keys := by
  obtain ⟨chunks, hT⟩ : ∃ chunks, encipherT U noise f inst m = (.ok chunks, inst', m') := by
    unfold encipher at h
    rcases h' : encipherT U noise f inst m with ⟨c | e | _, a, b⟩ <;> rw [h'] at h <;> simp at h
    exact ⟨c, by rw [h.1, h.2]⟩
  have hal := (encipherT_alike hT).1
  obtain ⟨inst1, m1, i, s, out, e⟩ := encipherT_ok hT
  have hw : (withId f m).keyId = m.keyId := by unfold withId; split <;> rfl
  refine ⟨?_, hal⟩
  rw [e.hm]
  have h1 := e.enriched
  cases h1 with
  | preset => exact hw
  | auto i k hv =>
    rw [hw] at hv
    rw [hv] at hk
    exact absurd hk.symm e.hg

/-- a message that was received, or whose key was named, has no key id or one in an array of its own -/
theorem newTextMessage_own {U : Unicode} {noise : Nat → Rune} {f : Runes} {p m : Msg} {inst inst' : Inst} {r : Runes}
    {rest : List Runes} (hp : p.keyId = Sl.nil)
    (h : newTextMessage U noise f (fun _ => .ok p) inst (r :: rest) = (.ok m, inst')) (hown : rest ≠ [] ∨ isMyCall U inst p = false) :
    m ∈ inst'.messages ∧ (m.keyId.val = [] ∨
      (m.keyId.addr = inst.nextAddr ∧ inst.nextAddr < inst'.nextAddr ∧ KeptAlike inst'.keys inst.keys ∧ inst'.messages = inst.messages ++ [m])) := by
  unfold newTextMessage at h
  simp only at h
  by_cases hc : isMyCall U inst p = true
  · rw [if_pos hc] at h
    match rest, h, hown with
    | [], _, hown => rcases hown with e | e
                     · exact absurd rfl e
                     · rw [hc] at e; cases e
    | [a], h, _ => simp at h
    | a :: b :: tl, h, _ =>
      simp only [List.length_cons, ge_iff_le, Nat.le_add_left, if_true, List.getElem?_cons_succ, List.getElem?_cons_zero] at h
      by_cases hl : (toUpperStr U (trimSpace U b)).length ≠ inst.groupSize
      · rw [if_pos hl] at h
        simp only [Prod.mk.injEq] at h
        cases h.1
      · rw [if_neg hl] at h
        simp only at h
        rcases he : encipher U noise f { inst with nextAddr := inst.nextAddr + 1 } { p with keyId := ⟨inst.nextAddr, toUpperStr U (trimSpace U b)⟩ } with ⟨ou, i2, m2⟩
        rw [he] at h
        rcases ou with u | e | _ <;> simp only [Prod.mk.injEq] at h
        · obtain ⟨h1, rfl⟩ := h
          cases h1
          obtain ⟨e1, e2⟩ := encipher_ok_preset he (not_not.1 hl)
          obtain ⟨e3, _⟩ := encipher_ok_messages he
          refine ⟨by simp, .inr ⟨by rw [e1], ?_, e2, ?_⟩⟩
          · rw [e3]; simp only; omega
          · simp only; rw [e3]
        · cases h.1
        · cases h.1
  · rw [if_neg hc] at h
    have hq : (if p.recipients.length = 0 then { p with recipients := addRecipient U p.recipients [inst.callSign] } else p).keyId = Sl.nil := by
      split
      · exact hp
      · exact hp
    generalize (if p.recipients.length = 0 then { p with recipients := addRecipient U p.recipients [inst.callSign] } else p) = p1 at h hq
    rcases ht : tryDecipher U f false inst p1 with ⟨ou, i2, m2⟩
    have hkey : m2.keyId.val = [] ∨ (m2.keyId.addr = inst.nextAddr ∧ inst.nextAddr < i2.nextAddr ∧ KeptAlike i2.keys inst.keys) :=
      tryDecipher_own ht (by rw [hq]; rfl)
    have hms := (tryDecipher_messages ht).1
    have hfin : inst' = { i2 with messages := i2.messages ++ [m2] } → m2 = m → m ∈ inst'.messages ∧ (m.keyId.val = [] ∨
      (m.keyId.addr = inst.nextAddr ∧ inst.nextAddr < inst'.nextAddr ∧ KeptAlike inst'.keys inst.keys ∧ inst'.messages = inst.messages ++ [m])) := by
      rintro rfl rfl
      refine ⟨by simp, hkey.imp (fun h => h) (fun h => ⟨h.1, h.2.1, h.2.2, by simp only; rw [hms]⟩)⟩
    rw [ht] at h
    rcases ou with u | e | _ <;> simp only [Prod.mk.injEq] at h
    · exact hfin h.2.symm (by cases h.1; rfl)
    · exact hfin h.2.symm (by cases h.1; rfl)
    · cases h.1

/-- every step elsewhere leaves the message -/
theorem Elsewhere.rests {U : Unicode} {a b : Inst} (hs : Elsewhere U x a b) : Rests A x a b := by
  cases hs with
  | newKey hk => exact Rests.newKey hk
  | generate hk => exact Rests.generateKeys hk
  | deleteKey noise ids => exact Rests.deleteKey U _ _ _
  | deleteKeyByString noise args => exact Rests.deleteKey U _ _ _
  | deleteKeysBySummary noise lines => exact Rests.deleteBySummary U _ _ _
  | importKeys noise o filter loaded => exact Rests.importKeys U _ _ _ _ _
  | mark id b => exact Rests.same (Nat.le_refl _) (KeptAlike.mark U _ _ _) rfl
  | deleteMessage noise ids _ hx => exact Rests.deleteMessage _ _ _ hx
  | deleteMessageByString noise args _ hx => exact Rests.deleteMessage _ _ _ hx
  | create hp hm =>
    refine newTextMessage_rests ?_ hm
    rintro m rfl
    rw [parse_noKey hp]; rfl
  | encipherOther hk he => exact (encipherT_rests he (fun _ => .inl hk)).1
  | encipher hi hx he =>
    have hq := fun (hR : Reserved A x a) => hR.msgs _ (List.mem_of_getElem? hi) hx
    obtain ⟨h1, h2⟩ := encipherT_rests he hq
    obtain ⟨⟨g, _, e⟩, _⟩ := encipherT_messages he
    refine h1.after (fun hR => Rests.set (by rw [e, List.getElem?_map, hi]; rfl) ?_ (fun _ => h2 hR))
    exact hx
  | decipher hi hx hd =>
    have hq := fun (hR : Reserved A x a) => hR.msgs _ (List.mem_of_getElem? hi) hx
    obtain ⟨h1, h2⟩ := decipher_rests (A := A) (x := x) hd
    refine h1.after (fun hR => Rests.set (by rw [(decipher_messages hd).1]; exact hi) hx (fun _ => by rw [h2]; exact hq hR))
  | tryDecipher hi hx hd =>
    have hq := fun (hR : Reserved A x a) => hR.msgs _ (List.mem_of_getElem? hi) hx
    obtain ⟨h1, h2⟩ := tryDecipher_rests (A := A) (x := x) hd
    refine h1.after (fun hR => Rests.set (by rw [(tryDecipher_messages hd).1]; exact hi) hx (fun _ => ?_))
    rcases h2 with e | e | e
    · rw [e]; exact hq hR
    · exact .inl e
    · right; rw [e]; exact fun ha => Nat.lt_irrefl _ (hR.fresh _ ha)

theorem elsewhere_rests {U : Unicode} {a b : Inst} (hs : Relation.ReflTransGen (Elsewhere U x) a b) : Rests A x a b := by
  induction hs with
  | refl => exact Rests.refl _
  | tail _ h ih => exact ih.trans h.rests

end K431
