import Verif.RadioMatch
import Verif.EncEnough
import Verif.DecLemmas
import Verif.DelLemmas
import Verif.ImpSpec

/-! # Helper lemmas: messages -/

namespace K431
open Spec

/-! ## Ids -/

theorem containsMessageId_iff (msgs : List Msg) (id : Runes) : containsMessageId msgs (some id) = true ↔ id ∈ msgs.map Msg.id := by
  unfold containsMessageId
  simp only
  induction msgs with
  | nil => simp [containsMessageIdLoop]
  | cons m ms ih =>
    simp only [containsMessageIdLoop, List.map_cons, List.mem_cons]
    by_cases h : equalRunes (some m.id) (some id) = true
    · rw [if_pos h, equalRunes_iff] at *
      simp [h]
    · rw [if_neg h, ih]
      rw [equalRunes_iff] at h
      constructor
      · exact .inr
      · rintro (e | h')
        · exact absurd e.symm h
        · exact h'

/-- a letter of either case or a digit -/
def Alnum (c : Rune) : Prop := (65 ≤ c ∧ c ≤ 90) ∨ (97 ≤ c ∧ c ≤ 122) ∨ (48 ≤ c ∧ c ≤ 57)

instance (c : Int) : Decidable (Alnum c) := by unfold Alnum; infer_instance

theorem alnumOf_alnum {n : Nat} (h : n < 62) : Alnum (alnumOf n) := by
  unfold alnumOf Alnum
  split
  · left; omega
  · split
    · right; left; omega
    · right; right; omega

theorem randomAlnum_spec {n : Nat} {t t' : Tape} {id : Runes} (h : randomAlnumRunes n t = some (id, t')) :
    id.length = n ∧ (∀ c ∈ id, Alnum c) ∧ t'.length + n ≤ t.length := by
  unfold randomAlnumRunes at h
  rcases hi : intns 62 n t with _ | ⟨xs, t1⟩
  · rw [hi] at h; cases h
  · rw [hi] at h
    simp only [Option.map_some, Option.some.injEq, Prod.mk.injEq] at h
    obtain ⟨rfl, rfl⟩ := h
    obtain ⟨h1, h2, h3⟩ := intns_spec (by omega) hi
    refine ⟨by simp [h1], ?_, h3⟩
    intro c hc
    obtain ⟨x, hx, rfl⟩ := List.mem_map.1 hc
    exact alnumOf_alnum (h2 x hx)

theorem uniqueIdLoop_spec {msgs : List Msg} : ∀ {fuel : Nat} {t t' : Tape} {id : Runes}, uniqueIdLoop msgs fuel t = some (id, t') →
    id.length = 4 ∧ (∀ c ∈ id, Alnum c) ∧ id ∉ msgs.map Msg.id := by
  intro fuel
  induction fuel with
  | zero => intro t t' id h; cases h
  | succ fuel ih =>
    intro t t' id h
    simp only [uniqueIdLoop] at h
    rcases hr : randomAlnumRunes 4 t with _ | ⟨id1, t1⟩
    · rw [hr] at h; cases h
    · rw [hr] at h
      simp only at h
      by_cases hc : containsMessageId msgs (some id1) = true
      · rw [if_pos hc] at h; exact ih h
      · rw [if_neg hc] at h
        cases h
        obtain ⟨h1, h2, _⟩ := randomAlnum_spec hr
        exact ⟨h1, h2, fun hm => hc ((containsMessageId_iff msgs id).2 hm)⟩

theorem newUniqueMessageId_spec {msgs : List Msg} {t t' : Tape} {id : Runes} (h : newUniqueMessageId msgs t = some (id, t')) :
    id.length = 4 ∧ (∀ c ∈ id, Alnum c) ∧ id ∉ msgs.map Msg.id := uniqueIdLoop_spec h

/-! ## Deleting -/

/-- a message with its key id slice changed -/
def Msg.withKey (g : Sl → Sl) (m : Msg) : Msg := { m with keyId := g m.keyId }
/-- a key with its id slice changed -/
def Key.withId (g : Sl → Sl) (k : Key) : Key := { k with id := g k.id }

/-- What overwriting arrays does to slices: only slices at the given addresses change, and only their contents. -/
structure Overwrite (A : Nat → Prop) (g : Sl → Sl) : Prop where
  other : ∀ s, ¬ A s.addr → g s = s
  addr : ∀ s, (g s).addr = s.addr
  length : ∀ s, (g s).val.length = s.val.length

theorem Overwrite.id (A : Nat → Prop) : Overwrite A (fun s => s) := ⟨fun _ _ => rfl, fun _ => rfl, fun _ => rfl⟩

theorem Overwrite.mono {A B : Nat → Prop} {g : Sl → Sl} (h : Overwrite A g) (hab : ∀ a, A a → B a) : Overwrite B g :=
  ⟨fun s hs => h.other s (fun ha => hs (hab _ ha)), h.addr, h.length⟩

theorem Overwrite.comp {A B : Nat → Prop} {g g' : Sl → Sl} (h : Overwrite A g) (h' : Overwrite B g') :
    Overwrite (fun a => A a ∨ B a) (fun s => g' (g s)) := by
  refine ⟨?_, ?_, ?_⟩
  · intro s hs
    have h1 : ¬ A s.addr := fun h => hs (.inl h)
    have h2 : ¬ B s.addr := fun h => hs (.inr h)
    rw [h.other s h1, h'.other s h2]
  · intro s; rw [h'.addr, h.addr]
  · intro s; rw [h'.length, h.length]

theorem Overwrite.wiped (a : Nat) (noise : Nat → Rune) : Overwrite (fun x => x = a) (Sl.wiped a noise) := by
  refine ⟨?_, ?_, ?_⟩ <;> intro s
  · intro h; unfold Sl.wiped; rw [if_neg h]
  · unfold Sl.wiped; split <;> rfl
  · unfold Sl.wiped; split <;> simp [noiseRunes]

theorem filter_erase {p : Msg → Bool} : ∀ {l : List Msg} {i : Nat} {m : Msg}, (∀ x ∈ l, ∀ y ∈ l, p x = true → p y = true → x.id = y.id) →
    (l.map Msg.id).Nodup → l[i]? = some m → p m = true → l.eraseIdx i = l.filter (fun x => !p x) := by
  intro l
  induction l with
  | nil => intro i m _ _ h; simp at h
  | cons x xs ih =>
    intro i m hp hn hi hm
    simp only [List.map_cons, List.nodup_cons] at hn
    cases i with
    | zero =>
      simp at hi
      subst hi
      have : xs.filter (fun y => !p y) = xs := by
        rw [List.filter_eq_self]
        intro y hy
        rcases hpy : p y with _ | _
        · rfl
        · exact absurd (List.mem_map.2 ⟨y, hy, hp y (by simp [hy]) x (by simp) hpy hm⟩) hn.1
      simp [hm, this]
    | succ j =>
      simp only [List.getElem?_cons_succ] at hi
      have hmem := List.mem_of_getElem? hi
      have hx : p x = false := by
        rcases hpx : p x with _ | _
        · rfl
        · exact absurd (List.mem_map.2 ⟨m, hmem, hp m (by simp [hmem]) x (by simp) hm hpx⟩) hn.1
      simp only [List.eraseIdx_cons_succ, List.filter_cons, hx, Bool.not_false, if_true]
      rw [ih (fun a ha b hb => hp a (by simp [ha]) b (by simp [hb])) hn.2 hi hm]

theorem deleteMessageOnce_spec {noise : Nat → Rune} {inst : Inst} {id : Runes} (hn : (inst.messages.map Msg.id).Nodup) :
    ∃ g : Sl → Sl, Overwrite (fun a => ∃ m ∈ inst.messages, m.id = id ∧ m.keyId.val ≠ [] ∧ m.keyId.addr = a) g ∧
      (deleteMessageOnce noise inst id).2 = { inst with
        keys := inst.keys.map (Key.withId g), messages := (deleteMessageOnce noise inst id).2.messages } ∧
      (deleteMessageOnce noise inst id).2.messages.Perm
        ((inst.messages.filter (fun m => !decide (m.id = id))).map (Msg.withKey g)) ∧
      (deleteMessageOnce noise inst id).1 = (inst.messages.filter (fun m => decide (m.id = id))).length := by
  have hkid : ∀ l : List Key, l.map (Key.withId (fun s => s)) = l := by
    intro l; exact List.map_id l
  have hmid : ∀ l : List Msg, l.map (Msg.withKey (fun s => s)) = l := by
    intro l; exact List.map_id l
  rcases hf : firstIdx (fun m : Msg => equalRunes (some m.id) (some id)) 0 inst.messages with _ | i
  · have e : deleteMessageOnce noise inst id = (0, inst) := by unfold deleteMessageOnce; rw [hf]
    have hno : ∀ m ∈ inst.messages, m.id ≠ id := by
      intro m hm he
      have := firstIdx_none hf m hm
      rw [(equalRunes_iff _ _).2 he] at this
      cases this
    rw [e]
    refine ⟨fun s => s, Overwrite.id _, ?_, ?_, ?_⟩
    · simp only; rw [hkid]
    · simp only; rw [hmid, List.filter_eq_self.2]
      intro m hm; simp [hno m hm]
    · simp only
      rw [List.filter_eq_nil_iff.2]
      · rfl
      · intro m hm; simp [hno m hm]
  · obtain ⟨⟨m, hm, hp⟩, _⟩ := firstIdx_some hf
    rw [equalRunes_iff] at hp
    have hlt : i < inst.messages.length := (List.getElem?_eq_some_iff.1 hm).1
    have hmem := List.mem_of_getElem? hm
    have herase : inst.messages.eraseIdx i = inst.messages.filter (fun x => !decide (x.id = id)) :=
      filter_erase (p := fun x => decide (x.id = id)) (fun x _ y _ hx hy => by
        simp only [decide_eq_true_eq] at hx hy; rw [hx, hy]) hn hm (by simpa using hp)
    have hcount : (inst.messages.filter (fun x => decide (x.id = id))).length = 1 := by
      have h1 := List.length_eq_length_filter_add (l := inst.messages) (fun x => decide (x.id = id))
      rw [← herase, List.length_eraseIdx, if_pos hlt] at h1
      omega
    have e : deleteMessageOnce noise inst id = (1, { wipeMessage noise m inst with
        messages := swapRemove (wipeMessage noise m inst).messages i }) := by
      unfold deleteMessageOnce; rw [hf]; simp only; rw [hm]
    rw [e]
    by_cases hk : m.keyId.val.length = 0
    · have hw : wipeMessage noise m inst = inst := by unfold wipeMessage; rw [if_pos hk]
      rw [hw]
      refine ⟨fun s => s, Overwrite.id _, ?_, ?_, hcount.symm⟩
      · simp only; rw [hkid]
      · simp only; rw [hmid, ← herase]; exact swapRemove_perm hlt
    · have hw : wipeMessage noise m inst = { inst with
          keys := inst.keys.map (Key.withId (Sl.wiped m.keyId.addr noise)),
          messages := inst.messages.map (Msg.withKey (Sl.wiped m.keyId.addr noise)) } := by
        unfold wipeMessage; rw [if_neg hk]; rfl
      rw [hw]
      refine ⟨Sl.wiped m.keyId.addr noise, (Overwrite.wiped _ noise).mono ?_, rfl, ?_, hcount.symm⟩
      · rintro a rfl; exact ⟨m, hmem, hp, by intro e; rw [e] at hk; exact hk rfl, rfl⟩
      · simp only
        rw [← herase, ← swapRemove_map]
        exact (swapRemove_perm hlt).map _

theorem deleteMessage_spec : ∀ (ids : List Runes) (noise : Nat → Nat → Rune) (inst : Inst), (inst.messages.map Msg.id).Nodup →
    ∃ g : Sl → Sl, Overwrite (fun a => ∃ m ∈ inst.messages, m.id ∈ ids ∧ m.keyId.val ≠ [] ∧ m.keyId.addr = a) g ∧
      (deleteMessage noise inst ids).2 = { inst with
        keys := inst.keys.map (Key.withId g), messages := (deleteMessage noise inst ids).2.messages } ∧
      (deleteMessage noise inst ids).2.messages.Perm
        ((inst.messages.filter (fun m => !decide (m.id ∈ ids))).map (Msg.withKey g)) ∧
      (deleteMessage noise inst ids).1 = (inst.messages.filter (fun m => decide (m.id ∈ ids))).length := by
  intro ids
  induction ids with
  | nil =>
    intro noise inst hn
    refine ⟨fun s => s, Overwrite.id _, ?_, ?_, ?_⟩
    · simp only [deleteMessage]; rw [show inst.keys.map (Key.withId (fun s => s)) = inst.keys from List.map_id _]
    · simp only [deleteMessage]
      rw [show List.filter (fun m : Msg => !decide (m.id ∈ ([] : List Runes))) inst.messages = inst.messages by simp,
        show inst.messages.map (Msg.withKey (fun s => s)) = inst.messages from List.map_id _]
    · simp [deleteMessage]
  | cons id ids ih =>
    intro noise inst hn
    obtain ⟨g1, o1, e1, p1, c1⟩ := deleteMessageOnce_spec (noise := noise 0) (id := id) hn
    have hn1 : ((deleteMessageOnce (noise 0) inst id).2.messages.map Msg.id).Nodup := by
      have hp := p1.map Msg.id
      rw [hp.nodup_iff, List.map_map, show (Msg.id ∘ Msg.withKey g1) = Msg.id from rfl]
      exact (List.Sublist.map _ List.filter_sublist).nodup hn
    obtain ⟨g2, o2, e2, p2, c2⟩ := ih (fun i => noise (i + 1)) (deleteMessageOnce (noise 0) inst id).2 hn1
    -- messages after the first step
    have hmem : ∀ x ∈ (deleteMessageOnce (noise 0) inst id).2.messages, ∃ m ∈ inst.messages, m.id ≠ id ∧ x = m.withKey g1 := by
      intro x hx
      obtain ⟨m, hm, rfl⟩ := List.mem_map.1 (p1.mem_iff.1 hx)
      rw [List.mem_filter] at hm
      exact ⟨m, hm.1, by simpa using hm.2, rfl⟩
    refine ⟨fun s => g2 (g1 s), (o1.comp o2).mono ?_, ?_, ?_, ?_⟩
    · rintro a (⟨m, h1, h2, h3, h4⟩ | ⟨x, h1, h2, h3, h4⟩)
      · exact ⟨m, h1, by simp [h2], h3, h4⟩
      · obtain ⟨m, hm, _, rfl⟩ := hmem x h1
        refine ⟨m, hm, by simp only [List.mem_cons]; exact .inr h2, ?_, ?_⟩
        · intro e
          apply h3
          have := o1.length m.keyId
          rw [e] at this
          exact List.length_eq_zero_iff.1 this
        · rw [← h4]; exact (o1.addr _).symm
    · simp only [deleteMessage]
      rw [e2, e1]
      simp only [List.map_map]
      rfl
    · simp only [deleteMessage]
      refine p2.trans ?_
      have h3 := (p1.filter (fun m => !decide (m.id ∈ ids))).map (Msg.withKey g2)
      refine h3.trans (List.Perm.of_eq ?_)
      rw [List.filter_map, List.map_map, show ((fun m : Msg => !decide (m.id ∈ ids)) ∘ Msg.withKey g1) =
        (fun m : Msg => !decide (m.id ∈ ids)) from rfl, List.filter_filter]
      have hcongr : List.filter (fun a : Msg => !decide (a.id ∈ ids) && !decide (a.id = id)) inst.messages =
          List.filter (fun m : Msg => !decide (m.id ∈ id :: ids)) inst.messages := by
        apply List.filter_congr
        intro m _
        rw [Bool.eq_iff_iff]
        simp only [Bool.and_eq_true, Bool.not_eq_true', decide_eq_false_iff_not, List.mem_cons, not_or]
        exact ⟨fun h => ⟨h.2, h.1⟩, fun h => ⟨h.2, h.1⟩⟩
      rw [hcongr]
      rfl
    · simp only [deleteMessage]
      rw [c1, c2]
      have h3 := ((p1.filter (fun m => decide (m.id ∈ ids))).length_eq)
      rw [h3, List.filter_map, List.length_map, show ((fun m : Msg => decide (m.id ∈ ids)) ∘ Msg.withKey g1) =
        (fun m : Msg => decide (m.id ∈ ids)) from rfl, List.filter_filter]
      have hsplit : ∀ l : List Msg, (l.filter (fun m => decide (m.id = id))).length +
          (l.filter (fun a => decide (a.id ∈ ids) && !decide (a.id = id))).length =
          (l.filter (fun m => decide (m.id ∈ id :: ids))).length := by
        intro l
        induction l with
        | nil => rfl
        | cons x xs ihx =>
          simp only [List.filter_cons, List.mem_cons]
          by_cases h1 : x.id = id
          · simp only [h1, decide_true, if_true, Bool.not_true, Bool.and_false, Bool.false_eq_true, if_false, true_or, List.length_cons]
            simp only [List.mem_cons] at ihx
            omega
          · by_cases h2 : x.id ∈ ids
            · simp only [h1, h2, decide_true, decide_false, if_true, Bool.not_false, Bool.and_true, Bool.false_eq_true, if_false, or_true,
                List.length_cons]
              simp only [List.mem_cons] at ihx
              omega
            · simp only [h1, h2, decide_false, Bool.false_and, Bool.false_eq_true, if_false, or_self]
              simp only [List.mem_cons] at ihx
              exact ihx
      exact hsplit _

/-! ## Which operations keep the stored messages -/

theorem enrich_messages {U : Unicode} {f : Runes} {inst inst' : Inst} {m m' : Msg} {o : Outcome Unit}
    (h : enrichWithKey U f inst m = (o, inst', m')) :
    inst'.messages = inst.messages ∧ m'.id = (withId f m).id := by
  unfold enrichWithKey at h
  simp only at h
  repeat' split at h
  all_goals (simp only [Prod.mk.injEq] at h; obtain ⟨_, rfl, rfl⟩ := h; exact ⟨rfl, rfl⟩)

theorem release_messages (U : Unicode) (noise : Nat → Rune) (inst : Inst) (m : Msg) (s : LoopState) (ct : Runes) :
    (∃ g : Sl → Sl, Overwrite (fun a => m.keyId.val ≠ [] ∧ m.keyId.addr = a) g ∧
      (release U noise inst m s ct).1.messages = inst.messages.map (Msg.withKey g)) ∧
    (release U noise inst m s ct).2.id = m.id := by
  refine ⟨?_, rfl⟩
  unfold release
  simp only
  by_cases hk : m.keyId.val.length = 0
  · rw [if_pos hk]; exact ⟨fun s => s, Overwrite.id _, (List.map_id _).symm⟩
  · rw [if_neg hk]
    refine ⟨Sl.wiped m.keyId.addr noise, (Overwrite.wiped _ _).mono ?_, rfl⟩
    rintro a rfl; exact ⟨by intro e; rw [e] at hk; exact hk rfl, rfl⟩

theorem withId_id_idem (f : Runes) (m : Msg) : (withId f (withId f m)).id = (withId f m).id := by
  unfold withId
  split
  · split <;> rfl
  · rfl

/-- whatever `Encipher` does, of the stored messages only contents of key id slices can change -/
theorem encipherT_messages {U : Unicode} {noise : Nat → Rune} {f : Runes} {inst inst' : Inst} {m m' : Msg}
    {o : Outcome (List Chunk)} (h : encipherT U noise f inst m = (o, inst', m')) :
    (∃ g : Sl → Sl, Overwrite (fun _ => True) g ∧ inst'.messages = inst.messages.map (Msg.withKey g)) ∧
    m'.id = (withId f m).id := by
  have hself : ∀ l : List Msg, ∃ g : Sl → Sl, Overwrite (fun _ => True) g ∧ l = l.map (Msg.withKey g) :=
    fun l => ⟨fun s => s, Overwrite.id _, (List.map_id _).symm⟩
  unfold encipherT at h
  simp only at h
  rcases he : enrichWithKey U f inst (withId f m) with ⟨u | e | _, inst1, m1⟩
  · obtain ⟨e1, e2⟩ := enrich_messages he
    rw [withId_id_idem] at e2
    rw [he] at h
    simp only at h
    have hrel : ∀ s ct, (∃ g : Sl → Sl, Overwrite (fun _ => True) g ∧
        (release U noise inst1 { m1 with cipherText := [] } s ct).1.messages = inst.messages.map (Msg.withKey g)) ∧
        (release U noise inst1 { m1 with cipherText := [] } s ct).2.id = (withId f m).id := by
      intro s ct
      obtain ⟨⟨g, h1, h2⟩, h3⟩ := release_messages U noise inst1 { m1 with cipherText := [] } s ct
      exact ⟨⟨g, h1.mono (fun _ _ => trivial), by rw [h2, e1]⟩, by rw [h3]; exact e2⟩
    repeat' split at h
    all_goals
      simp only [Prod.mk.injEq] at h
      obtain ⟨_, rfl, rfl⟩ := h
      first
      | exact hrel _ _
      | exact ⟨by simp only [e1]; exact hself _, e2⟩
  · obtain ⟨e1, e2⟩ := enrich_messages he
    rw [withId_id_idem] at e2
    rw [he] at h
    simp only [Prod.mk.injEq] at h
    obtain ⟨_, rfl, rfl⟩ := h
    exact ⟨by rw [e1]; exact hself _, e2⟩
  · obtain ⟨e1, e2⟩ := enrich_messages he
    rw [withId_id_idem] at e2
    rw [he] at h
    simp only [Prod.mk.injEq] at h
    obtain ⟨_, rfl, rfl⟩ := h
    exact ⟨by rw [e1]; exact hself _, e2⟩

theorem encipher_messages {U : Unicode} {noise : Nat → Rune} {f : Runes} {inst inst' : Inst} {m m' : Msg} {o : Outcome Unit}
    (h : encipher U noise f inst m = (o, inst', m')) :
    (∃ g : Sl → Sl, Overwrite (fun _ => True) g ∧ inst'.messages = inst.messages.map (Msg.withKey g)) ∧
    m'.id = (withId f m).id := by
  unfold encipher at h
  rcases he : encipherT U noise f inst m with ⟨c | e | _, a, b⟩ <;> rw [he] at h <;> simp only [Prod.mk.injEq] at h <;>
    (obtain ⟨_, rfl, rfl⟩ := h; exact encipherT_messages he)

theorem decipher_messages {U : Unicode} {f : Runes} {inst inst' : Inst} {m m' : Msg} {o : Outcome Unit}
    (h : decipher U f inst m = (o, inst', m')) : inst'.messages = inst.messages ∧ m'.id = (withId f m).id := by
  unfold decipher at h
  simp only at h
  repeat' split at h
  all_goals (simp only [Prod.mk.injEq] at h; obtain ⟨_, rfl, rfl⟩ := h; exact ⟨rfl, rfl⟩)

theorem tryDecipher_messages {U : Unicode} {f : Runes} {dry : Bool} {inst inst' : Inst} {m m' : Msg} {o : Outcome Unit}
    (h : tryDecipher U f dry inst m = (o, inst', m')) : inst'.messages = inst.messages ∧ m'.id = (withId f m).id := by
  unfold tryDecipher at h
  simp only at h
  have key : ∀ (i1 i2 : Inst) (m1 m2 : Msg) (o2 : Outcome Unit), i1.messages = inst.messages → m1.id = (withId f m).id →
      decipher U f i1 m1 = (o2, i2, m2) → i2.messages = inst.messages ∧ m2.id = (withId f m).id := by
    intro i1 i2 m1 m2 o2 h1 h2 h3
    obtain ⟨a, b⟩ := decipher_messages h3
    refine ⟨a.trans h1, b.trans ?_⟩
    unfold withId at h2 ⊢
    by_cases hl : m.id.length = 0
    · rw [if_pos hl] at h2 ⊢
      split
      · rfl
      · exact h2
    · rw [if_neg hl] at h2 ⊢
      rw [if_neg (by rw [h2]; exact hl)]
      exact h2
  repeat' split at h
  all_goals
    simp only [Prod.mk.injEq] at h
    obtain ⟨ho, rfl, rfl⟩ := h
    clear ho
    first
    | exact ⟨rfl, rfl⟩
    | (rename_i hd; have hk := key _ _ _ _ _ (by first | rfl) (by first | rfl) hd; exact ⟨hk.1, hk.2⟩)

/-! ## Ids of stored messages -/

theorem wipeKey_msgIds (noise : Noise) (k : Key) (inst : Inst) : (wipeKey noise k inst).messages.map Msg.id = inst.messages.map Msg.id := by
  simp [wipeKey, List.map_map, Function.comp_def]

theorem deleteKey_msgIds {U : Unicode} : ∀ (ids : List Runes) (noise : Nat → Noise) (inst : Inst),
    (deleteKey U noise inst ids).2.messages.map Msg.id = inst.messages.map Msg.id := by
  intro ids
  induction ids with
  | nil => intro noise inst; rfl
  | cons id ids ih =>
    intro noise inst
    simp only [deleteKey]
    rw [ih]
    unfold deleteKeyOnce
    split
    · rfl
    · split
      · rfl
      · exact wipeKey_msgIds _ _ _

theorem deleteBySummary_msgIds {U : Unicode} : ∀ (lines : List Runes) (noise : Nat → Nat → Noise) (inst : Inst),
    (deleteKeysBySummary U noise inst lines).2.messages.map Msg.id = inst.messages.map Msg.id := by
  intro ids
  induction ids with
  | nil => intro noise inst; rfl
  | cons id ids ih =>
    intro noise inst
    simp only [deleteKeysBySummary]
    rw [ih]
    exact deleteKey_msgIds _ _ _

theorem newKey_messages {U : Unicode} {now expire : Int} {keepers : List Runes} {inst inst' : Inst} {t t' : Tape} {k : Key}
    (h : newKey U now expire keepers inst t = some (k, inst', t')) : inst'.messages = inst.messages := by
  unfold newKey at h
  simp only at h
  repeat' split at h
  all_goals first | cases h; done | (simp only [Option.some.injEq, Prod.mk.injEq] at h; obtain ⟨_, rfl, _⟩ := h; rfl)

theorem generateLoop_messages {U : Unicode} {now : Nat → Int} {expire : Int} {keepers : List Runes} : ∀ {n : Nat} {inst inst' : Inst}
    {t t' : Tape}, generateLoop U now expire keepers n inst t = some (inst', t') → inst'.messages = inst.messages := by
  intro n
  induction n with
  | zero => intro inst inst' t t' h; cases h; rfl
  | succ n ih =>
    intro inst inst' t t' h
    simp only [generateLoop] at h
    split at h
    · cases h
    · rename_i hn; rw [ih h, newKey_messages hn]

theorem importLoop_msgIds {U : Unicode} {o : ImportOpts} {filter : Key → Bool} {call : Sl} : ∀ (ks : List Key)
    (noise : Nat → Noise) (n : Nat) (inst : Inst),
    (importLoop U noise o filter call ks n inst).2.2.messages.map Msg.id = inst.messages.map Msg.id := by
  intro ks
  induction ks with
  | nil => intro noise n inst; rfl
  | cons k ks ih =>
    intro noise n inst
    simp only [importLoop]
    repeat' split
    all_goals first | rfl | (rw [ih]; done) | (rw [ih]; exact deleteKey_msgIds _ _ _)

theorem importKeys_msgIds {U : Unicode} {noise : Nat → Noise} {o : ImportOpts} {filter : Key → Bool}
    {loaded : Outcome (List Key × Runes)} {inst : Inst} :
    (importKeys U noise o filter loaded inst).2.2.messages.map Msg.id = inst.messages.map Msg.id := by
  unfold importKeys
  split
  · exact importLoop_msgIds _ _ _ _
  · rfl
  · rfl

theorem wipeMessage_messages (noise : Nat → Rune) (m : Msg) (inst : Inst) :
    ∃ g : Sl → Sl, Overwrite (fun _ => True) g ∧ (wipeMessage noise m inst).messages = inst.messages.map (Msg.withKey g) := by
  unfold wipeMessage
  split
  · exact ⟨fun s => s, Overwrite.id _, (List.map_id _).symm⟩
  · exact ⟨Sl.wiped m.keyId.addr noise, (Overwrite.wiped _ _).mono (fun _ _ => trivial), rfl⟩

theorem encipher_ok_messages {U : Unicode} {noise : Nat → Rune} {f : Runes} {inst inst' : Inst} {m m' : Msg}
    (h : encipher U noise f inst m = (.ok (), inst', m')) :
    inst' = { inst with keys := inst'.keys } ∧ m' = { withId f m with keyId := m'.keyId, cipherText := m'.cipherText } := by
  obtain ⟨chunks, hT⟩ : ∃ chunks, encipherT U noise f inst m = (.ok chunks, inst', m') := by
    unfold encipher at h
    rcases h' : encipherT U noise f inst m with ⟨c | e | _, a, b⟩ <;> rw [h'] at h <;> simp at h
    exact ⟨c, by rw [h.1, h.2]⟩
  obtain ⟨inst1, m1, i, s, out, e⟩ := encipherT_ok hT
  have h1 := e.enriched
  rw [e.hinst, e.hm]
  cases h1 <;> exact ⟨rfl, rfl⟩

/-- The ways `NewTextMessage` can go. -/
inductive NewMsg (U : Unicode) (noise : Nat → Rune) (f : Runes) (parse : Runes → Outcome Msg) (inst : Inst) (args : List Runes) :
    Outcome Msg → Inst → Prop
  | failed {o : Outcome Msg} {inst' : Inst} {g : Sl → Sl} : (∀ m, o ≠ .ok m) → Overwrite (fun _ => True) g →
      inst'.messages = inst.messages.map (Msg.withKey g) → NewMsg U noise f parse inst args o inst'
  | own {r : Runes} {rest : List Runes} {p p1 m : Msg} {inst1 inst2 : Inst} : args = r :: rest → parse r = .ok p →
      isMyCall U inst p = true →
      ((rest = [] ∧ p1 = p ∧ inst1 = inst) ∨
        ∃ a b tl, rest = a :: b :: tl ∧ p1 = { p with keyId := ⟨inst.nextAddr, toUpperStr U (trimSpace U b)⟩ } ∧
          inst1 = { inst with nextAddr := inst.nextAddr + 1 }) →
      encipher U noise f inst1 p1 = (.ok (), inst2, m) →
      NewMsg U noise f parse inst args (.ok m) { inst2 with messages := inst2.messages ++ [m] }
  | other {r : Runes} {rest : List Runes} {p p1 m : Msg} {inst2 : Inst} {o : Outcome Unit} : args = r :: rest → parse r = .ok p →
      isMyCall U inst p = false →
      p1 = (if p.recipients.length = 0 then { p with recipients := addRecipient U p.recipients [inst.callSign] } else p) →
      tryDecipher U f false inst p1 = (o, inst2, m) →
      NewMsg U noise f parse inst args (.ok m) { inst2 with messages := inst2.messages ++ [m] }

theorem newTextMessage_cases {U : Unicode} {noise : Nat → Rune} {f : Runes} {parse : Runes → Outcome Msg} {inst inst' : Inst}
    {args : List Runes} {o : Outcome Msg} (h : newTextMessage U noise f parse inst args = (o, inst')) :
    NewMsg U noise f parse inst args o inst' := by
  have hsame : ∀ {o : Outcome Msg} {i' : Inst}, (∀ m, o ≠ .ok m) → i'.messages = inst.messages → NewMsg U noise f parse inst args o i' := by
    intro o i' ho hi
    exact .failed (g := fun s => s) ho (Overwrite.id _) (by rw [hi]; exact (List.map_id _).symm)
  have hwipe : ∀ {o : Outcome Msg} (m : Msg) (i1 : Inst), (∀ m, o ≠ .ok m) →
      (∃ g : Sl → Sl, Overwrite (fun _ => True) g ∧ i1.messages = inst.messages.map (Msg.withKey g)) →
      NewMsg U noise f parse inst args o (wipeMessage noise m i1) := by
    rintro o m i1 ho ⟨g, hg, hi⟩
    obtain ⟨g', hg', hi'⟩ := wipeMessage_messages noise m i1
    refine .failed (g := fun s => g' (g s)) ho ((hg.comp hg').mono (fun _ _ => trivial)) ?_
    rw [hi', hi, List.map_map]; rfl
  have hid : ∃ g : Sl → Sl, Overwrite (fun _ => True) g ∧ inst.messages = inst.messages.map (Msg.withKey g) :=
    ⟨fun s => s, Overwrite.id _, (List.map_id _).symm⟩
  unfold newTextMessage at h
  cases args with
  | nil => cases h; exact hsame (by simp) rfl
  | cons r rest =>
    simp only at h
    rcases hp : parse r with p | e | _
    · rw [hp] at h
      simp only at h
      by_cases hc : isMyCall U inst p = true
      · rw [if_pos hc] at h
        have hrun : ∀ (inst1 : Inst) (p1 : Msg), inst1.messages = inst.messages →
            ((rest = [] ∧ p1 = p ∧ inst1 = inst) ∨
            ∃ a b tl, rest = a :: b :: tl ∧ p1 = { p with keyId := ⟨inst.nextAddr, toUpperStr U (trimSpace U b)⟩ } ∧
              inst1 = { inst with nextAddr := inst.nextAddr + 1 }) →
            (match encipher U noise f inst1 p1 with
              | (.ok _, inst, m) => (.ok m, { inst with messages := inst.messages ++ [m] })
              | (.err e, inst, m) => (.err e, wipeMessage noise m inst)
              | (.panic, inst, m) => (.panic, wipeMessage noise m inst) : Outcome Msg × Inst) = (o, inst') →
            NewMsg U noise f parse inst (r :: rest) o inst' := by
          intro inst1 p1 hi hcase hm
          rcases he : encipher U noise f inst1 p1 with ⟨u | e | _, i2, m2⟩
          · rw [he] at hm
            simp only [Prod.mk.injEq] at hm
            obtain ⟨rfl, rfl⟩ := hm
            exact .own rfl hp hc hcase he
          · rw [he] at hm
            simp only [Prod.mk.injEq] at hm
            obtain ⟨rfl, rfl⟩ := hm
            obtain ⟨⟨g, h1, h2⟩, _⟩ := encipher_messages he
            exact hwipe _ _ (by simp) ⟨g, h1, by rw [h2, hi]⟩
          · rw [he] at hm
            simp only [Prod.mk.injEq] at hm
            obtain ⟨rfl, rfl⟩ := hm
            obtain ⟨⟨g, h1, h2⟩, _⟩ := encipher_messages he
            exact hwipe _ _ (by simp) ⟨g, h1, by rw [h2, hi]⟩
        match rest, h with
        | [], h =>
          exact hrun inst p rfl (.inl ⟨rfl, rfl, rfl⟩) h
        | [a], h =>
          simp at h
          obtain ⟨rfl, rfl⟩ := h
          exact hwipe _ _ (by simp) hid
        | a :: b :: tl, h =>
          simp only [List.length_cons, ge_iff_le, Nat.le_add_left, if_true, List.getElem?_cons_succ, List.getElem?_cons_zero] at h
          by_cases hl : (toUpperStr U (trimSpace U b)).length ≠ inst.groupSize
          · rw [if_pos hl] at h
            simp only [Prod.mk.injEq] at h
            obtain ⟨rfl, rfl⟩ := h
            exact hwipe _ _ (by simp) hid
          · rw [if_neg hl] at h
            exact hrun { inst with nextAddr := inst.nextAddr + 1 } _ rfl (.inr ⟨a, b, tl, rfl, rfl, rfl⟩) h
      · rw [if_neg hc] at h
        rcases ht : tryDecipher U f false inst (if p.recipients.length = 0 then
            { p with recipients := addRecipient U p.recipients [inst.callSign] } else p) with ⟨u | e | _, i2, m2⟩
        · rw [ht] at h
          simp only [Prod.mk.injEq] at h
          obtain ⟨rfl, rfl⟩ := h
          exact .other rfl hp (by simpa using hc) rfl ht
        · rw [ht] at h
          simp only [Prod.mk.injEq] at h
          obtain ⟨rfl, rfl⟩ := h
          exact .other rfl hp (by simpa using hc) rfl ht
        · rw [ht] at h
          simp only [Prod.mk.injEq] at h
          obtain ⟨rfl, rfl⟩ := h
          exact hwipe _ _ (by simp) (by rw [(tryDecipher_messages ht).1]; exact hid)
    · rw [hp] at h; cases h; exact hsame (by simp) rfl
    · rw [hp] at h; cases h; exact hsame (by simp) rfl

theorem parse_id {U : Unicode} {E : RadioEnv} {msgs : List Msg} {radiogram : Runes} {t t' : Tape} {m : Msg}
    (h : parseRadiogram U E msgs radiogram t = some (.ok m, t')) : ∃ id t1, newUniqueMessageId msgs t = some (id, t1) ∧ m.id = id := by
  unfold parseRadiogram at h
  simp only at h
  rcases hi : newUniqueMessageId msgs t with _ | ⟨id, t1⟩
  · rw [hi] at h; cases h
  · rw [hi] at h
    refine ⟨id, t1, rfl, ?_⟩
    simp only at h
    repeat' split at h
    all_goals
      simp only [Option.some.injEq, Prod.mk.injEq] at h
      obtain ⟨h, _⟩ := h
      cases h <;> rfl

theorem nodup_set {l : List Runes} {x : Runes} : ∀ {i : Nat}, l.Nodup → x ∉ l → (l.set i x).Nodup := by
  induction l with
  | nil => intro i _ _; simp
  | cons y ys ih =>
    intro i hn hx
    simp only [List.nodup_cons, List.mem_cons, not_or] at hn hx
    cases i with
    | zero => simp only [List.set_cons_zero, List.nodup_cons]; exact ⟨hx.2, hn.2⟩
    | succ i =>
      simp only [List.set_cons_succ, List.nodup_cons]
      refine ⟨?_, ih hn.2 hx.2⟩
      intro hm
      rcases List.mem_or_eq_of_mem_set hm with h | h
      · exact hn.1 h
      · exact hx.1 h.symm

theorem presetCheck_found {id : Runes} : ∀ {keys : List Key}, (∃ k ∈ keys, k.id.val = id) →
    (∀ k ∈ keys, k.id.val = id → k.used = false ∧ k.compromised = false) → presetCheck id keys = .ok () := by
  intro keys
  induction keys with
  | nil => rintro ⟨k, h, _⟩; cases h
  | cons k ks ih =>
    intro hex hall
    simp only [presetCheck]
    by_cases h : equalRunes (some k.id.val) (some id) = true
    · rw [if_pos h]
      obtain ⟨h1, h2⟩ := hall k (by simp) ((equalRunes_iff _ _).1 h)
      simp [h1, h2]
    · rw [if_neg h]
      refine ih ?_ (fun x hx => hall x (by simp [hx]))
      obtain ⟨x, hx, he⟩ := hex
      rcases List.mem_cons.1 hx with rfl | hx
      · exact absurd ((equalRunes_iff _ _).2 he) h
      · exact ⟨x, hx, he⟩

/-- A given key with room for four letters per character is enough. -/
theorem encipher_preset_ok {U : Unicode} (hU : U.Lawful) {noise : Nat → Rune} {f : Runes} {inst : Inst} {m : Msg}
    (hg : inst.groupSize ≠ 0) (hwf : WellFormed inst.keys) (hkeys : ∀ k ∈ inst.keys, ∀ c ∈ k.runes, IsLetter c)
    (hp : m.plainText ≠ []) (hal : ∀ c ∈ m.plainText, c ∈ alphabet) (hl : m.keyId.val.length = inst.groupSize)
    {k : Key} (hk : k ∈ inst.keys) (hid : k.id.val = m.keyId.val) (hu : k.used = false) (hc : k.compromised = false)
    (hcap : 4 * m.plainText.length ≤ capacity inst.groupSize k) : (encipher U noise f inst m).1 = .ok () := by
  obtain ⟨w1, w2, w3, w4⟩ := withId_fields f m
  rcases he : encipher U noise f inst m with ⟨o, inst', m'⟩
  simp only
  apply Classical.byContradiction
  intro ho
  obtain ⟨i, hi⟩ := List.mem_iff_getElem?.1 hk
  have hgk : getKey U inst.keys m.keyId.val = some i := by rw [← hid]; exact hwf.getKey hU hi
  have hcapAt : capAt inst.groupSize inst.keys i = capacity inst.groupSize k := by
    unfold capAt capacity; rw [keyLenAt_eq hi]
  obtain ⟨s, hs, e1, e2, e3, e4⟩ := encLoop_single hU m.plainText ⟨inst.keys, newState, [], ⟨[], i⟩⟩ (g := inst.groupSize) (r := m.recipients)
    (loopOk_start _ _) hal (by simp only [List.length_nil]; omega)
  have hen : ∀ inst1 m1, Enriched U inst (withId f m) inst1 m1 → inst1 = inst ∧ m1 = withId f m := by
    intro inst1 m1 hen
    cases hen with
    | preset => exact ⟨rfl, rfl⟩
    | auto _ _ h1 => rw [w3] at h1; rw [h1] at hl; exact absurd hl.symm hg
  have hfail := encipher_fail hg he ho
  cases hfail with
  | enrich _ hen1 =>
    apply ho
    rw [← hen1]
    unfold enrichWithKey
    simp only
    rw [if_neg (by rw [w1]; simpa using hp), if_pos (by rw [w3, hl]; omega), if_neg (by rw [w3, hl]; simp), w3]
    refine presetCheck_found ⟨k, hk, hid⟩ ?_
    intro x hx hxid
    obtain ⟨j, hj⟩ := List.mem_iff_getElem?.1 hx
    have : j = i := hwf.inj hj hi (by rw [hxid, hid])
    subst this
    rw [hi] at hj; cases hj
    exact ⟨hu, hc⟩
  | lost inst1 m1 hen1 hnone _ =>
    obtain ⟨rfl, rfl⟩ := hen _ _ hen1
    rw [w3, hgk] at hnone
    cases hnone
  | loop inst1 m1 i1 s1 hen1 hgk1 hel _ =>
    obtain ⟨rfl, rfl⟩ := hen _ _ hen1
    rw [w3, hgk] at hgk1
    cases hgk1
    rw [w1, w2, hs] at hel
    cases hel
    exact ho rfl
  | cipher inst1 m1 i1 s1 cur out hen1 hgk1 hel hck hce hcc _ =>
    obtain ⟨rfl, rfl⟩ := hen _ _ hen1
    rw [w3, hgk] at hgk1
    cases hgk1
    rw [w1, w2, hs] at hel
    cases hel
    have hlet := encLoop_letters (loopOk_start _ _) (fun k hk => hwf.2 k hk) ⟨rfl, rfl⟩ hs
    have := (cipherChunks_total s.keys (by rw [e2]; exact hkeys) (s.chunks ++ [cur]) (by
      rw [e1]
      intro ch hch
      simp only [List.nil_append, List.mem_singleton] at hch
      subst hch
      refine ⟨⟨k, by rw [hck, e3, e2]; exact hi⟩, ?_⟩
      intro c hc
      rw [hce] at hc
      rcases List.mem_append.1 hc with hc | hc
      · exact hlet s.cur (by simp) c hc
      · rw [List.eq_of_mem_replicate hc]; decide)).2 (by
      rw [e1]
      intro ch hch
      simp only [List.nil_append, List.mem_singleton] at hch
      subst hch
      have h1 := padCount_lt inst1.groupSize (s.cur.enc.length + totalLength s.chunks) hg
      simp only at e4
      have hpos := List.length_pos_iff.2 hp
      rw [hck, hce, List.length_append, List.length_replicate, e3, e2]
      unfold capAt at e4 hcapAt
      simp only
      omega)
    rw [hcc] at this
    exact ho this

end K431
