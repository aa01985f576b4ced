import Verif.SpecCli
import Verif.PropsKeys
import Verif.PropsMessages
import Verif.FunLemmas

/-!
# Lemmas about the summaries
-/

namespace K431
open Spec

theorem goStr_append (a b : Runes) : goStr (a ++ b) = goStr a ++ goStr b := by simp [goStr]

theorem goStr_valid {a : Runes} (h : ∀ c ∈ a, validRune c = true) : goStr a = a := by
  unfold goStr
  conv => rhs; rw [← List.map_id a]
  apply List.map_congr_left
  intro c hc
  simp [h c hc]

/-- what comes before the first blank of a padded id -/
theorem cut_padded {U : Unicode} (hU : U.Lawful) {id rest : Runes} {n : Int} (hp : Printable U id) (hn : (id.length : Int) ≤ n) :
    cutBlank (goStr (withPadding id (n + 1) ++ rest)) = id := by
  have hpad : ∃ k, padding id (n + 1) = List.replicate (k + 1) 32 := by
    refine ⟨(n - id.length).toNat, ?_⟩
    unfold padding
    congr 1
    omega
  obtain ⟨k, hk⟩ := hpad
  unfold withPadding
  rw [hk, List.append_assoc, goStr_append, goStr_valid (fun c hc => (hp.2 c hc).1)]
  have h32 : ∀ c ∈ id, (c != 32) = true := by
    intro c hc
    have := (hp.2 c hc).2.2
    rw [bne_iff_ne]
    rintro rfl
    rw [hU.isSpace_blank 32 (by simp)] at this
    cases this
  unfold cutBlank
  rw [List.takeWhile_append_of_pos h32]
  simp [List.replicate_succ, goStr, validRune]

/-- vetting a printable id changes only its case -/
theorem vetted_printable {U : Unicode} (hU : U.Lawful) {id : Runes} (hp : Printable U id) :
    vettedKeepers U [id] = [toUpperStr U id] ∧ vettedMessageIds U [id] = [id] := by
  have hsep : ∀ c ∈ id, isSep c = false := by
    intro c hc
    obtain ⟨_, h1, h2⟩ := hp.2 c hc
    unfold isSep
    have : c ≠ 32 := by
      rintro rfl
      rw [hU.isSpace_blank 32 (by simp)] at h2
      cases h2
    simp [h1, this]
  have hf : fieldsFunc isSep id = [id] := by
    unfold fieldsFunc
    rw [fieldsLoop_clean isSep id [] hsep]
    simp [hp.1]
  have htrim : trimSpace U id = id := by
    have hd : ∀ l : Runes, (∀ c ∈ l, U.isSpace c = false) → l.dropWhile U.isSpace = l := by
      intro l hl
      cases l with
      | nil => rfl
      | cons x xs => simp [List.dropWhile, hl x (by simp)]
    unfold trimSpace
    rw [hd id (fun c hc => (hp.2 c hc).2.2), hd _ (fun c hc => (hp.2 c (List.mem_reverse.1 hc)).2.2), List.reverse_reverse]
  have hl : 0 < id.length := List.length_pos_iff.2 hp.1
  constructor
  · simp [vettedKeepers, hf, vetFields, htrim, toUpperStr, hl]
  · simp [vettedMessageIds, hf, vetFields, htrim, hl]

/-- deleting by lines that each yield one id is deleting by these ids -/
theorem deleteKeysBySummary_eq (U : Unicode) (g : Runes → Runes) : ∀ (lines : List Runes) (noise : Nat → Nat → Noise) (inst : Inst),
    (∀ l ∈ lines, vettedKeepers U [cutBlank l] = [g l]) →
    deleteKeysBySummary U noise inst lines = deleteKey U (fun i => noise i 0) inst (lines.map g) := by
  intro lines
  induction lines with
  | nil => intro noise inst _; rfl
  | cons l ls ih =>
    intro noise inst h
    simp only [deleteKeysBySummary, deleteKeyByString, h l (by simp), List.map_cons, deleteKey]
    rw [ih _ _ (fun x hx => h x (by simp [hx]))]
    simp

theorem deleteMessagesBySummary_eq (U : Unicode) (g : Runes → Runes) : ∀ (lines : List Runes) (noise : Nat → Nat → Nat → Rune) (inst : Inst),
    (∀ l ∈ lines, vettedMessageIds U [cutBlank l] = [g l]) →
    deleteMessagesBySummary U noise inst lines = deleteMessage (fun i => noise i 0) inst (lines.map g) := by
  intro lines
  induction lines with
  | nil => intro noise inst _; rfl
  | cons l ls ih =>
    intro noise inst h
    simp only [deleteMessagesBySummary, deleteMessageByString, h l (by simp), List.map_cons, deleteMessage]
    rw [ih _ _ (fun x hx => h x (by simp [hx]))]
    simp

theorem mem_zip_map {α β : Type} (f : α → β) : ∀ (l : List α) (p : α × β), p ∈ l.zip (l.map f) ↔ p.1 ∈ l ∧ p.2 = f p.1 := by
  intro l
  induction l with
  | nil => intro p; simp
  | cons x xs ih =>
    rintro ⟨a, b⟩
    simp only [List.map_cons, List.zip_cons_cons, List.mem_cons, ih, Prod.mk.injEq]
    constructor
    · rintro (⟨rfl, rfl⟩ | ⟨h1, h2⟩)
      · exact ⟨Or.inl rfl, rfl⟩
      · exact ⟨Or.inr h1, h2⟩
    · rintro ⟨rfl | h1, h2⟩
      · exact Or.inl ⟨rfl, h2⟩
      · exact Or.inr ⟨h1, h2⟩

theorem eq_of_pairwise {α : Type} {R : α → α → Prop} (hsymm : ∀ a b, R a b → R b a) {l : List α} (h : l.Pairwise (fun a b => ¬ R a b))
    {a b : α} (ha : a ∈ l) (hb : b ∈ l) (hr : R a b) : a = b := by
  induction l with
  | nil => cases ha
  | cons x xs ih =>
    obtain ⟨h1, h2⟩ := List.pairwise_cons.1 h
    rcases List.mem_cons.1 ha with rfl | ha
    · rcases List.mem_cons.1 hb with rfl | hb
      · rfl
      · exact absurd hr (h1 b hb)
    · rcases List.mem_cons.1 hb with rfl | hb
      · exact absurd (hsymm _ _ hr) (h1 a (by assumption))
      · exact ih h2 ha hb

theorem keyLine_cut {U : Unicode} (hU : U.Lawful) (date : Int → Runes) {gs : Nat} {kp : List Key} {k : Key} (hk : k ∈ kp)
    (hp : Printable U k.id.val) (hl : k.id.val.length ≤ gs) : cutBlank (goStr (keyLine date (keySizes gs kp) k)) = k.id.val := by
  have hs : (keySizes gs kp).getD 0 0 = (gs : Int) := by
    unfold keySizes
    rw [if_pos (List.length_pos_of_mem hk)]
    rfl
  unfold keyLine
  simp only [List.append_assoc]
  rw [hs]
  exact cut_padded hU hp (by omega)

theorem tryDecipher_keeps {U : Unicode} {f : Runes} {dry : Bool} {inst : Inst} {m : Msg} (hm : m.id ≠ []) :
    (tryDecipher U f dry inst m).2.1.messages = inst.messages ∧ (tryDecipher U f dry inst m).2.2.id = m.id := by
  have hw : withId f m = m := by
    unfold withId
    rw [if_neg (by simpa using hm)]
  have hd : ∀ (i : Inst) (m1 : Msg), m1.id ≠ [] → (decipher U f i m1).2.1.messages = i.messages ∧ (decipher U f i m1).2.2.id = m1.id := by
    intro i m1 h1
    have hw1 : withId f m1 = m1 := by
      unfold withId
      rw [if_neg (by simpa using h1)]
    unfold decipher
    simp only [hw1]
    repeat' split
    all_goals exact ⟨rfl, rfl⟩
  unfold tryDecipher
  simp only [hw]
  split
  · exact ⟨rfl, rfl⟩
  split
  · exact ⟨rfl, rfl⟩
  split
  · exact ⟨rfl, rfl⟩
  split
  · exact ⟨rfl, rfl⟩
  split
  · exact ⟨rfl, rfl⟩
  split
  · exact ⟨rfl, rfl⟩
  · rename_i filtered _ _ _ _ _ _ _ k _
    have := hd { inst with nextAddr := inst.nextAddr + 1 }
      { m with keyId := ⟨inst.nextAddr, k.id.val⟩, cipherText := filtered.drop inst.groupSize } hm
    split <;> rename_i heq <;> rw [heq] at this <;> exact this

/-- the positions a filter selects -/
def selectedAt (filter : Msg → Bool) (msgs : List Msg) (i : Nat) : Bool :=
  match msgs[i]? with
  | some m => filter m
  | none => false

theorem map_id_set {l : List Msg} {i : Nat} {m m' : Msg} (h : l[i]? = some m) (he : m'.id = m.id) :
    (l.set i m').map Msg.id = l.map Msg.id := by
  rw [List.map_set, he]
  apply List.ext_getElem?
  intro n
  rw [List.getElem?_set]
  split
  · rename_i hn; subst hn
    have := List.getElem?_map (f := Msg.id) (l := l) (i := i)
    rw [this, h]
    obtain ⟨hlt, _⟩ := List.getElem?_eq_some_iff.1 h
    simp [hlt]
  · rfl

theorem scan_spec {U : Unicode} {fresh : Nat → Runes} {filter : Msg → Bool} : ∀ (is : List Nat) (inst inst' : Inst) (sel : List Nat),
    is.Nodup → (∀ m ∈ inst.messages, m.id ≠ []) → scanMessages U fresh filter is inst = .ok (inst', sel) →
    inst'.messages.map Msg.id = inst.messages.map Msg.id ∧ sel = is.filter (selectedAt filter inst.messages) := by
  intro is
  induction is with
  | nil =>
    intro inst inst' sel _ _ h
    simp only [scanMessages, Outcome.ok.injEq, Prod.mk.injEq] at h
    obtain ⟨rfl, rfl⟩ := h
    exact ⟨rfl, rfl⟩
  | cons i is ih =>
    intro inst inst' sel hnd hne h
    obtain ⟨hni, hnd'⟩ := List.nodup_cons.1 hnd
    simp only [scanMessages] at h
    rcases hm : inst.messages[i]? with _ | m
    · rw [hm] at h; cases h
    rw [hm] at h
    simp only at h
    have hmem := List.mem_of_getElem? hm
    by_cases hf : filter m = true
    · rw [if_pos hf] at h
      have hsel : selectedAt filter inst.messages i = true := by simp [selectedAt, hm, hf]
      -- one or two steps that change only message i, keeping its id
      have step : ∀ inst2 : Inst, (∃ m2, m2.id = m.id ∧ inst2.messages = inst.messages.set i m2) → ∀ r, scanMessages U fresh filter is inst2 = .ok r →
          r.1.messages.map Msg.id = inst.messages.map Msg.id ∧ r.2 = is.filter (selectedAt filter inst.messages) := by
        rintro inst2 ⟨m2, he, hset⟩ ⟨i3, s3⟩ hr
        have hids : inst2.messages.map Msg.id = inst.messages.map Msg.id := by rw [hset]; exact map_id_set hm he
        have hne2 : ∀ x ∈ inst2.messages, x.id ≠ [] := by
          intro x hx
          have : x.id ∈ inst.messages.map Msg.id := by rw [← hids]; exact List.mem_map.2 ⟨x, hx, rfl⟩
          obtain ⟨y, hy, hxy⟩ := List.mem_map.1 this
          rw [← hxy]; exact hne y hy
        obtain ⟨h1, h2⟩ := ih inst2 i3 s3 hnd' hne2 hr
        refine ⟨h1.trans hids, h2.trans ?_⟩
        apply List.filter_congr
        intro j hj
        have : i ≠ j := by rintro rfl; exact hni hj
        simp [selectedAt, hset, this]
      have k1 := tryDecipher_keeps (U := U) (f := fresh i) (dry := true) (inst := inst) (hne m hmem)
      rcases hr1 : tryDecipher U (fresh i) true inst m with ⟨o1, i1, m1⟩
      rw [hr1] at h k1
      simp only at h k1
      obtain ⟨k1a, k1b⟩ := k1
      have hset1 : ∀ x : Msg, (i1.messages.set i m1).set i x = inst.messages.set i x := by
        intro x; rw [k1a, List.set_set]
      cases o1 with
      | panic => simp at h
      | err e =>
        simp only at h
        rcases hs : scanMessages U fresh filter is { i1 with messages := i1.messages.set i m1 } with ⟨i3, s3⟩ | e | _
        · rw [hs] at h
          simp only [Outcome.ok.injEq, Prod.mk.injEq] at h
          obtain ⟨rfl, rfl⟩ := h
          obtain ⟨a, b⟩ := step _ ⟨m1, k1b, by simp [k1a]⟩ _ hs
          exact ⟨a, by rw [List.filter_cons, if_pos hsel]; exact congrArg (i :: ·) b⟩
        · rw [hs] at h; cases h
        · rw [hs] at h; cases h
      | ok u =>
        simp only at h
        have hne1 : m1.id ≠ [] := by rw [k1b]; exact hne m hmem
        have k2 := tryDecipher_keeps (U := U) (f := fresh i) (dry := false) (inst := { i1 with messages := i1.messages.set i m1 }) hne1
        rcases hr2 : tryDecipher U (fresh i) false { i1 with messages := i1.messages.set i m1 } m1 with ⟨o2, i2, m2⟩
        rw [hr2] at h k2
        simp only at h k2
        obtain ⟨k2a, k2b⟩ := k2
        have fin : ∀ r, scanMessages U fresh filter is { i2 with messages := i2.messages.set i m2 } = .ok r →
            r.1.messages.map Msg.id = inst.messages.map Msg.id ∧ r.2 = is.filter (selectedAt filter inst.messages) :=
          step _ ⟨m2, by rw [k2b, k1b], by simp [k2a, hset1]⟩
        have go : (match scanMessages U fresh filter is { i2 with messages := i2.messages.set i m2 } with
            | .ok (inst3, sel) => Outcome.ok (inst3, i :: sel)
            | .err e => .err e
            | .panic => .panic) = .ok (inst', sel) →
            inst'.messages.map Msg.id = inst.messages.map Msg.id ∧ sel = (i :: is).filter (selectedAt filter inst.messages) := by
          intro h
          rcases hs : scanMessages U fresh filter is { i2 with messages := i2.messages.set i m2 } with ⟨i3, s3⟩ | e | _
          · rw [hs] at h
            simp only [Outcome.ok.injEq, Prod.mk.injEq] at h
            obtain ⟨rfl, rfl⟩ := h
            obtain ⟨a, b⟩ := fin _ hs
            exact ⟨a, by rw [List.filter_cons, if_pos hsel]; exact congrArg (i :: ·) b⟩
          · rw [hs] at h; cases h
          · rw [hs] at h; cases h
        cases o2 with
        | panic => simp at h
        | err e => exact go h
        | ok u => exact go h
    · rw [if_neg hf] at h
      obtain ⟨a, b⟩ := ih inst inst' sel hnd' hne h
      refine ⟨a, ?_⟩
      rw [List.filter_cons, if_neg (by simp [selectedAt, hm, hf]), b]

theorem filterMap_range {α β : Type} (l : List α) (h : α → Option β) :
    (List.range l.length).filterMap (fun i => (l[i]?).bind h) = l.filterMap h := by
  have h1 : (List.range l.length).map (fun i => l[i]?) = l.map some := by
    apply List.ext_getElem
    · simp
    · intro n h1 h2
      simp at h1
      simp [h1]
  calc _ = ((List.range l.length).map (fun i => l[i]?)).filterMap (fun o => o.bind h) := by rw [List.filterMap_map]; rfl
    _ = (l.map some).filterMap (fun o => o.bind h) := by rw [h1]
    _ = l.filterMap h := by rw [List.filterMap_map]; rfl

end K431
