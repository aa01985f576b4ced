import Verif.Conc
import Verif.HistLemmas
import Mathlib.Logic.Relation

/-! # Helper lemmas: a goroutine running alone -/

namespace K431
open Spec

theorem Alone.det {U : Unicode} {x y z : Inst × EThread} (h1 : Alone U x y) (h2 : Alone U x z) : y = z := by
  unfold Alone at h1 h2; rw [h1] at h2; exact Option.some.inj h2

/-- finished -/
def EThread.over (t : EThread) : Prop := (∃ c, t.ph = .done c) ∨ ∃ o, t.ph = .failed o

theorem Alone.over {U : Unicode} {x y : Inst × EThread} (h : x.2.over) : ¬ Alone U x y := by
  intro ha
  unfold Alone eStep at ha
  rcases h with ⟨c, h⟩ | ⟨c, h⟩
  · rw [h] at ha; cases ha
  · rw [h] at ha; cases ha

/-- two runs to the end give the same -/
theorem alone_unique {U : Unicode} {x y z : Inst × EThread} (h1 : Relation.ReflTransGen (Alone U) x y)
    (h2 : Relation.ReflTransGen (Alone U) x z) (hy : y.2.over) (hz : z.2.over) : y = z := by
  have ht := Relation.ReflTransGen.total_of_right_unique (r := Alone U) (fun _ _ _ hab hac => Alone.det hab hac) h1 h2
  rcases ht with h | h
  · rcases Relation.ReflTransGen.cases_head h with e | ⟨w, hw, _⟩
    · exact e
    · exact absurd hw (Alone.over hy)
  · rcases Relation.ReflTransGen.cases_head h with e | ⟨w, hw, _⟩
    · exact e.symm
    · exact absurd hw (Alone.over hz)

/-- the result of `encipherT` as a goroutine that has returned -/
def finished (t : EThread) (r : Outcome (List Chunk) × Inst × Msg) : Inst × EThread :=
  (r.2.1, { t with msg := r.2.2, ph := match r.1 with
    | .ok c => .done c
    | .err e => .failed (.err e)
    | .panic => .failed .panic })

/-- a phase with the loop state -/
def atLoop (b : Bool) (t : EThread) (inst : Inst) (rest : Runes) (s : LoopState) : Inst × EThread :=
  ({ inst with keys := s.keys }, { t with ph := .coding b rest s.st s.chunks s.cur })

/-- the end of the loop -/
def loopEnd (U : Unicode) (t : EThread) (inst : Inst) (s' : LoopState) : Outcome Unit → Inst × EThread
  | .ok _ => atLoop false t inst [] s'
  | .err e => eFail U { inst with keys := s'.keys } t (.err e) s'.st s'.chunks s'.cur []
  | .panic => eFail U { inst with keys := s'.keys } t .panic s'.st s'.chunks s'.cur []

theorem alone_loop (U : Unicode) (t : EThread) (inst : Inst) : ∀ (text : Runes) (s : LoopState) (o : Outcome Unit) (s' : LoopState),
    encLoop U inst.groupSize t.msg.recipients text s = (o, s') →
    Relation.ReflTransGen (Alone U) (atLoop false t inst text s) (loopEnd U t inst s' o) := by
  intro text
  induction text with
  | nil =>
    intro s o s' h
    simp only [encLoop, Prod.mk.injEq] at h
    obtain ⟨rfl, rfl⟩ := h
    exact .refl
  | cons c cs ih =>
    intro s o s' h
    -- coding the character once the key is settled
    have main : ∀ (b : Bool) (s1 : LoopState), (b = false → keyExhausted inst.groupSize s1 = false) →
        (match encodeCharacter U s1.st c s1.cur.enc with
          | .err e => ((.err e, s1) : Outcome Unit × LoopState)
          | .panic => (.panic, s1)
          | .ok (st, enc) => encLoop U inst.groupSize t.msg.recipients cs
              { s1 with st := st, cur := { s1.cur with enc := enc } }) = (o, s') →
        Relation.ReflTransGen (Alone U) (atLoop b t inst (c :: cs) s1) (loopEnd U t inst s' o) := by
      intro b s1 hb hm
      have hcond : ¬ (b = false ∧ keyExhausted inst.groupSize ⟨s1.keys, s1.st, s1.chunks, s1.cur⟩ = true) := by
        rintro ⟨h1, h2⟩
        have : (⟨s1.keys, s1.st, s1.chunks, s1.cur⟩ : LoopState) = s1 := rfl
        rw [this, hb h1] at h2; cases h2
      rcases he : encodeCharacter U s1.st c s1.cur.enc with ⟨st, enc⟩ | e | _
      · rw [he] at hm
        simp only at hm
        refine .head (b := atLoop false t inst cs { s1 with st := st, cur := { s1.cur with enc := enc } }) ?_ (ih _ _ _ hm)
        simp only [Alone, atLoop, eStep, if_neg hcond, he]
      · rw [he] at hm
        simp only [Prod.mk.injEq] at hm
        obtain ⟨rfl, rfl⟩ := hm
        refine .single ?_
        simp only [Alone, atLoop, eStep, if_neg hcond, he]
        rfl
      · rw [he] at hm
        simp only [Prod.mk.injEq] at hm
        obtain ⟨rfl, rfl⟩ := hm
        refine .single ?_
        simp only [Alone, atLoop, eStep, if_neg hcond, he]
        rfl
    simp only [encLoop] at h
    by_cases hx : keyExhausted inst.groupSize s = true
    · rw [if_pos hx] at h
      have hcond : keyExhausted inst.groupSize ⟨s.keys, s.st, s.chunks, s.cur⟩ = true := hx
      unfold nextChunk at h
      rcases hf : findKey U inst.groupSize s.keys t.msg.recipients with _ | j
      · rw [hf] at h
        simp only [Prod.mk.injEq] at h
        obtain ⟨rfl, rfl⟩ := h
        refine .single ?_
        simp only [Alone, atLoop, eStep, hcond, and_self, if_true, hf]
        rfl
      · rw [hf] at h
        refine .head (b := ({ inst with keys := s.keys }, { t with ph := .change j (c :: cs) s.st s.chunks s.cur })) ?_ ?_
        · simp only [Alone, atLoop, eStep, hcond, and_self, if_true, hf]
        · rcases hk : s.keys[j]? with _ | k
          · simp only [hk, Prod.mk.injEq] at h
            obtain ⟨rfl, rfl⟩ := h
            refine .single ?_
            simp only [Alone, eStep, hk]
            rfl
          · simp only [hk] at h
            rcases hc : changeKey s.st k.id.val s.cur.enc with ⟨st, enc⟩ | e | _
            · rw [hc] at h
              simp only at h
              refine .head (b := atLoop true t inst (c :: cs)
                { keys := setUsed s.keys j true, st := newState, chunks := s.chunks ++ [{ s.cur with enc := enc }], cur := ⟨[], j⟩ }) ?_ ?_
              · simp only [Alone, eStep, hk, hc, atLoop]
              · exact main true _ (by simp) h
            · rw [hc] at h
              simp only [Prod.mk.injEq] at h
              obtain ⟨rfl, rfl⟩ := h
              refine .single ?_
              simp only [Alone, eStep, hk, hc]
              rfl
            · rw [hc] at h
              simp only [Prod.mk.injEq] at h
              obtain ⟨rfl, rfl⟩ := h
              refine .single ?_
              simp only [Alone, eStep, hk, hc]
              rfl
    · rw [if_neg hx] at h
      exact main false s (fun _ => by simpa using hx) h

/-- A goroutine that is not disturbed computes `encipherT`. -/
theorem alone_encipher (U : Unicode) (inst : Inst) (t : EThread) (ht : t.ph = .start) :
    Relation.ReflTransGen (Alone U) (inst, t) (finished t (encipherT U t.noise t.fresh inst t.msg)) := by
  -- from EnrichWithKey on
  have later : ∀ (inst1 : Inst) (m1 : Msg), Relation.ReflTransGen (Alone U) (inst1, { t with msg := m1, ph := .enriched })
      (finished t (
        let m := { m1 with cipherText := [] }
        match getKey U inst1.keys m.keyId.val with
        | none => (.err .keyNotFound, inst1, m)
        | some i =>
          let s0 : LoopState := ⟨inst1.keys, newState, [], ⟨[], i⟩⟩
          match encLoop U inst1.groupSize m.recipients m.plainText s0 with
          | (.err e, s) => let r := release U t.noise inst1 m s []; (.err e, r.1, r.2)
          | (.panic, s) => let r := release U t.noise inst1 m s []; (.panic, r.1, r.2)
          | (.ok _, s) =>
            if inst1.groupSize = 0 then
              let r := release U t.noise inst1 m s []; (.panic, r.1, r.2)
            else
              let total := s.cur.enc.length + totalLength s.chunks
              let padded := (pad s.st (padCount inst1.groupSize total) s.cur.enc).2
              let cur := { s.cur with enc := padded }
              let chunks := s.chunks ++ [cur]
              match cipherChunks s.keys chunks with
              | (.ok _, out) =>
                (.ok chunks, { inst1 with keys := s.keys }, { m with cipherText := out })
              | (.err e, out) =>
                let r := release U t.noise inst1 m { s with chunks := chunks, cur := cur } out; (.err e, r.1, r.2)
              | (.panic, out) =>
                let r := release U t.noise inst1 m { s with chunks := chunks, cur := cur } out; (.panic, r.1, r.2))) := by
    intro inst1 m1
    simp only
    rcases hk : getKey U inst1.keys m1.keyId.val with _ | i
    · refine .single ?_
      simp only [Alone, eStep, hk, finished]
    · simp only
      refine .head (b := (inst1, { t with msg := { m1 with cipherText := [] }, ph := .coding false m1.plainText newState [] ⟨[], i⟩ }))
        (by simp only [Alone, eStep, hk]) ?_
      have hl := alone_loop U { t with msg := { m1 with cipherText := [] } } inst1 m1.plainText ⟨inst1.keys, newState, [], ⟨[], i⟩⟩
      rcases he : encLoop U inst1.groupSize m1.recipients m1.plainText ⟨inst1.keys, newState, [], ⟨[], i⟩⟩ with ⟨u | e | _, s⟩
      · refine (hl _ _ he).trans (.single ?_)
        by_cases hg : inst1.groupSize = 0
        · obtain ⟨g, kl, co, kc, ks, ms, cs, na⟩ := inst1
          simp only at hg
          subst hg
          rfl
        · simp only [Alone, loopEnd, atLoop, eStep, hg, if_false]
          rcases hc : cipherChunks s.keys (s.chunks ++ [{ s.cur with enc := (pad s.st (padCount inst1.groupSize
              (s.cur.enc.length + totalLength s.chunks)) s.cur.enc).2 }]) with ⟨u' | e' | _, out⟩
          · simp only [hc]; rfl
          · simp only [hc]; rfl
          · simp only [hc]; rfl
      · exact hl _ _ he
      · exact hl _ _ he
  have hww : withId t.fresh (withId t.fresh t.msg) = withId t.fresh t.msg := by
    unfold withId; split <;> simp_all
  unfold encipherT enrichWithKey
  simp only [hww]
  have hst : t = { t with ph := .start } := by rw [← ht]
  have first : ∀ y, eStep U inst t = some y → Alone U (inst, t) y := fun y h => h
  have hs : eStep U inst t = eStep U inst { t with ph := .start } := by rw [← hst]
  by_cases h1 : (withId t.fresh t.msg).plainText.length = 0
  · rw [if_pos h1]
    refine .single (first _ ?_)
    rw [hs]
    simp only [eStep, if_pos h1, finished]
  · rw [if_neg h1]
    by_cases h2 : (withId t.fresh t.msg).keyId.val.length > 0
    · rw [if_pos h2]
      by_cases h3 : (withId t.fresh t.msg).keyId.val.length ≠ inst.groupSize
      · rw [if_pos h3]
        refine .single (first _ ?_)
        rw [hs]
        simp only [eStep, if_neg h1, if_pos h2, if_pos h3, finished]
      · rw [if_neg h3]
        rcases hp : presetCheck (withId t.fresh t.msg).keyId.val inst.keys with u | e | _
        · refine .head (first _ ?_) (later inst (withId t.fresh t.msg))
          rw [hs]
          simp only [eStep, if_neg h1, if_pos h2, if_neg h3, hp]
        · refine .single (first _ ?_)
          rw [hs]
          simp only [eStep, if_neg h1, if_pos h2, if_neg h3, hp, finished]
        · refine .single (first _ ?_)
          rw [hs]
          simp only [eStep, if_neg h1, if_pos h2, if_neg h3, hp, finished]
    · rw [if_neg h2]
      by_cases h3 : (withId t.fresh t.msg).cipherText.length > 0
      · rw [if_pos h3]
        by_cases h4 : (withId t.fresh t.msg).keyId.val.length ≠ inst.groupSize
        · rw [if_pos h4]
          refine .single (first _ ?_)
          rw [hs]
          simp only [eStep, if_neg h1, if_neg h2, if_pos h3, if_pos h4, finished]
        · rw [if_neg h4]
          refine .head (first _ ?_) (later inst (withId t.fresh t.msg))
          rw [hs]
          simp only [eStep, if_neg h1, if_neg h2, if_pos h3, if_neg h4]
      · rw [if_neg h3]
        rcases hf : findKey U inst.groupSize inst.keys (withId t.fresh t.msg).recipients with _ | i
        · refine .single (first _ ?_)
          rw [hs]
          simp only [eStep, if_neg h1, if_neg h2, if_neg h3, hf, finished]
        · refine .head (b := (inst, { t with msg := withId t.fresh t.msg, ph := .chosen i })) (first _ ?_) ?_
          · rw [hs]
            simp only [eStep, if_neg h1, if_neg h2, if_neg h3, hf]
          · rcases hk : inst.keys[i]? with _ | k
            · refine .single ?_
              simp only [Alone, eStep, hk, finished]
            · have hl := later { inst with keys := setUsed inst.keys i true } { withId t.fresh t.msg with keyId := k.id }
              simp only at hl ⊢
              rw [hk]
              refine .head ?_ hl
              simp only [Alone, eStep, hk]

theorem finished_over (t : EThread) (r : Outcome (List Chunk) × Inst × Msg) : (finished t r).2.over := by
  rcases r with ⟨c | e | _, i, m⟩
  · exact .inl ⟨_, rfl⟩
  · exact .inr ⟨_, rfl⟩
  · exact .inr ⟨_, rfl⟩

end K431
