import Verif.PropsSame
import Verif.WrittenLemmas
import Verif.PropsForms
import Verif.PropsDecipher
import Verif.MsgLemmas

/-!
# C120 for whole radiograms
-/

namespace K431
open Spec

/-- The two radiograms say the same: the same stations and time, in whatever form (full, semi-full or short), with whatever addressees, instruction and count, whatever end, and with the groups of the text written as
they please. -/
structure SaysTheSame (U : Unicode) (r r' sender body body' : Runes) : Prop where
  heading : ∃ names names' sender' dtg dtg' text text', EqualForm r names sender dtg text ∧ EqualForm r' names' sender' dtg' text' ∧
    Closed U.isSpace text body ∧ Closed U.isSpace text' body' ∧ List.Forall₂ (SameFold U) names names' ∧ SameFold U sender sender' ∧
    List.Forall₂ (SameFold U) dtg.toList dtg'.toList
  text : Respaced U body body'

theorem sameFold_maps {U : Unicode} {l l' : List Runes} (h : List.Forall₂ (SameFold U) l l') : l.map (fun n => n.map U.toUpper) = l'.map (fun n => n.map U.toUpper) := by
  induction h with
  | nil => rfl
  | cons a _ ih => rw [List.map_cons, List.map_cons, ih, a]

/-- the two radiograms are read alike -/
theorem parse_same {U : Unicode} (hU : U.Lawful) {E : RadioEnv} {msgs : List Msg} {r r' sender body body' : Runes} {t t' : Tape} {id : Runes}
    (hs : SaysTheSame U (E.unbreak r) (E.unbreak r') sender body body') (hp : ∀ w, E.dtgParse w ≠ .panic) (hid : newUniqueMessageId msgs t = some (id, t')) :
    (∃ e, parseRadiogram U E msgs r t = some (.err e, t') ∧ parseRadiogram U E msgs r' t = some (.err e, t')) ∨
    ∃ names time, parseRadiogram U E msgs r t = some (.ok ⟨id, names, sender.map U.toUpper, time, Sl.nil, body, [], E.unbreak r⟩, t') ∧
      parseRadiogram U E msgs r' t = some (.ok ⟨id, names, sender.map U.toUpper, time, Sl.nil, body', [], E.unbreak r'⟩, t') := by
  obtain ⟨names, names', sender', dtg, dtg', text, text', f1, f2, c1, c2, hn, hse, hd⟩ := hs.heading
  obtain ⟨a1, a2⟩ := C101 hU f1 c1 hid
  obtain ⟨b1, b2⟩ := C101 hU f2 c2 hid
  rw [← sameFold_maps hn, ← (show sender.map U.toUpper = sender'.map U.toUpper from hse)] at b1
  rcases dtg with _ | w
  · rcases dtg' with _ | w'
    · exact .inr ⟨_, E.now, a1 _ (fun _ => rfl) (by simp), b1 _ (fun _ => rfl) (by simp)⟩
    · cases hd
  · rcases dtg' with _ | w'
    · cases hd
    · have hw : w.map U.toUpper = w'.map U.toUpper := by
        cases hd with
        | cons h _ => exact h
      rcases hq : E.dtgParse (w.map U.toUpper) with time | e | _
      · refine .inr ⟨_, time, a1 _ (by simp) (by simpa using hq), b1 _ (by simp) ?_⟩
        simpa [← hw] using hq
      · refine .inl ⟨e, a2 w rfl e hq, b2 w' rfl e (by rw [← hw]; exact hq)⟩
      · exact absurd hq (hp _)

/-- **C120** for whole radiograms from another station: if two radiograms say the same, entering either has the same effect: the outcome, the keys and all else in the store are the same, and so is the
message (but for the radiogram kept with it) if it is read; if it is not, each is kept as it was written. -/
theorem C120_radiogram {U : Unicode} (hU : U.Lawful) {noise : Nat → Rune} {E : RadioEnv} {f : Runes} {inst i i' : Inst} {r r' sender body body' : Runes} {t t1 t1' : Tape} {o o' : Outcome Msg}
    (hs : SaysTheSame U (E.unbreak r) (E.unbreak r') sender body body') (hp : ∀ w, E.dtgParse w ≠ .panic) (hother : ¬ SameFold U sender inst.callSign) (hg : inst.groupSize ≠ 0)
    (h : newTextMessageRun U noise E f inst [r] t = some ((o, i), t1)) (h' : newTextMessageRun U noise E f inst [r'] t = some ((o', i'), t1')) :
    t1 = t1' ∧ { i with messages := [] } = { i' with messages := [] } ∧
    ((∃ e, o = .err e ∧ o' = .err e ∧ i = inst ∧ i' = inst) ∨
     ∃ m m', o = .ok m ∧ o' = .ok m' ∧ i.messages = inst.messages ++ [m] ∧ i'.messages = inst.messages ++ [m'] ∧
      (m' = { m with radiogram := E.unbreak r' } ∨ m.plainText = body ∧ m.keyId = Sl.nil ∧ m' = { m with plainText := body', radiogram := E.unbreak r' })) := by
  rcases hid : newUniqueMessageId inst.messages t with _ | ⟨id, t'⟩
  · unfold newTextMessageRun parseRadiogram at h
    simp only [hid] at h
    cases h
  have hmy : ∀ p : Msg, p.from_ = sender.map U.toUpper → isMyCall U inst p = false := by
    intro p hp
    rcases hb : isMyCall U inst p with _ | _
    · rfl
    · have := (equalRunesFold_iff U _ _).1 hb
      rw [hp, List.map_map] at this
      refine absurd ?_ hother
      unfold SameFold
      rw [← this]
      exact List.map_congr_left (fun c _ => (hU.toUpper_idem c).symm)
  unfold newTextMessageRun at h h'
  dsimp only at h h'
  rcases parse_same hU hs hp hid with ⟨e, e1, e2⟩ | ⟨names, time, e1, e2⟩
  · rw [e1] at h
    rw [e2] at h'
    cases h; cases h'
    exact ⟨rfl, rfl, .inl ⟨e, rfl, rfl, rfl, rfl⟩⟩
  rw [e1] at h
  rw [e2] at h'
  simp only [newTextMessage, hmy, Bool.false_eq_true, if_false, Option.some.injEq, Prod.mk.injEq] at h h'
  obtain ⟨h, rfl⟩ := h
  obtain ⟨h', rfl⟩ := h'
  generalize hN : (if names.length = 0 then addRecipient U names [inst.callSign] else names) = N
  have hm : ∀ b g, (if names.length = 0 then (⟨id, addRecipient U names [inst.callSign], sender.map U.toUpper, time, Sl.nil, b, [], g⟩ : Msg)
      else ⟨id, names, sender.map U.toUpper, time, Sl.nil, b, [], g⟩) = ⟨id, N, sender.map U.toUpper, time, Sl.nil, b, [], g⟩ := by
    intro b g
    rw [← hN]
    split <;> rfl
  rw [hm] at h h'
  generalize hp0 : (⟨id, N, sender.map U.toUpper, time, Sl.nil, body, [], E.unbreak r⟩ : Msg) = p at h
  have hp1 : (⟨id, N, sender.map U.toUpper, time, Sl.nil, body', [], E.unbreak r'⟩ : Msg) = { ({ p with plainText := body' } : Msg) with radiogram := E.unbreak r' } := by rw [← hp0]
  have hk : p.keyId = Sl.nil := by rw [← hp0]
  have hpt : p.plainText = body := by rw [← hp0]
  rw [hp1, tryDecipher_radiogram] at h'
  have hw := C120_writing U hU f false inst p body' (by rw [hpt]; exact hs.text)
  simp only at hw
  rw [hw] at h'
  have hun := tryDecipher_unread (U := U) (f := f) (inst := inst) hk
  generalize hq : tryDecipher U f false inst p = q at h h' hun
  obtain ⟨oq, iq, mq⟩ := q
  have hpan := (C21_all_or_nothing U hU f false inst iq p mq oq hg hq).1
  have hms := (tryDecipher_messages hq).1
  simp only at h h' hun
  rcases oq with u | e | _
  · simp only [true_and, if_true, Prod.mk.injEq] at h h'
    obtain ⟨rfl, rfl⟩ := h
    obtain ⟨rfl, rfl⟩ := h'
    exact ⟨rfl, rfl, .inr ⟨_, _, rfl, rfl, by rw [hms], by rw [hms], .inl rfl⟩⟩
  · simp only [reduceCtorEq, false_and, if_false, Prod.mk.injEq] at h h'
    obtain ⟨rfl, rfl⟩ := h
    obtain ⟨rfl, rfl⟩ := h'
    obtain ⟨u1, u2⟩ := hun (by simp)
    exact ⟨rfl, rfl, .inr ⟨_, _, rfl, rfl, by rw [hms], by rw [hms], .inr ⟨by rw [u1, hpt], u2, rfl⟩⟩⟩
  · exact absurd rfl hpan

theorem exFull_form : EqualForm (lit "AA BB DE DD 012345 == XY ZZ/P == COL 3 = ABCDE FGHIJ KLMNO = K") [lit "AA", lit "BB"] (lit "DD") (some (lit "012345"))
    (lit " ABCDE FGHIJ KLMNO = K") :=
  .inl ⟨lit "AA BB DE DD 012345 ", lit " XY ZZ/P ", lit " COL ", lit "3", lit " ", by decide, exHeading_full, by decide, by decide, by decide, by decide⟩

theorem exSemi_form : EqualForm (lit "AA BB DE DD 012345 == VJ QJ 3 = abcdefghij klmno K") [lit "AA", lit "BB"] (lit "DD") (some (lit "012345")) (lit " abcdefghij klmno K") := by
  refine .inr (.inl ⟨⟨lit "AA BB DE DD 012345 ", lit " VJ QJ 3 ", by decide, exHeading_full, by decide⟩, ?_⟩)
  rintro ⟨x, y, e⟩
  have h1 : (61 : Int) ∉ lit " abcdefghij klmno K" := by decide
  cases x with
  | nil =>
    simp only [List.nil_append, List.cons.injEq, true_and] at e
    exact h1 (by rw [e]; simp)
  | cons c x =>
    simp only [List.cons_append, List.cons.injEq] at e
    exact h1 (by rw [e.2]; simp)

/-- `C120_radiogram` is not vacuous: the same groups in the full form and, in small letters and with other gaps, in the semi-full form. -/
example : SaysTheSame unicode15 (lit "AA BB DE DD 012345 == XY ZZ/P == COL 3 = ABCDE FGHIJ KLMNO = K") (lit "AA BB DE DD 012345 == VJ QJ 3 = abcdefghij klmno K") (lit "DD")
      (lit "ABCDE FGHIJ KLMNO") (lit "abcdefghij klmno") ∧
    ¬ SameFold unicode15 (lit "DD") (lit "AA") := by
  refine ⟨⟨⟨_, _, _, _, _, _, _, exFull_form, exSemi_form, ?_, ?_, ?_, rfl, ?_⟩, ?_⟩, by decide +kernel⟩
  · refine ⟨⟨[32], lit " = K", by decide, by decide, .inl ?_⟩, by decide, by decide, by decide, by decide⟩
    exact .equalOver (g := [32]) (g1 := [32]) (g2 := []) (by decide) (.inl rfl)
  · refine ⟨⟨[32], lit " K", by decide, by decide, .inl ?_⟩, by decide, by decide, by decide, by decide⟩
    exact .over (g := [32]) (g2 := []) (by simp) (by decide) (.inl rfl)
  · exact .cons rfl (.cons rfl .nil)
  · exact .cons rfl .nil
  · have h : ∀ (w : Runes), (∀ c ∈ w, IsLetter c ∧ unicode15.toUpper c = c ∧ unicode15.toUpper (c + 32) = c) → ∀ {a b : Runes}, Respaced unicode15 a b →
        Respaced unicode15 (w ++ a) (w.map (· + 32) ++ b) := by
      intro w
      induction w with
      | nil => intro _ a b h; exact h
      | cons c w ih =>
        intro hc a b h
        obtain ⟨h1, h2, h3⟩ := hc c (by simp)
        exact .letter (by rw [h2]; exact h1) (by rw [h2, h3]) (ih (fun c hc' => hc c (by simp [hc'])) h)
    have hl : ∀ w ∈ [lit "ABCDE", lit "FGHIJ", lit "KLMNO"], ∀ c ∈ w, IsLetter c ∧ unicode15.toUpper c = c ∧ unicode15.toUpper (c + 32) = c := by decide +kernel
    have := h (lit "ABCDE") (hl _ (by simp)) (.drop (c := 32) (.inl (by decide +kernel)) (h (lit "FGHIJ") (hl _ (by simp)) (.same 32 (h (lit "KLMNO") (hl _ (by simp)) .nil))))
    exact this

end K431
