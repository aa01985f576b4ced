import Verif.MiniMatch
import Verif.PropsTraffic

/-!
# Properties of the forms of a radiogram: C101, C102
-/

namespace K431
open Spec

/-- a message is read from the groups of the expression -/
theorem read_groups {U : Unicode} (hU : U.Lawful) {E : RadioEnv} {msgs : List Msg} {radiogram : Runes} {t t' : Tape} {id : Runes}
    {names : List Runes} {sender text body : Runes} {dtg : Option Runes} {caps : List (Nat × Runes)}
    (hf : firstMatch (E.unbreak radiogram) [regexpFull, regexpSemi, regexpShort, regexpMini] = some caps)
    (h1 : vettedKeepers U [capture caps 1] = names.map (fun n => n.map U.toUpper)) (h2 : capture caps 2 = sender)
    (h3 : capture caps 3 = dtg.getD []) (h4 : capture caps 4 = text.dropWhile reSpace)
    (hs : ∀ c ∈ sender, CallChar c) (hd : ∀ w ∈ dtg, w ≠ [] ∧ ∀ c ∈ w, CallChar c) (hb : Closed U.isSpace text body)
    (hid : newUniqueMessageId msgs t = some (id, t')) :
    (∀ time, (dtg = none → time = E.now) → (∀ w ∈ dtg, E.dtgParse (w.map U.toUpper) = .ok time) →
      parseRadiogram U E msgs radiogram t = some (.ok ⟨id, names.map (fun n => n.map U.toUpper), sender.map U.toUpper, time, Sl.nil, body, [],
        E.unbreak radiogram⟩, t')) ∧
    (∀ w ∈ dtg, ∀ e, E.dtgParse (w.map U.toUpper) = .err e → parseRadiogram U E msgs radiogram t = some (.err e, t')) := by
  have hcall : ∀ w : Runes, (∀ c ∈ w, CallChar c) → trimSpace U w = w := fun w hw =>
    trimSpace_letters (fun c hc => (call_up hU ((reCall_iff c).2 (.inl (hw c hc)))).1)
  have hsender : trimSpace U sender = sender := hcall sender hs
  have htext := closed_text hU hb
  constructor
  · intro time hnow hparse
    unfold parseRadiogram
    simp only [hid, hf, h1, h2, h3, h4, htext, hsender]
    cases dtg with
    | none =>
      rw [hnow rfl]
      simp [trimSpace, toUpperStr]
    | some w =>
      obtain ⟨hw2, hw1⟩ := hd w rfl
      simp only [Option.getD_some, hcall w hw1]
      have : ¬ (toUpperStr U w).length = 0 := by simpa [toUpperStr] using hw2
      rw [if_neg this]
      have hp : E.dtgParse (toUpperStr U w) = .ok time := hparse w rfl
      rw [hp]
      rfl
  · intro w hw e he
    cases hw
    unfold parseRadiogram
    simp only [hid, hf, h3]
    obtain ⟨hw2, hw1⟩ := hd w rfl
    simp only [Option.getD_some, hcall w hw1]
    have : ¬ (toUpperStr U w).length = 0 := by simpa [toUpperStr] using hw2
    rw [if_neg this]
    have hp : E.dtgParse (toUpperStr U w) = .err e := he
    rw [hp]

theorem heading_words {pre : Runes} {names : List Runes} {sender : Runes} {dtg : Option Runes} (h : Heading pre names sender dtg) :
    (∀ c ∈ sender, CallChar c) ∧ ∀ w ∈ dtg, w ≠ [] ∧ ∀ c ∈ w, CallChar c := by
  obtain ⟨lead, words, de, _, _, _, hlaid⟩ := h.laid
  refine ⟨(hlaid.word sender (by simp)).2, ?_⟩
  intro w hw
  exact hlaid.word w (by simp [Option.mem_def.1 hw])

/-! ## C101: the longer forms -/

/-- The radiogram is in one of the forms that have an equal sign before the text. -/
def EqualForm (s : Runes) (names : List Runes) (sender : Runes) (dtg : Option Runes) (text : Runes) : Prop :=
  FullForm s names sender dtg text ∨ SemiForm s names sender dtg text ∨
    (∃ instr count, ShortForm s names sender dtg instr count text) ∧ ∀ w ∈ dtg, DocumentedDtg w

/-- **C101.**  A radiogram in the full, the semi-full or the short form, with a documented date-time group or none and with any of the documented
ends or none, is read as it is laid out: recipients, sender and text are as written (call-signs in capitals), the time is that of the date-time
group, or the present if there is none.  Addressees, instruction, count and end sign are not part of the text.  If the library refuses the date-time group, so
does `ParseRadiogram`. -/
theorem C101 {U : Unicode} (hU : U.Lawful) {E : RadioEnv} {msgs : List Msg} {radiogram : Runes} {t t' : Tape} {id : Runes}
    {names : List Runes} {sender text body : Runes} {dtg : Option Runes}
    (h : EqualForm (E.unbreak radiogram) names sender dtg text) (hb : Closed U.isSpace text body)
    (hid : newUniqueMessageId msgs t = some (id, t')) :
    (∀ time, (dtg = none → time = E.now) → (∀ w ∈ dtg, E.dtgParse (w.map U.toUpper) = .ok time) →
      parseRadiogram U E msgs radiogram t = some (.ok ⟨id, names.map (fun n => n.map U.toUpper), sender.map U.toUpper, time, Sl.nil, body, [],
        E.unbreak radiogram⟩, t')) ∧
    (∀ w ∈ dtg, ∀ e, E.dtgParse (w.map U.toUpper) = .err e → parseRadiogram U E msgs radiogram t = some (.err e, t')) := by
  rcases h with h | h | ⟨⟨instr, count, h⟩, hd⟩
  · obtain ⟨caps, hf, h1, h2, h3, h4⟩ := full_match hU h hb.line
    obtain ⟨_, _, _, _, _, _, hh, _⟩ := h.form
    obtain ⟨w1, w2⟩ := heading_words hh
    exact read_groups hU hf h1 h2 h3 h4 w1 w2 hb hid
  · obtain ⟨caps, hf, h1, h2, h3, h4⟩ := semi_match hU h hb.line
    obtain ⟨_, _, _, hh, _⟩ := h.form
    obtain ⟨w1, w2⟩ := heading_words hh
    exact read_groups hU hf h1 h2 h3 h4 w1 w2 hb hid
  · obtain ⟨caps, hf, h1, h2, h3, h4⟩ := short_match hU h hd hb.line
    obtain ⟨_, _, _, _, _, _, hlaid⟩ := h.laid
    exact read_groups hU hf h1 h2 h3 h4 (hlaid.word sender (by simp)).2 (fun w hw => hlaid.word w (by simp [Option.mem_def.1 hw])) hb hid

/-- words with one space after each of them -/
theorem laid_spaced : ∀ {ws : List Runes}, (∀ w ∈ ws, w ≠ [] ∧ ∀ c ∈ w, CallChar c) → Laid ws (ws.flatMap (fun w => w ++ [32]))
  | [], _ => .nil
  | w :: ws, h => by
    rw [List.flatMap_cons]
    exact .cons (h w (by simp)).1 (h w (by simp)).2 (by simp) (by simp) (laid_spaced (fun w hw => h w (by simp [hw])))

theorem exHeading_full : Heading (lit "AA BB DE DD 012345 ") [lit "AA", lit "BB"] (lit "DD") (some (lit "012345")) := by
  refine ⟨⟨[], lit "AA BB DE DD 012345 ", lit "DE", (List.nil_append _).symm, by simp, ⟨68, 69, by decide, by decide, by decide⟩, ?_⟩, ?_, ?_⟩
  · have h : Laid [lit "AA", lit "BB", lit "DE", lit "DD", lit "012345"] ([lit "AA", lit "BB", lit "DE", lit "DD", lit "012345"].flatMap (fun w => w ++ [32])) :=
      laid_spaced (by decide +kernel)
    have e : [lit "AA", lit "BB", lit "DE", lit "DD", lit "012345"].flatMap (fun w => w ++ [32]) = lit "AA BB DE DD 012345 " := by decide +kernel
    rw [e] at h
    exact h
  · have : ∀ w ∈ [lit "AA", lit "BB"] ++ [lit "DD"], w.head? ≠ some 68 ∧ w.head? ≠ some 100 ∨ w[1]? ≠ some 69 ∧ w[1]? ≠ some 101 := by decide +kernel
    rintro w hw ⟨d, e, rfl, hd, he⟩
    have := this _ hw
    simp at this
    omega
  · intro w hw
    cases hw
    exact ⟨lit "012345", [], [], [], ⟨by decide +kernel, by decide +kernel, .inl rfl, .inl rfl, .inl rfl⟩, .inr rfl⟩

/-- Not vacuous: the full form with the documented addressees, instruction and count. -/
example : EqualForm (lit "AA BB DE DD 012345 == XY ZZ/P == COL 3 = ABCDE FGHIJ KLMNO = K") [lit "AA", lit "BB"] (lit "DD") (some (lit "012345"))
      (lit " ABCDE FGHIJ KLMNO = K") ∧
    Closed unicode15.isSpace (lit " ABCDE FGHIJ KLMNO = K") (lit "ABCDE FGHIJ KLMNO") ∧
    (parseRadiogram unicode15 exRadio [] (lit "AA BB DE DD 012345 == XY ZZ/P == COL 3 = ABCDE FGHIJ KLMNO = K") exIdTape).map Prod.fst =
      some (.ok ⟨lit "AAAA", [lit "AA", lit "BB"], lit "DD", 7, Sl.nil, lit "ABCDE FGHIJ KLMNO", [],
        lit "AA BB DE DD 012345 == XY ZZ/P == COL 3 = ABCDE FGHIJ KLMNO = K"⟩) := by
  refine ⟨.inl ⟨lit "AA BB DE DD 012345 ", lit " XY ZZ/P ", lit " COL ", lit "3", lit " ", by decide, exHeading_full, by decide, by decide, by decide, by decide⟩, ?_,
    by decide +kernel⟩
  refine ⟨⟨[32], lit " = K", by decide, by decide, .inl ?_⟩, by decide, by decide, by decide, by decide⟩
  exact .equalOver (g := [32]) (g1 := [32]) (g2 := []) (by decide) (.inl rfl)

/-- Not vacuous: the semi-full form, ended by a K that stands alone. -/
example : EqualForm (lit "AA BB DE DD 012345 == VJ QJ 3 = Hello world K") [lit "AA", lit "BB"] (lit "DD") (some (lit "012345")) (lit " Hello world K") ∧
    Closed unicode15.isSpace (lit " Hello world K") (lit "Hello world") := by
  refine ⟨.inr (.inl ⟨⟨lit "AA BB DE DD 012345 ", lit " VJ QJ 3 ", by decide, exHeading_full, by decide⟩, ?_⟩), ?_⟩
  · rintro ⟨x, y, e⟩
    have h1 : (61 : Int) ∉ lit " Hello world K" := by decide
    cases x with
    | nil =>
      simp only [List.nil_append, List.cons.injEq, true_and] at e
      exact h1 (by rw [e]; simp)
    | cons c x =>
      simp only [List.cons_append, List.cons.injEq] at e
      exact h1 (by rw [e.2]; simp)
  · refine ⟨⟨[32], lit " K", by decide, by decide, .inl ?_⟩, by decide, by decide, by decide, by decide⟩
    exact .over (g := [32]) (g2 := []) (by simp) (by decide) (.inl rfl)

/-- Addressees between the equal signs are not recipients, and the text is not searched for anything: the documented examples. -/
example : (parseRadiogram unicode15 exRadio [] (lit "TO DE FROM 012345 == TO2 TO3 == COL 2 = Hello world K") exIdTape).map Prod.fst =
    some (.ok ⟨lit "AAAA", [lit "TO"], lit "FROM", 7, Sl.nil, lit "Hello world", [], lit "TO DE FROM 012345 == TO2 TO3 == COL 2 = Hello world K"⟩) := by
  decide +kernel

/-! ## C102: the shortest form -/

/-- C102 as listed: a radiogram in the shortest form is read as it is laid out. -/
def C102_Statement : Prop :=
  ∀ (U : Unicode), U.Lawful → ∀ (E : RadioEnv) (msgs : List Msg) (radiogram : Runes) (t t' : Tape) (id : Runes)
    (names : List Runes) (sender text body : Runes) (dtg : Option Runes) (time : Int),
    MiniForm (E.unbreak radiogram) names sender dtg text → Closed U.isSpace text body →
    newUniqueMessageId msgs t = some (id, t') →
    (dtg = none → time = E.now) → (∀ w ∈ dtg, E.dtgParse (w.map U.toUpper) = .ok time) →
    parseRadiogram U E msgs radiogram t = some (.ok ⟨id, names.map (fun n => n.map U.toUpper), sender.map U.toUpper, time, Sl.nil, body, [],
      E.unbreak radiogram⟩, t')

/-- C102, what holds: as listed, if the text has no word DE and does not begin as if with instruction and count of the short form (up to four
letters, up to four digits and an equal sign). -/
theorem C102_partial {U : Unicode} (hU : U.Lawful) {E : RadioEnv} {msgs : List Msg} {radiogram : Runes} {t t' : Tape} {id : Runes}
    {names : List Runes} {sender text body : Runes} {dtg : Option Runes}
    (h : MiniForm (E.unbreak radiogram) names sender dtg text) (hb : Closed U.isSpace text body)
    (hde : ¬ ∃ a c, DeWord text a c) (hcount : ¬ LooksCounted text) (hid : newUniqueMessageId msgs t = some (id, t')) :
    (∀ time, (dtg = none → time = E.now) → (∀ w ∈ dtg, E.dtgParse (w.map U.toUpper) = .ok time) →
      parseRadiogram U E msgs radiogram t = some (.ok ⟨id, names.map (fun n => n.map U.toUpper), sender.map U.toUpper, time, Sl.nil, body, [],
        E.unbreak radiogram⟩, t')) ∧
    (∀ w ∈ dtg, ∀ e, E.dtgParse (w.map U.toUpper) = .err e → parseRadiogram U E msgs radiogram t = some (.err e, t')) := by
  obtain ⟨caps, hf, h1, h2, h3, h4⟩ := mini_match hU h hde hcount hb.line
  obtain ⟨pre, _, hh⟩ := h.form
  obtain ⟨w1, w2⟩ := heading_words hh
  refine read_groups hU hf h1 h2 h3 ?_ w1 w2 hb hid
  rw [h4]
  cases text with
  | nil => rfl
  | cons c cs =>
    refine (List.dropWhile_cons_of_neg ?_).symm
    intro hc
    exact (h.start c (by simp)).1 ((reSpace_iff c).1 hc)

theorem exHeading_mini : Heading (lit "DE A" ++ [32]) [] (lit "A") none := by
  refine ⟨⟨[], lit "DE A" ++ [32], lit "DE", (List.nil_append _).symm, by simp, ⟨68, 69, by decide, by decide, by decide⟩, ?_⟩, ?_, by simp⟩
  · have h : Laid [lit "DE", lit "A"] ([lit "DE", lit "A"].flatMap (fun w => w ++ [32])) := laid_spaced (by decide +kernel)
    have e : [lit "DE", lit "A"].flatMap (fun w => w ++ [32]) = lit "DE A" ++ [32] := by decide +kernel
    rw [e] at h
    exact h
  · have : ∀ w ∈ [] ++ [lit "A"], w.length ≠ 2 := by decide +kernel
    rintro w hw ⟨d, e, rfl, hd, he⟩
    exact this _ hw rfl

theorem exMini {s text : Runes} (hs : s = lit "DE A" ++ 32 :: text) (h1 : ∀ c ∈ text.head?, ¬ Blank c ∧ c ≠ 61 ∧ ¬ (48 ≤ c ∧ c ≤ 57)) :
    MiniForm s [] (lit "A") none text := by
  refine ⟨⟨_, hs, exHeading_mini⟩, fun c hc => ⟨(h1 c hc).1, (h1 c hc).2.1⟩, ?_⟩
  rintro - ⟨six, rest, rfl, h6, hd⟩
  cases six with
  | nil => simp at h6
  | cons c six => exact (h1 c (by simp)).2.2 (hd c (by simp))

/-- C102 fails in two ways.  `DE A OK = K`: the text OK is taken for an instruction, and the stored text is K.  `DE A I AM DE B OK`: the sender is
taken to be B, and all the words before are taken for recipients. -/
theorem C102_violated : ¬ C102_Statement ∧
    (parseRadiogram unicode15 exRadio [] (lit "DE A OK = K") exIdTape).map Prod.fst =
      some (.ok ⟨lit "AAAA", [], lit "A", exRadio.now, Sl.nil, lit "K", [], lit "DE A OK = K"⟩) ∧
    (parseRadiogram unicode15 exRadio [] (lit "DE A I AM DE B OK") exIdTape).map Prod.fst =
      some (.ok ⟨lit "AAAA", [lit "DE", lit "A", lit "I", lit "AM"], lit "B", exRadio.now, Sl.nil, lit "OK", [], lit "DE A I AM DE B OK"⟩) := by
  have hrun : parseRadiogram unicode15 exRadio [] (lit "DE A OK = K") exIdTape =
      some (.ok ⟨lit "AAAA", [], lit "A", exRadio.now, Sl.nil, lit "K", [], lit "DE A OK = K"⟩, []) := by decide +kernel
  refine ⟨?_, by rw [hrun]; rfl, by decide +kernel⟩
  intro h
  have := h unicode15 unicode15_lawful exRadio [] (lit "DE A OK = K") exIdTape [] (lit "AAAA") [] (lit "A") (lit "OK = K") (lit "OK") none exRadio.now
    (exMini (by decide) (by decide)) ⟨⟨[], lit " = K", by decide, by simp, .inl (.equalOver (g := [32]) (g1 := [32]) (g2 := []) (by decide) (.inl rfl))⟩,
      by decide, by decide, by decide, by decide⟩ (by decide) (by simp) (by simp)
  rw [hrun] at this
  exact absurd this (by decide +kernel)

/-- Not vacuous: the documented example. -/
example : ∃ text, MiniForm (lit "DE A This is the shortest form.") [] (lit "A") none text ∧ Closed unicode15.isSpace text (lit "This is the shortest form.") ∧
    (¬ ∃ a c, DeWord text a c) ∧ ¬ LooksCounted text := by
  refine ⟨lit "This is the shortest form.", exMini (by decide) (by decide), ⟨⟨[], [], by decide, by simp, .inr ⟨by simp, ?_⟩⟩, by decide, by decide, by decide, by decide⟩, ?_, ?_⟩
  · rintro ⟨x, y, e, hm⟩
    have hl := congrArg List.getLast? e
    rw [List.getLast?_append] at hl
    have hy : ∀ l, y = l → l.getLast? = some 46 := by
      rintro l rfl
      have : (lit "This is the shortest form.").getLast? = some 46 := by decide
      rw [this] at hl
      cases hg : y.getLast? with
      | none =>
        have := mark_seen hm
        rw [List.getLast?_eq_none_iff.1 hg] at this
        exact absurd this not_seen_nil
      | some c =>
        rw [hg] at hl
        simpa using hl.symm
    have hs := mark_seen hm
    have hi : (inked y).getLast? = some 46 := by
      obtain ⟨y', ey⟩ := List.getLast?_eq_some_iff.1 (hy y rfl)
      rw [ey, inked_append, inked_cons (by decide)]
      simp [inked]
    rcases hs with ⟨k, hk, h⟩ | ⟨a, r, h⟩ | ⟨a, r, hr, h⟩
    · rcases h with h | h <;> rw [h] at hi <;> simp [OverSign, kelvin] at hi hk <;> omega
    · rw [h] at hi
      simp at hi
    · rw [h] at hi
      simp at hi
      omega
  · rintro ⟨a, c, d, e, hs, hd, he, _⟩
    have h0 : ∀ (l : Runes) (n : Nat), (∀ k : Fin l.length, ¬ ((l[k.val]? = some (68 : Int) ∨ l[k.val]? = some (100 : Int)))) →
        (l[n]? = some (68 : Int) ∨ l[n]? = some (100 : Int)) → False := by
      intro l n hl hn
      have hlt : n < l.length := by
        rcases hn with hn | hn <;> (rw [List.getElem?_eq_some_iff] at hn; exact hn.1)
      exact hl ⟨n, hlt⟩ hn
    refine h0 (lit "This is the shortest form.") a.length (by decide) ?_
    rw [hs]
    simpa using hd
  · rintro ⟨i, g, n, g2, r, e, _⟩
    have : (61 : Int) ∉ lit "This is the shortest form." := by decide
    exact this (by rw [e]; simp)

end K431
