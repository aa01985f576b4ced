import Verif.RadioMatch
import Verif.BasicLemmas

/-!
# Properties of radiogram parsing: C50, C51
-/

namespace K431
open Spec

/-- What C50 asks of a parsed radiogram. -/
structure FieldsOk (U : Unicode) (m : Msg) : Prop where
  sender : m.from_ ≠ [] ∧ ∀ c ∈ m.from_, CapitalCallChar c
  recipients : ∀ w ∈ m.recipients, w ≠ [] ∧ ∀ c ∈ w, CapitalCallChar c
  noKey : m.keyId.val = []
  noCipherText : m.cipherText = []
  text : ∀ c ∈ m.plainText.getLast?, U.isSpace c = false ∧ c ≠ 43 ∧ c ≠ 61

/-- C50 as listed. -/
def C50_Statement : Prop :=
  ∀ (U : Unicode), U.Lawful → ∀ (E : RadioEnv) (msgs : List Msg) (radiogram : Runes) (t t' : Tape) (m : Msg),
    parseRadiogram U E msgs radiogram t = some (.ok m, t') → FieldsOk U m

/-- surroundings for examples: no line breaks to replace -/
def exRadio : RadioEnv := ⟨id, fun _ => .ok 7, 0⟩
/-- words giving message id AAAA -/
def exIdTape : Tape := [0, 0, 0, 0]

/-- parse an example -/
def exParse (s : String) : Option (Outcome Msg) := (parseRadiogram unicode15 exRadio [] (lit s) exIdTape).map Prod.fst

/-- C50 fails: a tab does not separate recipients, and the Kelvin sign passes as a letter. -/
theorem C50_violated : ¬ C50_Statement ∧
    (∃ m, exParse "A\tB DE C X" = some (.ok m) ∧ m.recipients = [lit "A\tB"]) ∧
    (∃ m, exParse "A DE \u212A X" = some (.ok m) ∧ m.from_ = [kelvin]) := by
  refine ⟨?_, ⟨⟨lit "AAAA", [lit "A\tB"], lit "C", 0, Sl.nil, lit "X", [], lit "A\tB DE C X"⟩, by decide +kernel, by decide⟩,
    ⟨⟨lit "AAAA", [lit "A"], [kelvin], 0, Sl.nil, lit "X", [], lit "A DE \u212A X"⟩, by decide +kernel, by decide⟩⟩
  intro h
  have h1 := (h unicode15 unicode15_lawful exRadio [] (lit "A\tB DE C X") exIdTape []
    ⟨lit "AAAA", [lit "A\tB"], lit "C", 0, Sl.nil, lit "X", [], lit "A\tB DE C X"⟩ (by decide +kernel)).recipients
    (lit "A\tB") (by decide)
  exact absurd h1 (by decide)

/-- C50, what holds: the sender is never empty and consists of capital letters, digits, `/` or Kelvin signs; recipients are not
empty, and may in addition contain tabs, form feeds and line ends; the rest is as listed.  If the
radiogram has none of these characters, everything is as listed. -/
theorem C50_partial {U : Unicode} (hU : U.Lawful) {E : RadioEnv} {msgs : List Msg} {radiogram : Runes} {t t' : Tape} {m : Msg}
    (h : parseRadiogram U E msgs radiogram t = some (.ok m, t')) :
    (m.from_ ≠ [] ∧ ∀ c ∈ m.from_, CapitalCallChar c ∨ c = kelvin) ∧
    (∀ w ∈ m.recipients, w ≠ [] ∧ ∀ c ∈ w, CapitalCallChar c ∨ c = kelvin ∨ (Blank c ∧ c ≠ 32)) ∧
    (m.keyId.val = [] ∧ m.cipherText = []) ∧
    (∀ c ∈ m.plainText.getLast?, U.isSpace c = false ∧ c ≠ 43 ∧ c ≠ 61) ∧
    ((∀ c ∈ E.unbreak radiogram, c ≠ kelvin ∧ (Blank c → c = 32)) → FieldsOk U m) := by
  obtain ⟨caps, hf, _, hrec, hfrom, hk, hc, _, hp⟩ := parse_ok h
  obtain ⟨pre, s', g1, ws, d, e, ws2, call, rest, hs, hm, _, h1, h2⟩ := match_groups hf
  have htrim : trimSpace U call = call := trimSpace_letters (fun c hc => (call_up hU (hm.calls c hc)).1)
  have hfrom' : m.from_ = call.map U.toUpper := by rw [hfrom, h2, htrim]; rfl
  have hne : m.from_ ≠ [] := by rw [hfrom']; simpa using hm.some
  have hmem1 : ∀ c ∈ g1, c ∈ E.unbreak radiogram := by
    intro c hc; rw [hs, hm.text]; simp [hc]
  have hmem2 : ∀ c ∈ call, c ∈ E.unbreak radiogram := by
    intro c hc; rw [hs, hm.text]; simp [hc]
  have hcall : ∀ c ∈ m.from_, CapitalCallChar c ∨ (c = kelvin ∧ kelvin ∈ call) := by
    intro c hc
    rw [hfrom'] at hc
    obtain ⟨d, hd, rfl⟩ := List.mem_map.1 hc
    rcases (reCall_iff d).1 (hm.calls d hd) with h | h | h
    · rcases (call_up hU (hm.calls d hd)).2 with h3 | h3
      · exact .inl h3
      · exfalso
        have : ∀ c, CallChar c → c ≠ kelvin := by intro c hc e; subst e; revert hc; decide
        -- the upper case of a call character is never the Kelvin sign
        have hx := call_plain hU h
        rw [h3] at hx
        exact absurd hx (by decide)
    · subst h
      rw [hU.longS.2.2]
      exact .inl (by decide)
    · subst h
      exact .inr ⟨hU.kelvin.2, hd⟩
  have hrecs : ∀ w ∈ m.recipients, w ≠ [] ∧ ∀ c ∈ w, CapitalCallChar c ∨ (c = kelvin ∧ kelvin ∈ g1) ∨
      (Blank c ∧ c ≠ 32 ∧ c ∈ g1) := by
    intro w hw
    rw [hrec, h1] at hw
    obtain ⟨hw0, _, _, hsep⟩ := vetted_mem hU hw
    refine ⟨hw0, ?_⟩
    intro c hc
    obtain ⟨a, ha, d, hd, rfl⟩ := vetted_rune hw c hc
    rw [List.mem_singleton] at ha
    subst ha
    have hns := hsep _ hc
    rcases (reCalls_iff d).1 (hm.list d hd) with (h | h | h) | h | h
    · exact .inl (call_plain hU h)
    · exfalso
      subst h
      rw [(hU.neutral 44 (by decide)).2.2.1] at hns
      exact absurd hns (by decide)
    · have hup : U.toUpper d = d := by
        apply hU.toUpper_blank
        simp only [Blank] at h
        simp; omega
      rw [hup] at hns ⊢
      refine .inr (.inr ⟨h, ?_, hd⟩)
      intro e
      subst e
      exact absurd hns (by decide)
    · subst h
      rw [hU.longS.2.2]
      exact .inl (by decide)
    · subst h
      exact .inr (.inl ⟨hU.kelvin.2, hd⟩)
  have htext : ∀ c ∈ m.plainText.getLast?, U.isSpace c = false ∧ c ≠ 43 ∧ c ≠ 61 := by
    intro c hc
    rw [hp] at hc
    unfold trimRight at hc
    rw [List.getLast?_reverse] at hc
    have := dropWhile_stops _ c hc
    simp only [Bool.or_eq_false_iff, beq_eq_false_iff_ne] at this
    exact ⟨this.1.1, this.1.2, this.2⟩
  refine ⟨⟨hne, ?_⟩, ?_, ⟨by rw [hk]; rfl, hc⟩, htext, ?_⟩
  · intro c hc
    rcases hcall c hc with h | h
    · exact .inl h
    · exact .inr h.1
  · intro w hw
    refine ⟨(hrecs w hw).1, ?_⟩
    intro c hc
    rcases (hrecs w hw).2 c hc with h | h | h
    · exact .inl h
    · exact .inr (.inl h.1)
    · exact .inr (.inr ⟨h.1, h.2.1⟩)
  · intro hclean
    refine ⟨⟨hne, ?_⟩, ?_, by rw [hk]; rfl, hc, htext⟩
    · intro c hc
      rcases hcall c hc with h | h
      · exact h
      · exact absurd rfl (hclean kelvin (hmem2 _ h.2)).1
    · intro w hw
      refine ⟨(hrecs w hw).1, ?_⟩
      intro c hc
      rcases (hrecs w hw).2 c hc with h | h | h
      · exact h
      · exact absurd rfl (hclean kelvin (hmem1 _ h.2)).1
      · exact absurd ((hclean c (hmem1 _ h.2.2)).2 h.1) h.2.1

/-- Not vacuous: a plain radiogram is parsed. -/
example : exParse "aa bb de cc = hello =" =
    some (.ok ⟨lit "AAAA", [lit "AA", lit "BB"], lit "CC", 0, Sl.nil, lit "hello", [], lit "aa bb de cc = hello ="⟩) := by
  decide +kernel

/-- C51 as listed: the first word DE decides. -/
def C51_Statement : Prop :=
  ∀ (U : Unicode), U.Lawful → ∀ (E : RadioEnv) (msgs : List Msg) (radiogram : Runes) (t t' : Tape) (m : Msg)
    (a blanks call rest : Runes), Addressed (E.unbreak radiogram) a blanks call rest →
    (∀ a' c', DeWord (E.unbreak radiogram) a' c' → a.length ≤ a'.length) →
    parseRadiogram U E msgs radiogram t = some (.ok m, t') →
    m.from_ = call.map U.toUpper ∧ m.recipients = vettedKeepers U [a]

/-- the example `A DE B X DE C` -/
def exTwice : Runes := lit "A DE B X DE C"

/-- C51 fails: a text with the word DE moves sender and recipients. -/
theorem C51_violated : ¬ C51_Statement ∧
    (∃ m, exParse "A DE B X DE C" = some (.ok m) ∧ m.from_ = lit "C" ∧ m.recipients = [lit "A", lit "DE", lit "B", lit "X"]) := by
  refine ⟨?_, ⟨⟨lit "AAAA", [lit "A", lit "DE", lit "B", lit "X"], lit "C", 0, Sl.nil, [], [], exTwice⟩, by decide +kernel, by decide,
    by decide⟩⟩
  intro h
  have h1 := (h unicode15 unicode15_lawful exRadio [] exTwice exIdTape []
    ⟨lit "AAAA", [lit "A", lit "DE", lit "B", lit "X"], lit "C", 0, Sl.nil, [], [], exTwice⟩
    (lit "A ") (lit " ") (lit "B") (lit " X DE C")
    ⟨⟨68, 69, by decide, by decide, by decide, by decide, 32, by decide, by decide⟩, by decide, by decide, by decide, by decide,
      by decide, by decide⟩ ?_ (by decide +kernel)).1
  · exact absurd h1 (by decide)
  · rintro a' c' ⟨d, e, hs, hd, _, _, _⟩
    have hl : (lit "A ").length = 2 := by decide
    rw [hl]
    cases a' with
    | nil =>
      simp only [exRadio, id, List.nil_append] at hs
      have : exTwice.head? = some d := by rw [hs]; rfl
      have h2 : exTwice.head? = some 65 := by decide
      rw [h2] at this
      cases this
      omega
    | cons x xs =>
      cases xs with
      | nil =>
        simp only [exRadio, id, List.cons_append, List.nil_append] at hs
        have : exTwice[1]? = some d := by rw [hs]; rfl
        have h2 : exTwice[1]? = some 32 := by decide
        rw [h2] at this
        cases this
        omega
      | cons y ys => simp

/-- C51, what holds: sender and recipients are those at the first DE if the radiogram has no other word DE; or if it has the form
`TO DE FROM = TEXT`, contains no two adjacent `=`, and no other word DE follows characters of call-sign lists only (which is so if
neither TO nor FROM contains it; TEXT may say DE). -/
theorem C51_partial {U : Unicode} (hU : U.Lawful) {E : RadioEnv} {msgs : List Msg} {radiogram : Runes} {t t' : Tape} {m : Msg}
    {a blanks call rest : Runes} (ha : Addressed (E.unbreak radiogram) a blanks call rest)
    (h : parseRadiogram U E msgs radiogram t = some (.ok m, t'))
    (hde : (∀ a' c', DeWord (E.unbreak radiogram) a' c' → a' = a) ∨
      ((∃ gap text, rest = gap ++ 61 :: text ∧ ∀ c ∈ gap, Blank c) ∧ (¬ ∃ x y, E.unbreak radiogram = x ++ 61 :: 61 :: y) ∧
        ∀ a' c', DeWord (E.unbreak radiogram) a' c' → (∀ x ∈ a', ListChar x ∨ FoldsToLetter x) → a' = a)) :
    m.from_ = call.map U.toUpper ∧ m.recipients = vettedKeepers U [a] ∧
    ∀ names : List Runes, (∀ n ∈ names, n ≠ [] ∧ ∀ c ∈ n, CallChar c) → a = names.flatMap (fun n => n ++ [32]) →
      m.recipients = names.map (fun n => n.map U.toUpper) := by
  obtain ⟨caps, hf, _, hrec, hfrom, _⟩ := parse_ok h
  have key : capture caps 2 = call ∧ vettedKeepers U [capture caps 1] = vettedKeepers U [a] := by
    rcases hde with hde | ⟨⟨gap, text, rfl, hgap⟩, hs, hu⟩
    · exact firstMatch_addressed hU hf ha hde
    · exact firstMatch_short hU hf ha hgap hs hu
  have htrim : trimSpace U call = call :=
    trimSpace_letters (fun c hc => (call_up hU ((reCall_iff c).2 (.inl (ha.allCall c hc)))).1)
  refine ⟨by rw [hfrom, key.1, htrim]; rfl, by rw [hrec, key.2], ?_⟩
  intro names hn e
  rw [hrec, key.2, e]
  exact vetted_names hU names hn

/-- C51 for the documented short form `TO DE FROM = TEXT`, whatever the text says: it may contain the word DE, but not two adjacent
`=` (and not begin with `=`).  Neither the recipients nor the sender may be called DE. -/
theorem C51_text_partial {U : Unicode} (hU : U.Lawful) {E : RadioEnv} {msgs : List Msg} {radiogram : Runes} {t t' : Tape} {m : Msg}
    {names : List Runes} {sender text : Runes}
    (hn : ∀ n ∈ names ++ [sender], (n ≠ [] ∧ ∀ c ∈ n, CallChar c) ∧ ¬ IsDe n)
    (hr : E.unbreak radiogram = names.flatMap (fun n => n ++ [32]) ++ lit "DE " ++ sender ++ lit " =" ++ text)
    (h1 : ∀ c ∈ text.head?, c ≠ 61) (h2 : ¬ ∃ x y, text = x ++ 61 :: 61 :: y)
    (h : parseRadiogram U E msgs radiogram t = some (.ok m, t')) :
    m.from_ = sender.map U.toUpper ∧ m.recipients = names.map (fun n => n.map U.toUpper) := by
  have hde : lit "DE " = [68, 69, 32] := by decide
  have heq : lit " =" = [32, 61] := by decide
  have hlist : ∀ x ∈ names.flatMap (fun n => n ++ [32]), ListChar x := by
    intro x hx
    obtain ⟨n, hn', hx⟩ := List.mem_flatMap.1 hx
    rcases List.mem_append.1 hx with hx | hx
    · exact .inl ((hn n (by simp [hn'])).1.2 x hx)
    · rw [List.mem_singleton.1 hx]; decide
  have hs := (hn sender (by simp)).1
  have ha : Addressed (E.unbreak radiogram) (names.flatMap (fun n => n ++ [32])) [32] sender ([32] ++ 61 :: text) := by
    refine ⟨⟨68, 69, by rw [hr, hde, heq]; simp, .inl rfl, .inl rfl, ?_, 32, by simp, by decide⟩, hlist, by decide, by decide, hs.2, hs.1,
      ?_⟩
    · intro x hx
      rcases List.eq_nil_or_concat names with e | ⟨l, n, e⟩
      · subst e; simp at hx
      · subst e
        simp at hx
        subst hx
        decide
    · intro x hx
      simp at hx
      subst hx
      decide
  have hdd : ¬ ∃ x y, E.unbreak radiogram = x ++ 61 :: 61 :: y := by
    have e : E.unbreak radiogram = (names.flatMap (fun n => n ++ [32]) ++ [68, 69, 32] ++ sender ++ [32]) ++ 61 :: text := by
      rw [hr, hde, heq]; simp
    rw [e]
    refine no_double_eq ?_ h1 h2
    intro hm
    simp only [List.mem_append] at hm
    rcases hm with ((hm | hm) | hm) | hm
    · exact absurd (hlist _ hm) (by decide)
    · exact absurd hm (by decide)
    · exact callChar_not_eq (hs.2 _ hm) rfl
    · exact absurd hm (by decide)
  have := C51_partial hU ha h (.inr ⟨⟨[32], text, rfl, by decide⟩, hdd, fun a' c' hd hl => text_unique hn (by rw [← hr]; exact hd) hl⟩)
  exact ⟨this.1, this.2.2 names (fun n hn' => (hn n (by simp [hn'])).1) rfl⟩

/-- Addressed radiograms are never refused as unparsable. -/
theorem C51_parses {U : Unicode} {E : RadioEnv} {msgs : List Msg} {radiogram : Runes} {t t' : Tape} {id : Runes}
    {a blanks call rest : Runes} (ha : Addressed (E.unbreak radiogram) a blanks call rest)
    (hid : newUniqueMessageId msgs t = some (id, t')) (hdtg : ∀ d, (E.dtgParse d).isOk = true) :
    ∃ m, parseRadiogram U E msgs radiogram t = some (.ok m, t') := by
  obtain ⟨caps, hf⟩ := firstMatch_exists ha
  unfold parseRadiogram
  simp only [hid, hf]
  have : ∃ d, (if (toUpperStr U (trimSpace U (capture caps 3))).length = 0 then Outcome.ok E.now
        else E.dtgParse (toUpperStr U (trimSpace U (capture caps 3)))) = .ok d := by
    split
    · exact ⟨_, rfl⟩
    · have h1 := hdtg (toUpperStr U (trimSpace U (capture caps 3)))
      generalize E.dtgParse (toUpperStr U (trimSpace U (capture caps 3))) = o at h1
      cases o with
      | ok d => exact ⟨d, rfl⟩
      | err e => cases h1
      | panic => cases h1
  obtain ⟨d, hd⟩ := this
  rw [hd]
  exact ⟨_, rfl⟩

/-- Not vacuous: the text may say DE after an equal sign. -/
example : (∃ m, exParse "A DE B = X DE C" = some (.ok m) ∧ m.from_ = lit "B" ∧ m.recipients = [lit "A"]) :=
  ⟨⟨lit "AAAA", [lit "A"], lit "B", 0, Sl.nil, lit "X DE C", [], lit "A DE B = X DE C"⟩, by decide +kernel, by decide, by decide⟩

end K431
