import Verif.RadioLemmas

/-! # Helper lemmas: the four radiogram expressions -/

namespace K431
open Spec

theorem call_up {U : Unicode} (hU : U.Lawful) {c : Rune} (h : reCall c = true) :
    U.isSpace c = false ∧ (CapitalCallChar (U.toUpper c) ∨ U.toUpper c = kelvin) := by
  have hl : ∀ d ∈ alphabet, d ≠ 32 → U.isSpace d = false := hU.isSpace_legend
  rw [reCall_iff] at h
  rcases h with (h | h | h | h) | h | h
  · have hm : c ∈ capitals := by
      have : ∀ n : Fin 26, (65 + (n.val : Int)) ∈ capitals := by decide
      have := this ⟨(c - 65).toNat, by omega⟩
      simp only at this
      rwa [show (65 + (((c - 65).toNat : Nat) : Int)) = c from by omega] at this
    refine ⟨hl c (by unfold alphabet; simp [hm]) (by omega), .inl (.inl ?_)⟩
    rw [(hU.capital c hm).2.2.1]; exact h
  · have hm : c ∈ smalls := by
      have : ∀ n : Fin 26, (97 + (n.val : Int)) ∈ smalls := by decide
      have := this ⟨(c - 97).toNat, by omega⟩
      simp only at this
      rwa [show (97 + (((c - 97).toNat : Nat) : Int)) = c from by omega] at this
    refine ⟨hl c (by unfold alphabet; simp [hm]) (by omega), .inl (.inl ?_)⟩
    rw [(hU.small c hm).2.2.1]; omega
  · have hm : c ∈ neutrals := by
      have : ∀ n : Fin 10, (48 + (n.val : Int)) ∈ neutrals := by decide
      have := this ⟨(c - 48).toNat, by omega⟩
      simp only at this
      rwa [show (48 + (((c - 48).toNat : Nat) : Int)) = c from by omega] at this
    refine ⟨hl c (by unfold alphabet; simp [hm]) (by omega), .inl (.inr (.inl ?_))⟩
    rw [(hU.neutral c hm).2.2.1]; exact h
  · subst h
    have hm : (47 : Int) ∈ neutrals := by decide
    refine ⟨hl 47 (by decide) (by decide), .inl (.inr (.inr ?_))⟩
    rw [(hU.neutral 47 hm).2.2.1]
  · subst h
    refine ⟨?_, .inl (.inl ?_)⟩
    · rw [← hU.isSpace_toUpper, hU.longS.2.2]; exact hl 83 (by decide) (by decide)
    · rw [hU.longS.2.2]; decide
  · subst h
    exact ⟨hU.kelvin.1, .inr hU.kelvin.2⟩

theorem eq_not_call : reCall 61 = false := by decide

/-- optional parts consisting of call characters or of blanks only -/
def SkipPart (r : Re) : Prop := r.Nullable ∧ (r.Only reCall ∨ r.Only reSpace)

theorem seqs_append_nullable : ∀ (l : List Re) (m : List Re), m ≠ [] → (∀ r ∈ l, Re.Nullable r) → ∀ {b b' : Bool} {s s' : Runes},
    (Re.seqs m).Can b s b' s' → (Re.seqs (l ++ m)).Can b s b' s' := by
  intro l
  induction l with
  | nil => intro m _ _ b b' s s' h; exact h
  | cons a as ih =>
    intro m hm hl b b' s s' h
    rw [List.cons_append, Re.can_seqs_cons (by simp [hm])]
    exact ⟨b, s, hl a (by simp) b s, ih m hm (fun r hr => hl r (by simp [hr])) h⟩

theorem absorb_list : ∀ (l : List Re) (m : List Re), (∀ r ∈ l, SkipPart r) →
    ∀ y rest b, (∀ c ∈ y, reCall c = true) → (∀ c ∈ rest.head?, reCall c = false) →
    (∃ b' s', (Re.seqs (l ++ .cls reEq :: m)).Can b (y ++ rest) b' s') →
    ∃ b2 b' s', (Re.seqs (l ++ .cls reEq :: m)).Can b2 rest b' s' := by
  intro l
  induction l with
  | nil =>
    intro m _ y rest b hy hr
    rintro ⟨b', s', h⟩
    cases y with
    | nil => exact ⟨b, b', s', h⟩
    | cons c cs =>
      exfalso
      have hc : ∃ b1 s1, (Re.cls reEq).Can b (c :: (cs ++ rest)) b1 s1 := by
        cases m with
        | nil => exact ⟨_, _, h⟩
        | cons x xs => obtain ⟨b1, s1, h1, _⟩ := h; exact ⟨b1, s1, h1⟩
      obtain ⟨b1, s1, _, c', e, he⟩ := hc
      cases e
      have h1 := hy c (by simp)
      have : c = 61 := by simpa [reEq] using he
      rw [this, eq_not_call] at h1
      cases h1
  | cons a as ih =>
    intro m hl y rest b hy hr
    rintro ⟨b', s', h⟩
    have hne : as ++ Re.cls reEq :: m ≠ [] := by simp
    rw [List.cons_append, Re.can_seqs_cons hne] at h
    obtain ⟨b1, s1, h1, h2⟩ := h
    obtain ⟨hn, ho⟩ := hl a (by simp)
    obtain ⟨w, ew, hb1⟩ := h1.suffix
    have key : ∃ y', s1 = y' ++ rest ∧ (∀ c ∈ y', reCall c = true) ∨ y = [] := by
      by_cases hy0 : y = []
      · exact ⟨[], .inr hy0⟩
      · rw [ew] at h1
        cases w with
        | nil => exact ⟨y, .inl ⟨by simpa using ew.symm, hy⟩⟩
        | cons c cs =>
          have hcy : reCall c = true := by
            cases y with
            | nil => exact absurd rfl hy0
            | cons d ds =>
              simp only [List.cons_append, List.cons.injEq] at ew
              rw [← ew.1]; exact hy d (by simp)
          rcases ho with ho | ho
          · have hw := ho _ _ _ _ h1
            -- the part lies within `y`
            have : y ++ rest = (c :: cs) ++ s1 := ew
            rcases List.append_eq_append_iff.1 this with ⟨z, ez, er⟩ | ⟨z, ez, er⟩
            · cases z with
              | nil =>
                refine ⟨[], .inl ⟨by simpa using er.symm, by simp⟩⟩
              | cons q qs =>
                exfalso
                have hq1 : reCall q = false := hr q (by rw [er]; simp)
                have hq2 : reCall q = true := hw q (by rw [ez]; simp)
                rw [hq1] at hq2; cases hq2
            · exact ⟨z, .inl ⟨er, fun x hx => hy x (by rw [ez]; simp [hx])⟩⟩
          · have := ho _ _ _ _ h1 c (by simp)
            rw [call_not_space hcy] at this
            cases this
    obtain ⟨y', ⟨rfl, hy'⟩ | hy0⟩ := key
    · obtain ⟨b2, b3, s3, h3⟩ := ih m (fun r hr => hl r (by simp [hr])) y' rest b1 hy' hr ⟨b', s', h2⟩
      refine ⟨b2, b3, s3, ?_⟩
      rw [List.cons_append, Re.can_seqs_cons hne]
      exact ⟨b2, rest, hn b2 rest, h3⟩
    · subst hy0
      refine ⟨b, b', s', ?_⟩
      rw [List.cons_append, Re.can_seqs_cons hne]
      exact ⟨b1, s1, h1, h2⟩

/-- without `^` it does not matter whether we are at the beginning -/
def Re.NoBot : Re → Prop
  | .seq x y => x.NoBot ∧ y.NoBot
  | .alt x y => x.NoBot ∧ y.NoBot
  | .opt x => x.NoBot
  | .cap _ x => x.NoBot
  | .bot => False
  | _ => True

theorem Re.NoBot.can {r : Re} (h : r.NoBot) : ∀ {b b2 b' : Bool} {s s' : Runes}, r.Can b s b' s' → ∃ b3, r.Can b2 s b3 s' := by
  induction r with
  | eps => rintro b b2 b' s s' ⟨_, rfl⟩; exact ⟨b2, rfl, rfl⟩
  | cls p => rintro b b2 b' s s' ⟨_, h2⟩; exact ⟨false, rfl, h2⟩
  | seq x y ihx ihy =>
    rintro b b2 b' s s' ⟨b1, s1, hx, hy⟩
    obtain ⟨b3, hx'⟩ := ihx h.1 (b2 := b2) hx
    obtain ⟨b4, hy'⟩ := ihy h.2 (b2 := b3) hy
    exact ⟨b4, b3, s1, hx', hy'⟩
  | alt x y ihx ihy =>
    rintro b b2 b' s s' (hx | hx)
    · obtain ⟨b3, h3⟩ := ihx h.1 (b2 := b2) hx; exact ⟨b3, .inl h3⟩
    · obtain ⟨b3, h3⟩ := ihy h.2 (b2 := b2) hx; exact ⟨b3, .inr h3⟩
  | star p =>
    intro b b2 b' s s' hx
    obtain ⟨w, rfl, hw, _⟩ := mem_starRun hx
    exact ⟨_, starRun_all w s' b2 hw⟩
  | opt x ih =>
    rintro b b2 b' s s' (hx | ⟨_, rfl⟩)
    · obtain ⟨b3, h3⟩ := ih h (b2 := b2) hx; exact ⟨b3, .inl h3⟩
    · exact ⟨b2, .inr ⟨rfl, rfl⟩⟩
  | cap i x ih => intro b b2 b' s s' hx; exact ih h (b2 := b2) hx
  | bot => exact h.elim
  | eot => rintro b b2 b' s s' ⟨h1, _, rfl⟩; exact ⟨b2, h1, rfl, rfl⟩

theorem absorbs_of_list {l m : List Re} (hl : ∀ r ∈ l, SkipPart r) (hn : (Re.seqs (l ++ .cls reEq :: m)).NoBot) :
    (Re.seqs (l ++ .cls reEq :: m)).Absorbs := by
  intro y rest hy hr h
  obtain ⟨b2, b', s', h2⟩ := absorb_list l m hl y rest false hy hr h
  obtain ⟨b3, h3⟩ := hn.can (b2 := false) h2
  exact ⟨b3, s', h3⟩

theorem blanks_skip : SkipPart reBlanks := ⟨Re.nullable_star _, .inr (Re.only_star _)⟩

theorem digit_call (c : Rune) (h : reDigit c = true) : reCall c = true := by simp [reCall, h]
theorem letter_call (c : Rune) (h : reLetter c = true) : reCall c = true := by simp [reCall, h]
theorem lit_call {u : Rune} (hu : 65 ≤ u ∧ u ≤ 90) (c : Rune) (h : reLit u c = true) : reCall c = true := by
  apply letter_call
  simp [reLit] at h
  simp [reLetter]
  omega

theorem only_seqs {p : Rune → Bool} : ∀ l : List Re, (∀ r ∈ l, r.Only p) → (Re.seqs l).Only p := by
  intro l
  induction l with
  | nil => intro _; exact Re.only_eps p
  | cons a as ih =>
    intro h
    cases as with
    | nil => exact h a (by simp)
    | cons x xs => exact (h a (by simp)).seq (ih (fun r hr => h r (by simp [hr])))

theorem only_alts {p : Rune → Bool} : ∀ l : List Re, (∀ r ∈ l, r.Only p) → (Re.alts l).Only p := by
  intro l
  induction l with
  | nil => intro _; exact Re.only_eps p
  | cons a as ih =>
    intro h
    cases as with
    | nil => exact h a (by simp)
    | cons x xs => exact (h a (by simp)).alt (ih (fun r hr => h r (by simp [hr])))

theorem only_times {p : Rune → Bool} {a : Re} (h : a.Only p) : ∀ n, (a.times n).Only p := by
  intro n
  induction n with
  | zero => exact Re.only_eps p
  | succ n ih =>
    cases n with
    | zero => exact h
    | succ k => exact h.seq ih

theorem only_upTo {p : Rune → Bool} {a : Re} (h : a.Only p) : ∀ n, (a.upTo n).Only p := by
  intro n
  induction n with
  | zero => exact Re.only_eps p
  | succ n ih => exact (h.seq ih).opt

theorem word_only (s : String) (h : ∀ u ∈ lit s, 65 ≤ u ∧ u ≤ 90) : (reWord s).Only reCall := by
  apply only_seqs
  intro r hr
  obtain ⟨u, hu, rfl⟩ := List.mem_map.1 hr
  exact (Re.only_cls _).mono (lit_call (h u hu))

theorem dtg_skip : SkipPart reDtg := by
  refine ⟨Re.nullable_opt _, .inl (Re.Only.opt (Re.Only.cap (only_seqs _ ?_)))⟩
  intro r hr
  simp only [List.mem_cons, List.not_mem_nil, or_false] at hr
  rcases hr with rfl | rfl | rfl | rfl
  · exact only_times ((Re.only_cls _).mono digit_call) 6
  · exact ((Re.only_cls _).mono letter_call).opt
  · refine (only_alts _ ?_).opt
    intro r hr
    obtain ⟨s, hs, rfl⟩ := List.mem_map.1 hr
    apply word_only
    clear hr
    revert s
    decide
  · exact (only_times ((Re.only_cls _).mono digit_call) 2).opt

theorem upTo_skip {p : Rune → Bool} (h : ∀ c, p c = true → reCall c = true) (n : Nat) : SkipPart (Re.upTo (.cls p) (n + 1)) :=
  ⟨Re.nullable_opt _, .inl (only_upTo ((Re.only_cls p).mono h) (n + 1))⟩

/-- the parts after group 2 -/
def tailFull : List Re := [reBlanks, reDtg, reBlanks, .cls reEq, .cls reEq, reBlanks, .star reCalls, reBlanks,
  .cls reEq, .cls reEq, reBlanks, .star reWords, reBlanks, .star reDigit, reBlanks, .cls reEq, reBlanks, reText]
def tailSemi : List Re := [reBlanks, reDtg, reBlanks, .cls reEq, .cls reEq, reBlanks, .star reCalls, reBlanks, .star reDigit,
  reBlanks, .cls reEq, reBlanks, reText]
def tailShort : List Re := [reBlanks, reDtg, reBlanks, Re.upTo (.cls reLetter) 4, reBlanks, Re.upTo (.cls reDigit) 4,
  reBlanks, .cls reEq, reBlanks, reText]
def tailMini : List Re := [reBlanks, reDtg, reBlanks, .star reEq, reBlanks, reText]

theorem full_eq : regexpFull = Re.seqs (head5 tailFull) := rfl
theorem semi_eq : regexpSemi = Re.seqs (head5 tailSemi) := rfl
theorem short_eq : regexpShort = Re.seqs (head5 tailShort) := rfl
theorem mini_eq : regexpMini = Re.seqs (head5 tailMini) := rfl

theorem dtg_noBot : reDtg.NoBot := by
  simp [reDtg, Re.seqs, Re.times, Re.alts, reWord, lit, Re.NoBot]

theorem full_absorbs : (Re.seqs tailFull).Absorbs := by
  refine absorbs_of_list (l := [reBlanks, reDtg, reBlanks]) ?_ ?_
  · intro r hr
    simp only [List.mem_cons, List.not_mem_nil, or_false] at hr
    rcases hr with rfl | rfl | rfl
    · exact blanks_skip
    · exact dtg_skip
    · exact blanks_skip
  · have := dtg_noBot
    simp [Re.seqs, Re.NoBot, reBlanks, reText, this]

theorem semi_absorbs : (Re.seqs tailSemi).Absorbs := by
  refine absorbs_of_list (l := [reBlanks, reDtg, reBlanks]) ?_ ?_
  · intro r hr
    simp only [List.mem_cons, List.not_mem_nil, or_false] at hr
    rcases hr with rfl | rfl | rfl
    · exact blanks_skip
    · exact dtg_skip
    · exact blanks_skip
  · have := dtg_noBot
    simp [Re.seqs, Re.NoBot, reBlanks, reText, this]

theorem short_absorbs : (Re.seqs tailShort).Absorbs := by
  refine absorbs_of_list (l := [reBlanks, reDtg, reBlanks, Re.upTo (.cls reLetter) 4, reBlanks, Re.upTo (.cls reDigit) 4,
    reBlanks]) ?_ ?_
  · intro r hr
    simp only [List.mem_cons, List.not_mem_nil, or_false] at hr
    rcases hr with rfl | rfl | rfl | rfl | rfl | rfl | rfl
    · exact blanks_skip
    · exact dtg_skip
    · exact blanks_skip
    · exact upTo_skip letter_call 3
    · exact blanks_skip
    · exact upTo_skip digit_call 3
    · exact blanks_skip
  · have := dtg_noBot
    simp [Re.seqs, Re.NoBot, reBlanks, reText, Re.upTo, this]

theorem mini_nullable : (Re.seqs tailMini).Nullable := by
  intro b s
  refine seqs_append_nullable [reBlanks, reDtg, reBlanks, .star reEq, reBlanks] [reText] (by simp) ?_ ?_
  · intro r hr
    simp only [List.mem_cons, List.not_mem_nil, or_false] at hr
    rcases hr with rfl | rfl | rfl | rfl | rfl
    · exact blanks_skip.1
    · exact dtg_skip.1
    · exact blanks_skip.1
    · exact Re.nullable_star _
    · exact blanks_skip.1
  · exact Re.nullable_star _ b s

theorem mini_absorbs : (Re.seqs tailMini).Absorbs := fun _ rest _ _ _ => ⟨false, rest, mini_nullable false rest⟩

/-- the groups of the parts after group 2 are numbered 3 and 4 -/
def late (i : Nat) (_ : Runes) : Prop := i = 3 ∨ i = 4

theorem dtg_late : reDtg.AllCaps late := by
  simp [reDtg, Re.seqs, Re.times, Re.alts, reWord, lit, Re.AllCaps, late]

theorem full_late : (Re.seqs tailFull).AllCaps late := by
  have := dtg_late
  simp [tailFull, Re.seqs, Re.AllCaps, reBlanks, reText, this]
  simp [late]
theorem semi_late : (Re.seqs tailSemi).AllCaps late := by
  have := dtg_late
  simp [tailSemi, Re.seqs, Re.AllCaps, reBlanks, reText, this]
  simp [late]
theorem short_late : (Re.seqs tailShort).AllCaps late := by
  have := dtg_late
  simp [tailShort, Re.seqs, Re.AllCaps, reBlanks, reText, Re.upTo, this]
  simp [late]
theorem mini_late : (Re.seqs tailMini).AllCaps late := by
  have := dtg_late
  simp [tailMini, Re.seqs, Re.AllCaps, reBlanks, reText, this]
  simp [late]

theorem capture_late {new : List (Nat × Runes)} (h : ∀ q ∈ new, late q.1 q.2) (call g1 : Runes) :
    capture (new ++ [(2, call), (1, g1)]) 1 = g1 ∧ capture (new ++ [(2, call), (1, g1)]) 2 = call := by
  have h1 : new.find? (fun p => p.1 == 1) = none := by
    rw [List.find?_eq_none]
    intro q hq
    rcases h q hq with e | e <;> simp [e]
  have h2 : new.find? (fun p => p.1 == 2) = none := by
    rw [List.find?_eq_none]
    intro q hq
    rcases h q hq with e | e <;> simp [e]
  unfold capture
  constructor
  · rw [List.find?_append, h1]; rfl
  · rw [List.find?_append, h2]; rfl

/-- The match of one of the expressions at a given place. -/
theorem first_caps {tail : List Re} (ht : tail ≠ []) (hab : (Re.seqs tail).Absorbs) (hl : (Re.seqs tail).AllCaps late)
    {b : Bool} {s : Runes} {t : ReSt} (h : ((Re.seqs (head5 tail)).run ⟨b, s, []⟩).head? = some t) :
    ∃ g1 ws d e ws2 call rest, HeadMatch b s g1 ws d e ws2 call rest ∧ (∀ c ∈ rest.head?, reCall c = false) ∧
      capture t.caps 1 = g1 ∧ capture t.caps 2 = call := by
  obtain ⟨g1, ws, d, e, ws2, call, rest, h1, h2, h3⟩ := head5_first ht hab h
  obtain ⟨new, e1, h4⟩ := Re.caps_of_run hl (List.mem_of_mem_head? h3)
  simp only at e1
  refine ⟨g1, ws, d, e, ws2, call, rest, h1, h2, ?_⟩
  rw [e1]
  exact capture_late h4 call g1

/-- The expressions are tried one after the other. -/
def theTails : List (List Re) := [tailFull, tailSemi, tailShort, tailMini]

theorem theTails_ok : ∀ tail ∈ theTails, tail ≠ [] ∧ (Re.seqs tail).Absorbs ∧ (Re.seqs tail).AllCaps late := by
  intro tail h
  simp only [theTails, List.mem_cons, List.not_mem_nil, or_false] at h
  rcases h with rfl | rfl | rfl | rfl
  · exact ⟨by simp [tailFull], full_absorbs, full_late⟩
  · exact ⟨by simp [tailSemi], semi_absorbs, semi_late⟩
  · exact ⟨by simp [tailShort], short_absorbs, short_late⟩
  · exact ⟨by simp [tailMini], mini_absorbs, mini_late⟩

theorem firstMatch_some {s : Runes} {caps : List (Nat × Runes)} : ∀ {l : List (List Re)},
    firstMatch s (l.map (fun x => Re.seqs (head5 x))) = some caps →
    ∃ tail ∈ l, ∃ n t, (Re.seqs (head5 tail)).find s = some (n, t) ∧ t.caps = caps := by
  intro l
  induction l with
  | nil => intro h; cases h
  | cons a as ih =>
    intro h
    simp only [List.map_cons, firstMatch] at h
    rcases hf : (Re.seqs (head5 a)).find s with _ | ⟨n, t⟩
    · rw [hf] at h
      obtain ⟨tail, h1, h2⟩ := ih h
      exact ⟨tail, by simp [h1], h2⟩
    · rw [hf] at h
      cases h
      exact ⟨a, by simp, n, t, hf, rfl⟩

/-- whatever matched: the groups 1 and 2 -/
theorem match_groups {s : Runes} {caps : List (Nat × Runes)}
    (h : firstMatch s [regexpFull, regexpSemi, regexpShort, regexpMini] = some caps) :
    ∃ pre s' g1 ws d e ws2 call rest, s = pre ++ s' ∧ HeadMatch pre.isEmpty s' g1 ws d e ws2 call rest ∧
      (∀ c ∈ rest.head?, reCall c = false) ∧ capture caps 1 = g1 ∧ capture caps 2 = call := by
  have h' : firstMatch s (theTails.map (fun x => Re.seqs (head5 x))) = some caps := h
  obtain ⟨tail, ht, n, t, hf, rfl⟩ := firstMatch_some h'
  obtain ⟨h1, h2, h3⟩ := theTails_ok tail ht
  obtain ⟨pre, s', rfl, _, h4, _⟩ := Re.findFrom_some hf
  obtain ⟨g1, ws, d, e, ws2, call, rest, h5, h6, h7⟩ := first_caps h1 h2 h3 h4
  exact ⟨pre, s', g1, ws, d, e, ws2, call, rest, rfl, by simpa using h5, h6, h7⟩


/-! ## Which DE it is -/

/-- blanks after a list of call-signs do not matter -/
theorem vetted_blank {U : Unicode} (hU : U.Lawful) {w : Rune} (hw : reSpace w = true) : ∀ (x : Runes) (cur : Runes),
    vetFields (fun s => toUpperStr U (trimSpace U s)) (fieldsLoop isSep (x ++ [w]) cur) =
      vetFields (fun s => toUpperStr U (trimSpace U s)) (fieldsLoop isSep x cur) := by
  have hsp : U.isSpace w = true := by
    apply hU.isSpace_blank
    rw [reSpace_iff] at hw
    simp only [Blank] at hw
    simp; omega
  intro x
  induction x with
  | nil =>
    intro cur
    simp only [List.nil_append, fieldsLoop]
    by_cases hs : isSep w = true
    · rw [if_pos hs]
      by_cases hc : cur = [] <;> simp [hc]
    · rw [if_neg hs, if_neg (by simp)]
      have ht : trimSpace U (w :: cur).reverse = trimSpace U cur.reverse := by
        rw [List.reverse_cons]
        unfold trimSpace
        have h2 : ∀ l : Runes, (l ++ [w]).dropWhile U.isSpace = (l.dropWhile U.isSpace) ++ [w] ∨
            ((l ++ [w]).dropWhile U.isSpace = [] ∧ l.dropWhile U.isSpace = []) := by
          intro l
          induction l with
          | nil => right; simp [hsp]
          | cons a as ih =>
            by_cases ha : U.isSpace a = true
            · rw [List.cons_append, List.dropWhile_cons_of_pos ha, List.dropWhile_cons_of_pos ha]; exact ih
            · left; rw [List.cons_append, List.dropWhile_cons_of_neg ha, List.dropWhile_cons_of_neg ha]; rfl
        rcases h2 cur.reverse with h2 | ⟨h2, h3⟩
        · rw [h2]; simp [hsp]
        · rw [h2, h3]
      by_cases hc : cur = []
      · subst hc
        have h0 : toUpperStr U (trimSpace U [w].reverse) = [] := by rw [ht]; rfl
        simp only [if_true, vetFields]
        rw [if_neg (by rw [h0]; simp)]
      · rw [if_neg hc]
        simp only [vetFields, ht]
  | cons c cs ih =>
    intro cur
    simp only [List.cons_append, fieldsLoop]
    by_cases hs : isSep c = true
    · rw [if_pos hs, if_pos hs]
      by_cases hc : cur = []
      · rw [if_pos hc, if_pos hc]; exact ih []
      · rw [if_neg hc, if_neg hc]
        simp only [vetFields]
        rw [ih []]
    · rw [if_neg hs, if_neg hs]; exact ih _

theorem vetted_blanks {U : Unicode} (hU : U.Lawful) {ws : Runes} (hw : ∀ c ∈ ws, reSpace c = true) (x : Runes) :
    vettedKeepers U [x ++ ws] = vettedKeepers U [x] := by
  induction ws generalizing x with
  | nil => simp
  | cons w ws ih =>
    have : x ++ w :: ws = (x ++ [w]) ++ ws := by simp
    rw [this, ih (fun c hc => hw c (by simp [hc]))]
    simp only [vettedKeepers, List.flatMap_cons, List.flatMap_nil, List.append_nil, fieldsFunc]
    exact vetted_blank hU (hw w (by simp)) x []

/-- a match gives a word DE -/
theorem HeadMatch.deWord {b : Bool} {pre s' g1 ws ws2 call rest : Runes} {d e : Rune}
    (h : HeadMatch b s' g1 ws d e ws2 call rest) (hb : b = pre.isEmpty) :
    DeWord (pre ++ s') (pre ++ g1 ++ ws) (ws2 ++ call ++ rest) := by
  refine ⟨d, e, by rw [h.text]; simp, h.isD, h.isE, ?_, ?_⟩
  · intro x hx
    rcases h.word with hw | ⟨h1, h2⟩
    · rw [List.getLast?_append, Option.mem_def, Option.or_eq_some_iff] at hx
      rcases hx with hx | ⟨hx, _⟩
      · exact (reSpace_iff x).1 (h.blanks x (List.mem_of_mem_getLast? hx))
      · exact absurd (List.getLast?_eq_none_iff.1 hx) hw
    · rw [h1] at hb
      have hp : pre = [] := by simpa using hb.symm
      subst hp h2
      simp at hx
      exact (reSpace_iff x).1 (h.blanks x (List.mem_of_mem_getLast? hx))
  · have h2 := h.some2
    have h3 := h.blanks2
    cases ws2 with
    | nil => exact absurd rfl h2
    | cons w ws2 => exact ⟨w, by simp, (reSpace_iff w).1 (h3 w (by simp))⟩

/-- a word DE after a list of call-signs and before a call-sign gives a match of the beginning of the expressions -/
theorem headMatch_of_deWord {s a c blanks call rest : Runes} (hd : DeWord s a c) (ha : ∀ x ∈ a, reCalls x = true)
    (hc : c = blanks ++ call ++ rest) (hb0 : blanks ≠ []) (hb : ∀ x ∈ blanks, reSpace x = true) (hc0 : call ≠ [])
    (hcc : ∀ x ∈ call, reCall x = true) :
    ∃ g1 ws d e, HeadMatch true s g1 ws d e blanks call rest ∧ g1 ++ ws = a := by
  obtain ⟨d, e, hs, h1, h2, h3, _⟩ := hd
  subst hc
  rcases List.eq_nil_or_concat a with rfl | ⟨a', w, rfl⟩
  · exact ⟨[], [], d, e, ⟨by rw [hs]; simp, by simp, by simp, .inr ⟨rfl, rfl⟩, h1, h2, hb, hb0, hcc, hc0⟩, rfl⟩
  · refine ⟨a', [w], d, e, ⟨by rw [hs]; simp, fun x hx => ha x (by simp [hx]), ?_, .inl (by simp), h1, h2, hb, hb0, hcc, hc0⟩, by simp⟩
    intro x hx
    rw [List.mem_singleton.1 hx]
    exact (reSpace_iff w).2 (h3 w (by simp))

/-- parts of a successful `ParseRadiogram` -/
theorem parse_ok {U : Unicode} {E : RadioEnv} {msgs : List Msg} {r : Runes} {t t' : Tape} {m : Msg}
    (h : parseRadiogram U E msgs r t = some (.ok m, t')) :
    ∃ caps, firstMatch (E.unbreak r) [regexpFull, regexpSemi, regexpShort, regexpMini] = some caps ∧
      newUniqueMessageId msgs t = some (m.id, t') ∧
      m.recipients = vettedKeepers U [capture caps 1] ∧
      m.from_ = toUpperStr U (trimSpace U (capture caps 2)) ∧ m.keyId = Sl.nil ∧ m.cipherText = [] ∧
      m.radiogram = E.unbreak r ∧
      m.plainText = trimRight (fun r => U.isSpace r || r == 43 || r == 61) (trimSpace U (withoutTrail (capture caps 4))) := by
  unfold parseRadiogram at h
  simp only at h
  rcases hid : newUniqueMessageId msgs t with _ | ⟨id, t1⟩
  · rw [hid] at h; cases h
  · rw [hid] at h
    simp only at h
    rcases hf : firstMatch (E.unbreak r) [regexpFull, regexpSemi, regexpShort, regexpMini] with _ | caps
    · rw [hf] at h; simp at h
    · rw [hf] at h
      simp only at h
      generalize (if (toUpperStr U (trimSpace U (capture caps 3))).length = 0 then Outcome.ok E.now
        else E.dtgParse (toUpperStr U (trimSpace U (capture caps 3)))) = o at h
      cases o with
      | err e => simp at h
      | panic => simp at h
      | ok d =>
        simp only [Option.some.injEq, Prod.mk.injEq, Outcome.ok.injEq] at h
        obtain ⟨rfl, rfl⟩ := h
        exact ⟨caps, rfl, rfl, rfl, rfl, rfl, rfl, rfl, rfl⟩


/-- A match at the beginning of an addressed radiogram with only one candidate word DE. -/
theorem match_addressed {U : Unicode} (hU : U.Lawful) {tail : List Re} (hok : tail ≠ [] ∧ (Re.seqs tail).Absorbs ∧ (Re.seqs tail).AllCaps late)
    {s a blanks call rest : Runes} {t : ReSt} (h : ((Re.seqs (head5 tail)).run ⟨true, s, []⟩).head? = some t)
    (ha : Addressed s a blanks call rest)
    (huniq : ∀ a' c', DeWord s a' c' → (∀ x ∈ a', ListChar x ∨ FoldsToLetter x) → a' = a) :
    capture t.caps 2 = call ∧ vettedKeepers U [capture t.caps 1] = vettedKeepers U [a] := by
  obtain ⟨g1, ws, d, e, ws2, call', rest', hm, hstop, h1, h2⟩ := first_caps hok.1 hok.2.1 hok.2.2 h
  have hdw := hm.deWord (pre := []) rfl
  simp only [List.nil_append] at hdw
  have hla : ∀ x ∈ g1 ++ ws, ListChar x ∨ FoldsToLetter x := by
    intro x hx
    rcases List.mem_append.1 hx with hx | hx
    · exact (reCalls_iff x).1 (hm.list x hx)
    · exact .inl (.inr (.inr ((reSpace_iff x).1 (hm.blanks x hx))))
  have hga : g1 ++ ws = a := huniq _ _ hdw hla
  have hcc : ws2 ++ (call' ++ rest') = blanks ++ (call ++ rest) := by
    obtain ⟨d1, e1, hs1, _⟩ := hdw
    obtain ⟨d2, e2, hs2, _⟩ := ha.de
    rw [hs2, hga] at hs1
    have := List.append_cancel_left hs1
    simp only [List.cons.injEq, List.append_assoc] at this
    exact this.2.2.symm
  have hcall : ∀ c ∈ call, reCall c = true := fun c hc => (reCall_iff c).2 (.inl (ha.allCall c hc))
  have hstopc : ∀ (x y : Runes), x ≠ [] → (∀ c ∈ x, reCall c = true) → ∀ c ∈ (x ++ y).head?, reSpace c = false := by
    intro x y hx hxc c hc
    cases x with
    | nil => exact absurd rfl hx
    | cons q qs => simp at hc; subst hc; exact call_not_space (hxc q (by simp))
  obtain ⟨_, h4⟩ := span_unique hm.blanks2 (hstopc call' rest' hm.some hm.calls)
    (fun c hc => (reSpace_iff c).2 (ha.allBlank c hc)) (hstopc call rest ha.someCall hcall) hcc
  obtain ⟨h5, _⟩ := span_unique hm.calls hstop hcall (fun c hc => by
    rcases hr : reCall c with _ | _
    · rfl
    · exact absurd ((reCall_iff c).1 hr) (ha.stop c hc)) h4
  refine ⟨by rw [h2, h5], ?_⟩
  rw [h1, ← hga, vetted_blanks hU hm.blanks]

theorem can_two_eq : ∀ (l m : List Re) {b b' : Bool} {s s' : Runes},
    (Re.seqs (l ++ .cls reEq :: .cls reEq :: m)).Can b s b' s' → ∃ x y, s = x ++ 61 :: 61 :: y := by
  intro l
  induction l with
  | nil =>
    intro m b b' s s' h
    rw [List.nil_append, Re.can_seqs_cons (by simp)] at h
    obtain ⟨b1, s1, ⟨_, c, rfl, hc⟩, h⟩ := h
    have hc' : c = 61 := by simpa [reEq] using hc
    subst hc'
    have h2 : ∃ b2 s2, (Re.cls reEq).Can b1 s1 b2 s2 := by
      cases m with
      | nil => exact ⟨_, _, h⟩
      | cons x xs => obtain ⟨b2, s2, h2, _⟩ := h; exact ⟨b2, s2, h2⟩
    obtain ⟨b2, s2, _, c, rfl, hc⟩ := h2
    have hc' : c = 61 := by simpa [reEq] using hc
    subst hc'
    exact ⟨[], s2, rfl⟩
  | cons a as ih =>
    intro m b b' s s' h
    rw [List.cons_append, Re.can_seqs_cons (by simp)] at h
    obtain ⟨b1, s1, h1, h2⟩ := h
    obtain ⟨w, rfl, _⟩ := h1.suffix
    obtain ⟨x, y, rfl⟩ := ih m h2
    exact ⟨w ++ x, y, by simp⟩

/-- no two equal signs, no match -/
theorem no_match_two_eq {l m : List Re} {s : Runes} (hs : ¬ ∃ x y, s = x ++ 61 :: 61 :: y) :
    (Re.seqs (l ++ .cls reEq :: .cls reEq :: m)).find s = none := by
  rcases hf : (Re.seqs (l ++ .cls reEq :: .cls reEq :: m)).find s with _ | ⟨n, t⟩
  · rfl
  · exfalso
    obtain ⟨pre, s', rfl, _, h, _⟩ := Re.findFrom_some hf
    have hc := (Re.can_iff _ _ _ _).1 ⟨t, List.mem_of_mem_head? h, rfl, rfl⟩
    obtain ⟨x, y, e⟩ := can_two_eq l m hc
    simp only at e
    exact hs ⟨pre ++ x, y, by rw [e]; simp⟩

/-- the only word DE decides, wherever the match begins -/
theorem firstMatch_addressed {U : Unicode} (hU : U.Lawful) {s a blanks call rest : Runes} {caps : List (Nat × Runes)}
    (h : firstMatch s [regexpFull, regexpSemi, regexpShort, regexpMini] = some caps)
    (ha : Addressed s a blanks call rest) (huniq : ∀ a' c', DeWord s a' c' → a' = a) :
    capture caps 2 = call ∧ vettedKeepers U [capture caps 1] = vettedKeepers U [a] := by
  have h' : firstMatch s (theTails.map (fun x => Re.seqs (head5 x))) = some caps := h
  obtain ⟨tail, ht, n, t, hf, rfl⟩ := firstMatch_some h'
  have hok := theTails_ok tail ht
  obtain ⟨pre, s', rfl, _, h4, h5⟩ := Re.findFrom_some hf
  have hpre : pre = [] := by
    rcases h5 with h5 | h5
    · exact h5
    · apply Classical.byContradiction
      intro hp
      have hc := (Re.can_iff _ _ _ _).1 ⟨t, List.mem_of_mem_head? h4, rfl, rfl⟩
      obtain ⟨g1, ws, d, e, ws2, call', rest', hm, hcan⟩ := (head5_can hok.1).1 hc
      have hm' : HeadMatch pre.isEmpty s' g1 ws d e ws2 call' rest' := by simpa using hm
      have hga : pre ++ g1 ++ ws = a := huniq _ _ (hm'.deWord rfl)
      have hw : ws ≠ [] := by
        rcases hm.word with hw | ⟨hw, _⟩
        · exact hw
        · cases pre with
          | nil => exact absurd rfl hp
          | cons x xs => simp at hw
      have hcan2 : (Re.seqs (head5 tail)).Can true (pre ++ s') t.atStart t.rest := by
        refine (head5_can hok.1).2 ⟨pre ++ g1, ws, d, e, ws2, call', rest', ⟨?_, ?_, hm.blanks, .inl hw, hm.isD, hm.isE,
          hm.blanks2, hm.some2, hm.calls, hm.some⟩, hcan⟩
        · have := hm.text
          simp only at this
          rw [this]; simp
        · intro c hc
          exact (reCalls_iff c).2 (.inl (ha.list c (by rw [← hga]; exact List.mem_append_left _ hc)))
      exact (run_nonempty (r := Re.seqs (head5 tail)) (s := ⟨true, pre ++ s', []⟩)).2 ⟨_, _, hcan2⟩ h5
  subst hpre
  exact match_addressed hU hok (by simpa using h4) ha (fun a' c' hd _ => huniq a' c' hd)

/-- in the form `TO DE FROM = TEXT` without double `=` -/
theorem firstMatch_short {U : Unicode} (hU : U.Lawful) {s a blanks call gap text : Runes} {caps : List (Nat × Runes)}
    (h : firstMatch s [regexpFull, regexpSemi, regexpShort, regexpMini] = some caps)
    (ha : Addressed s a blanks call (gap ++ 61 :: text)) (hgap : ∀ c ∈ gap, Blank c)
    (hs : ¬ ∃ x y, s = x ++ 61 :: 61 :: y)
    (huniq : ∀ a' c', DeWord s a' c' → (∀ x ∈ a', ListChar x ∨ FoldsToLetter x) → a' = a) :
    capture caps 2 = call ∧ vettedKeepers U [capture caps 1] = vettedKeepers U [a] := by
  have hfull : regexpFull.find s = none :=
    no_match_two_eq (l := reHead ++ [reDtg, reBlanks]) (m := [reBlanks, .star reCalls, reBlanks,
      .cls reEq, .cls reEq, reBlanks, .star reWords, reBlanks, .star reDigit, reBlanks, .cls reEq, reBlanks, reText]) hs
  have hsemi : regexpSemi.find s = none :=
    no_match_two_eq (l := reHead ++ [reDtg, reBlanks]) (m := [reBlanks, .star reCalls, reBlanks, .star reDigit,
      reBlanks, .cls reEq, reBlanks, reText]) hs
  have hne : regexpShort.run ⟨true, s, []⟩ ≠ [] := by
    rw [short_eq, run_nonempty]
    obtain ⟨g1, ws, d, e, hm, _⟩ := headMatch_of_deWord ha.de (fun x hx => (reCalls_iff x).2 (.inl (ha.list x hx))) rfl
      ha.someBlank (fun x hx => (reSpace_iff x).2 (ha.allBlank x hx)) ha.someCall
      (fun x hx => (reCall_iff x).2 (.inl (ha.allCall x hx)))
    refine ⟨false, text, (head5_can (by simp [tailShort])).2 ⟨g1, ws, d, e, blanks, call, gap ++ 61 :: text, hm, ?_⟩⟩
    unfold tailShort
    rw [Re.can_seqs_cons (by simp)]
    refine ⟨false, 61 :: text, ?_, ?_⟩
    · have := starRun_all (p := reSpace) gap (61 :: text) false (fun c hc => (reSpace_iff c).2 (hgap c hc))
      simp only [Bool.false_and] at this
      exact this
    · refine seqs_append_nullable [reDtg, reBlanks, Re.upTo (.cls reLetter) 4, reBlanks, Re.upTo (.cls reDigit) 4, reBlanks]
        [.cls reEq, reBlanks, reText] (by simp) ?_ ?_
      · intro r hr
        simp only [List.mem_cons, List.not_mem_nil, or_false] at hr
        rcases hr with rfl | rfl | rfl | rfl | rfl | rfl
        · exact dtg_skip.1
        · exact blanks_skip.1
        · exact Re.nullable_opt _
        · exact blanks_skip.1
        · exact Re.nullable_opt _
        · exact blanks_skip.1
      · refine ⟨false, text, ⟨rfl, 61, rfl, by decide⟩, ?_⟩
        exact ⟨false, text, Re.nullable_star _ _ _, Re.nullable_star _ _ _⟩
  obtain ⟨t, ht⟩ : ∃ t, (regexpShort.run ⟨true, s, []⟩).head? = some t := by
    rcases hr : regexpShort.run ⟨true, s, []⟩ with _ | ⟨t, ts⟩
    · exact absurd hr hne
    · exact ⟨t, rfl⟩
  have hcaps : caps = t.caps := by
    simp only [firstMatch, hfull, hsemi, Re.find_here ht] at h
    exact (Option.some.inj h).symm
  subst hcaps
  exact match_addressed hU (theTails_ok tailShort (by simp [theTails])) ht ha huniq

/-- an addressed radiogram is recognised -/
theorem firstMatch_exists {s a blanks call rest : Runes} (ha : Addressed s a blanks call rest) :
    ∃ caps, firstMatch s [regexpFull, regexpSemi, regexpShort, regexpMini] = some caps := by
  have hne : regexpMini.run ⟨true, s, []⟩ ≠ [] := by
    rw [mini_eq, run_nonempty]
    obtain ⟨g1, ws, d, e, hm, _⟩ := headMatch_of_deWord ha.de (fun x hx => (reCalls_iff x).2 (.inl (ha.list x hx))) rfl
      ha.someBlank (fun x hx => (reSpace_iff x).2 (ha.allBlank x hx)) ha.someCall
      (fun x hx => (reCall_iff x).2 (.inl (ha.allCall x hx)))
    exact ⟨false, rest, (head5_can (by simp [tailMini])).2 ⟨g1, ws, d, e, blanks, call, rest, hm, mini_nullable _ _⟩⟩
  simp only [firstMatch]
  rcases regexpFull.find s with _ | ⟨n, t⟩
  · rcases regexpSemi.find s with _ | ⟨n, t⟩
    · rcases regexpShort.find s with _ | ⟨n, t⟩
      · rcases hr : regexpMini.run ⟨true, s, []⟩ with _ | ⟨t, ts⟩
        · exact absurd hr hne
        · have := Re.find_here (r := regexpMini) (s := s) (t := t) (by rw [hr]; rfl)
          rw [this]
          exact ⟨t.caps, rfl⟩
      · exact ⟨_, rfl⟩
    · exact ⟨_, rfl⟩
  · exact ⟨_, rfl⟩

theorem fieldsLoop_sub (f : Rune → Bool) : ∀ (x cur : Runes) (w : Runes), w ∈ fieldsLoop f x cur →
    ∀ c ∈ w, c ∈ x ∨ c ∈ cur := by
  intro x
  induction x with
  | nil =>
    intro cur w hw c hc
    simp only [fieldsLoop] at hw
    by_cases h : cur = []
    · simp [h] at hw
    · simp [h] at hw; subst hw
      exact .inr (by simpa using hc)
  | cons a as ih =>
    intro cur w hw c hc
    simp only [fieldsLoop] at hw
    by_cases h : f a = true
    · rw [if_pos h] at hw
      by_cases h2 : cur = []
      · rw [if_pos h2] at hw
        rcases ih [] w hw c hc with h | h
        · exact .inl (by simp [h])
        · cases h
      · rw [if_neg h2] at hw
        rcases List.mem_cons.1 hw with rfl | hw
        · exact .inr (by simpa using hc)
        · rcases ih [] w hw c hc with h | h
          · exact .inl (by simp [h])
          · cases h
    · rw [if_neg h] at hw
      rcases ih _ w hw c hc with h | h
      · exact .inl (by simp [h])
      · rcases List.mem_cons.1 h with rfl | h
        · exact .inl (by simp)
        · exact .inr h

/-- runes of vetted names -/
theorem vetted_rune {U : Unicode} {args : List Runes} {w : Runes} (h : w ∈ vettedKeepers U args) :
    ∀ c ∈ w, ∃ a ∈ args, ∃ d ∈ a, c = U.toUpper d := by
  unfold vettedKeepers at h
  obtain ⟨a, ha, h⟩ := List.mem_flatMap.1 h
  obtain ⟨_, x, hx, h2⟩ := (vetFields_mem _ _ _).1 h
  intro c hc
  rw [← h2] at hc
  obtain ⟨d, hd, rfl⟩ := List.mem_map.1 hc
  exact ⟨a, ha, d, (fieldsLoop_sub isSep a [] x hx d (trimSpace_mem hd)).resolve_right (by simp), rfl⟩


/-- the upper case of a call character -/
theorem call_plain {U : Unicode} (hU : U.Lawful) {c : Rune} (h : CallChar c) : CapitalCallChar (U.toUpper c) := by
  rcases h with h | h | h | h
  · have hm : c ∈ capitals := by
      have : ∀ n : Fin 26, (65 + (n.val : Int)) ∈ capitals := by decide
      have := this ⟨(c - 65).toNat, by omega⟩
      simp only at this
      rwa [show (65 + (((c - 65).toNat : Nat) : Int)) = c from by omega] at this
    rw [(hU.capital c hm).2.2.1]; exact .inl h
  · have hm : c ∈ smalls := by
      have : ∀ n : Fin 26, (97 + (n.val : Int)) ∈ smalls := by decide
      have := this ⟨(c - 97).toNat, by omega⟩
      simp only at this
      rwa [show (97 + (((c - 97).toNat : Nat) : Int)) = c from by omega] at this
    rw [(hU.small c hm).2.2.1]; left; omega
  · have hm : c ∈ neutrals := by
      have : ∀ n : Fin 10, (48 + (n.val : Int)) ∈ neutrals := by decide
      have := this ⟨(c - 48).toNat, by omega⟩
      simp only at this
      rwa [show (48 + (((c - 48).toNat : Nat) : Int)) = c from by omega] at this
    rw [(hU.neutral c hm).2.2.1]; exact .inr (.inl h)
  · subst h
    rw [(hU.neutral 47 (by decide)).2.2.1]
    exact .inr (.inr rfl)

/-- a list of call-signs, each followed by a space -/
theorem vetted_names {U : Unicode} (hU : U.Lawful) : ∀ names : List Runes, (∀ n ∈ names, n ≠ [] ∧ ∀ c ∈ n, CallChar c) →
    vettedKeepers U [names.flatMap (fun n => n ++ [32])] = names.map (fun n => n.map U.toUpper) := by
  have e : ∀ x, vettedKeepers U [x] = vetFields (fun s => toUpperStr U (trimSpace U s)) (fieldsLoop isSep x []) := by
    intro x; simp [vettedKeepers, fieldsFunc]
  intro names
  induction names with
  | nil => intro _; rfl
  | cons n ns ih =>
    intro h
    obtain ⟨h0, hc⟩ := h n (by simp)
    have hsep : ∀ c ∈ n, isSep c = false := by
      intro c hcc
      have := hc c hcc
      simp only [CallChar] at this
      simp [isSep]; omega
    have ht : trimSpace U n = n := trimSpace_letters (fun c hcc => (call_up hU ((reCall_iff c).2 (.inl (hc c hcc)))).1)
    have h1 : (n :: ns).flatMap (fun n => n ++ [32]) = n ++ 32 :: ns.flatMap (fun n => n ++ [32]) := by simp
    rw [e, h1, fieldsLoop_append isSep 32 (by decide), fieldsLoop_clean isSep n [] hsep, vetFields_append]
    rw [← e, ih (fun m hm => h m (by simp [hm]))]
    simp only [List.reverse_nil, List.nil_append, h0, if_false, vetFields, ht, List.map_cons]
    rw [if_pos (by simpa [toUpperStr] using List.length_pos_iff.2 h0)]
    rfl


/-- a word DE within a sequence of words, each followed by a space, is one of the words -/
theorem deWord_words : ∀ (W : List Runes) (tail a c : Runes), (∀ w ∈ W, w ≠ [] ∧ ∀ x ∈ w, ¬ Blank x) →
    DeWord (W.flatMap (fun w => w ++ [32]) ++ tail) a c → a.length < (W.flatMap (fun w => w ++ [32])).length →
    ∃ W1 w W2, W = W1 ++ w :: W2 ∧ a = W1.flatMap (fun w => w ++ [32]) ∧ ∃ d e, w = [d, e] ∧ (d = 68 ∨ d = 100) ∧ (e = 69 ∨ e = 101) := by
  intro W
  induction W with
  | nil => intro tail a c _ _ h; simp at h
  | cons w W ih =>
    intro tail a c hW hd hl
    obtain ⟨d, e, hs, h1, h2, h3, x, hx, h4⟩ := hd
    obtain ⟨hw0, hwb⟩ := hW w (by simp)
    have hs' : w ++ 32 :: (W.flatMap (fun w => w ++ [32]) ++ tail) = a ++ d :: e :: c := by rw [← hs]; simp
    cases a with
    | nil =>
      refine ⟨[], w, W, rfl, rfl, d, e, ?_, h1, h2⟩
      have hdb : ¬ Blank d := by simp only [Blank]; omega
      have heb : ¬ Blank e := by simp only [Blank]; omega
      cases c with
      | nil => simp at hx
      | cons c0 cs =>
        simp at hx
        subst hx
        simp only [List.nil_append] at hs'
        match w, hs', hwb with
        | [], hs', _ => exact absurd rfl hw0
        | [p], hs', _ =>
          simp only [List.cons_append, List.nil_append, List.cons.injEq] at hs'
          exact absurd (by rw [← hs'.2.1]; decide) heb
        | [p, q], hs', _ =>
          simp only [List.cons_append, List.nil_append, List.cons.injEq] at hs'
          rw [hs'.1, hs'.2.1]
        | p :: q :: r :: l, hs', hwb =>
          simp only [List.cons_append, List.cons.injEq] at hs'
          exact absurd (by rw [hs'.2.2.1]; exact h4) (hwb r (by simp))
    | cons y ys =>
      have hlast : ∃ a' z, y :: ys = a' ++ [z] ∧ Blank z := by
        rcases List.eq_nil_or_concat (y :: ys) with h | ⟨a', z, h⟩
        · cases h
        · exact ⟨a', z, by simpa using h, h3 z (by rw [h]; simp)⟩
      obtain ⟨a', z, ea, hz⟩ := hlast
      -- the first word and its space are within `a`
      have key : ∃ a2, y :: ys = w ++ 32 :: a2 := by
        rw [ea] at hs' ⊢
        rcases List.append_eq_append_iff.1 hs' with ⟨v, ev, ev2⟩ | ⟨v, ev, ev2⟩
        · cases v with
          | nil => exact absurd hz (hwb z (by rw [show w = a' ++ [z] by simpa using ev.symm]; simp))
          | cons v0 vs =>
            simp only [List.cons_append, List.cons.injEq] at ev2
            exact ⟨vs, by rw [ev, ev2.1]⟩
        · exfalso
          exact hwb z (by rw [ev]; simp) hz
      obtain ⟨a2, ea2⟩ := key
      have hd2 : DeWord (W.flatMap (fun w => w ++ [32]) ++ tail) a2 c := by
        refine ⟨d, e, ?_, h1, h2, ?_, x, hx, h4⟩
        · rw [ea2] at hs'
          have := List.append_cancel_left (by simpa using hs' : w ++ (32 :: (W.flatMap (fun w => w ++ [32]) ++ tail)) = w ++ (32 :: (a2 ++ d :: e :: c)))
          exact (List.cons.inj this).2
        · intro q hq
          apply h3 q
          rw [ea2]
          cases a2 with
          | nil => cases hq
          | cons => simpa [List.getLast?_append, List.getLast?_cons_cons] using hq
      have hl2 : a2.length < (W.flatMap (fun w => w ++ [32])).length := by
        rw [ea2] at hl
        simp at hl ⊢
        omega
      obtain ⟨W1, w', W2, rfl, rfl, h5⟩ := ih tail a2 c (fun w hw => hW w (by simp [hw])) hd2 hl2
      exact ⟨w :: W1, w', W2, rfl, by rw [ea2]; simp, h5⟩

theorem callChar_not_blank {c : Rune} (h : CallChar c) : ¬ Blank c := by
  simp only [CallChar] at h
  simp only [Blank]
  omega

theorem callChar_not_eq {c : Rune} (h : CallChar c) : c ≠ 61 := by
  simp only [CallChar] at h
  omega

/-- in `TO DE FROM = TEXT` only the one word DE follows call-signs alone -/
theorem text_unique {names : List Runes} {sender text a c : Runes}
    (hn : ∀ n ∈ names ++ [sender], (n ≠ [] ∧ ∀ c ∈ n, CallChar c) ∧ ¬ IsDe n)
    (hd : DeWord (names.flatMap (fun n => n ++ [32]) ++ lit "DE " ++ sender ++ lit " =" ++ text) a c)
    (ha : ∀ x ∈ a, ListChar x ∨ FoldsToLetter x) : a = names.flatMap (fun n => n ++ [32]) := by
  have hde : lit "DE " = [68, 69, 32] := by decide
  have heq : lit " =" = [32, 61] := by decide
  rw [hde, heq] at hd
  have hs : names.flatMap (fun n => n ++ [32]) ++ [68, 69, 32] ++ sender ++ [32, 61] ++ text =
      (names ++ [[68, 69], sender]).flatMap (fun n => n ++ [32]) ++ 61 :: text := by simp
  rw [hs] at hd
  have hlen : a.length < ((names ++ [[68, 69], sender]).flatMap (fun n => n ++ [32])).length := by
    obtain ⟨d, e, hs, h1, _⟩ := hd
    rcases List.append_eq_append_iff.1 hs with ⟨v, ev, ev2⟩ | ⟨v, ev, ev2⟩
    · exfalso
      cases v with
      | nil => simp at ev2; omega
      | cons v0 vs =>
        simp only [List.cons_append, List.cons.injEq] at ev2
        have := ha 61 (by rw [ev, ← ev2.1]; simp)
        exact absurd this (by decide)
    · cases v with
      | nil => exfalso; simp at ev2; omega
      | cons v0 vs => rw [ev]; simp
  have hW : ∀ w ∈ names ++ [[68, 69], sender], w ≠ [] ∧ ∀ x ∈ w, ¬ Blank x := by
    intro w hw
    simp only [List.mem_append, List.mem_cons, List.not_mem_nil, or_false] at hw
    rcases hw with hw | rfl | rfl
    · have := (hn w (by simp [hw])).1
      exact ⟨this.1, fun x hx => callChar_not_blank (this.2 x hx)⟩
    · exact ⟨by simp, by decide⟩
    · have := (hn w (by simp)).1
      exact ⟨this.1, fun x hx => callChar_not_blank (this.2 x hx)⟩
  obtain ⟨W1, w, W2, e1, e2, hw⟩ := deWord_words _ _ _ _ hW hd hlen
  rcases List.append_eq_append_iff.1 e1 with ⟨v, ev, ev2⟩ | ⟨v, ev, ev2⟩
  · cases v with
    | nil => rw [e2, ev]; simp
    | cons v0 vs =>
      exfalso
      simp only [List.cons_append, List.cons.injEq] at ev2
      obtain ⟨_, ev2⟩ := ev2
      cases vs with
      | nil =>
        simp only [List.nil_append, List.cons.injEq] at ev2
        exact (hn sender (by simp)).2 (by rw [ev2.1]; exact hw)
      | cons v1 vs2 => simp at ev2
  · cases v with
    | nil => rw [e2]; simp at ev; rw [ev]
    | cons v0 vs =>
      exfalso
      simp only [List.cons_append, List.cons.injEq] at ev2
      refine (hn w ?_).2 hw
      rw [ev, ev2.1]
      simp

theorem no_double_eq : ∀ {p text : Runes}, 61 ∉ p → (∀ c ∈ text.head?, c ≠ 61) → (¬ ∃ x y, text = x ++ 61 :: 61 :: y) →
    ¬ ∃ x y, p ++ 61 :: text = x ++ 61 :: 61 :: y := by
  intro p
  induction p with
  | nil =>
    rintro text _ h1 h2 ⟨x, y, e⟩
    cases x with
    | nil =>
      simp only [List.nil_append, List.cons.injEq, true_and] at e
      exact h1 61 (by rw [e]; simp) rfl
    | cons x0 xs =>
      simp only [List.nil_append, List.cons_append, List.cons.injEq] at e
      exact h2 ⟨xs, y, e.2⟩
  | cons p0 ps ih =>
    rintro text hp h1 h2 ⟨x, y, e⟩
    cases x with
    | nil =>
      simp only [List.nil_append, List.cons_append, List.cons.injEq] at e
      exact hp (by rw [e.1]; simp)
    | cons x0 xs =>
      simp only [List.cons_append, List.cons.injEq] at e
      exact ih (fun h => hp (by simp [h])) h1 h2 ⟨xs, y, e.2⟩

end K431
