import Verif.PropsTraffic

/-!
# C70: what printing messages as text shows
-/

namespace K431

open Spec

/-- the section with the text -/
def textSection (P : PrintEnv) : Option Runes → Runes
  | none => []
  | some t => lit "=TEXT=" ++ P.lb ++ t ++ P.lb

/-- The parts of the printed message: the heading, the section with the text and the section with the ciphertext. -/
def Sections (P : PrintEnv) (m : Msg) (printed : Runes) (text : Option Runes) (cipher : Option (Runes × Runes)) : Prop :=
  printed = P.header m ++ textSection P text ++
    (match cipher with
      | none => []
      | some (c, t) => lit "=CIPHER=" ++ P.lb ++ c ++ P.lb ++ lit "=TRAFFIC=EXAMPLE=" ++ P.lb ++ t ++ P.lb)

/-- the letters in groups: all of this size but the last, which is not longer -/
def InGroups (size : Nat) (letters : Runes) (gs : List Runes) : Prop :=
  gs.flatten = letters ∧ (∀ g ∈ gs, g ≠ [] ∧ g.length ≤ size) ∧ ∀ n g, gs[n]? = some g → n + 1 < gs.length → g.length = size

theorem words_ne_nil {gap : Int → Prop} {ws : List Runes} {s : Runes} (h : InWords gap ws s) (hw : ws ≠ []) : s ≠ [] := by
  obtain ⟨lead, s', rfl, _, hs⟩ := h
  cases hs with
  | nil => exact absurd rfl hw
  | cons h1 => simp [h1]

theorem words_nil {gap : Int → Prop} {s : Runes} (h : InWords gap [] s) : ∀ c ∈ s, gap c := by
  obtain ⟨lead, s', rfl, hl, hs⟩ := h
  cases hs
  simpa using hl

theorem decimal_eq (n : Nat) : decimal n = lit (toString n) := by
  simp [decimal, lit, toString, Nat.repr]

theorem textLoop_eq {α : Type} (lb : Runes) (print : α → Runes) : ∀ (l : List α) (out : Runes),
    textLoop lb print l out = out ++ (l.map (fun x => print x ++ lb)).flatten := by
  intro l
  induction l with
  | nil => intro out; simp [textLoop]
  | cons x xs ih => intro out; rw [textLoop, ih]; simp

/-- C70, one message: the text and the ciphertext are shown word by word, the latter as key id and groups; the example of traffic has
the right count of groups; a section is missing exactly when there is nothing to show. -/
theorem C70_message (U : Unicode) (hU : U.Lawful) (P : PrintEnv) (m : Msg) (groupSize : Nat) (hg : groupSize ≠ 0)
    -- the library breaks lines between words only
    (hwrap : ∀ ws s, InWords (· = 32) ws s → InWords Blank ws (P.wrap s)) (hflat : ∀ ws s, InWords Blank ws s → InWords (· = 32) ws (P.flat s))
    (hwrap0 : P.wrap [] = []) (hflat0 : P.flat [] = [])
    -- the message was enciphered or deciphered, by and for stations with call-signs
    (hkey : m.keyId.val ≠ [] ∧ ∀ c ∈ m.keyId.val, IsLetter c) (hcipher : ∀ c ∈ m.cipherText, IsLetter c)
    (hfrom : Station m.from_) (hto : ∀ r ∈ m.recipients, Station r) (hdate : PrintedTime (P.date m.dtg))
    (hvalid : ∀ c ∈ m.plainText, validRune c = true) :
    ∃ text cipher, Sections P m (messageString U P groupSize m) text cipher ∧
      (m.plainText = [] → text = none) ∧
      (∀ ws, InWords Blank ws m.plainText → ws ≠ [] → ∃ t, text = some t ∧ InWords Blank ws t) ∧
      (m.cipherText = [] → cipher = none) ∧
      (m.cipherText ≠ [] → ∃ c t gs, cipher = some (c, t) ∧ InGroups groupSize m.cipherText gs ∧ InWords Blank (m.keyId.val :: gs) c ∧
        InWords Blank (m.recipients ++ [lit "DE", m.from_, P.date m.dtg, lit (toString (gs.length + 1)), lit "="] ++ (m.keyId.val :: gs) ++
          [lit "=", lit "K"]) t) := by
  have hd0 : P.date m.dtg ≠ [] ∧ ∀ c ∈ P.date m.dtg, CapitalCallChar c := by
    refine ⟨?_, hdate.2⟩
    obtain ⟨⟨day, zone, month, year, hw, hz⟩, _⟩ := hdate
    rw [hw.word]
    simp [hz]
  have htext : ∀ ws, InWords Blank ws m.plainText → InWords Blank ws (P.wrap (P.flat (goStr m.plainText))) := by
    intro ws h
    rw [goStr_valid hvalid]
    exact hwrap _ _ (hflat _ _ h)
  let text : Option Runes := if (P.wrap (P.flat (goStr m.plainText))).length > 0 then some (P.wrap (P.flat (goStr m.plainText))) else none
  have ht0 : m.plainText = [] → text = none := by
    intro h
    simp [text, h, goStr, hflat0, hwrap0]
  have ht1 : ∀ ws, InWords Blank ws m.plainText → ws ≠ [] → ∃ t, text = some t ∧ InWords Blank ws t := by
    intro ws h hne
    refine ⟨_, if_pos (List.length_pos_iff.2 (words_ne_nil (htext ws h) hne)), htext ws h⟩
  have hsec : (if (P.wrap (P.flat (goStr m.plainText))).length > 0 then
      lit "=TEXT=" ++ P.lb ++ P.wrap (P.flat (goStr m.plainText)) ++ P.lb else []) =
      textSection P text := by
    simp only [text]
    split
    · rfl
    · rfl
  by_cases hc : m.cipherText = []
  · refine ⟨text, none, ?_, ht0, ht1, fun _ => rfl, fun h => absurd hc h⟩
    have hk : keyAndGroups P.lb groupSize m = [] := by
      unfold keyAndGroups
      rw [hc]
      have : groups P.lb (some []) groupSize 0 = .ok [] := by
        simp only [groups]
        rw [if_neg (by omega)]
        rfl
      rw [this]
      rfl
    unfold Sections messageString
    simp only [hk, hwrap0]
    rw [hsec]
    rfl
  · obtain ⟨gs, hkg, hgs0, hgf, hgl, _, _, hwhole⟩ := keyAndGroups_eq (lb := P.lb) hg hkey.2 hcipher hc
    have hgl' := fun g hg => (hgl g hg).1
    have hkw := hwrap _ _ (keyAndGroups_words hkey.1 hkey.2 hgl' hgs0 hkg)
    obtain ⟨_, hline⟩ := trafficLine_words hU hwrap hkey.1 hkey.2 (fun r hr => ⟨(hto r hr).1, (hto r hr).2.1⟩) ⟨hfrom.1, hfrom.2.1⟩ hd0
      hgl' hgs0 hkg
    have hlw : InWords Blank _ (P.wrap (trafficLine U P groupSize m)) := hwrap _ _ ⟨[], _, (List.nil_append _).symm, by simp, hline⟩
    refine ⟨text, some (P.wrap (keyAndGroups P.lb groupSize m), P.wrap (trafficLine U P groupSize m)), ?_, ht0, ht1,
      fun h => absurd h hc, fun _ => ⟨_, _, gs, rfl, ⟨hgf, fun g hg => ⟨(hgl g hg).1.1, (hgl g hg).2⟩, ?_⟩, hkw, ?_⟩⟩
    · unfold Sections messageString
      simp only
      rw [hsec, if_pos (List.length_pos_iff.2 (words_ne_nil hkw (by simp)))]
    · intro n g hn hlt
      have := (hwhole n g hn).2.2 hlt
      omega
    · unfold trafficWords at hlw
      rw [decimal_eq] at hlw
      have e1 : lit "=" = [61] := by decide
      have e2 : lit "K" = [75] := by decide
      rw [e1, e2]
      simpa using hlw

/-- C70, all messages (or keys): those that pass the filter, in the order of the store, each followed by a line break; the notice that
there are none exactly if none passes. -/
theorem C70_list {α : Type} (lb : Runes) (print : α → Runes) (filter : α → Bool) (items : List α) :
    (itemsAsText lb print filter items).1 = ((items.filter filter).map (fun x => print x ++ lb)).flatten ∧
    ((itemsAsText lb print filter items).2 = true ↔ ∀ x ∈ items, filter x = false) := by
  unfold itemsAsText
  by_cases h : items.filter filter = []
  · simp only [h, List.length_nil, if_true, List.map_nil, List.flatten_nil, true_and, true_iff]
    simpa using h
  · have h0 : ¬ (items.filter filter).length = 0 := by simpa using h
    simp only
    rw [if_neg h0]
    refine ⟨by rw [textLoop_eq]; simp, ?_⟩
    constructor
    · intro h; cases h
    · intro hn
      exact absurd (List.filter_eq_nil_iff.2 (fun x hx => by simp [hn x hx])) h

/-- Not vacuous: a message as it is printed, and a list with one message left out. -/
example : messageString unicode15 exPrint 2 ⟨lit "ID00", [lit "SA7A"], lit "SA6MWA", 7, ⟨1, lit "AB"⟩, lit "HEJ DU", lit "QWERT", []⟩ =
    lit "=TEXT=\nHEJ DU\n=CIPHER=\nAB QW ER T\n=TRAFFIC=EXAMPLE=\nSA7A DE SA6MWA 012345ZJAN23 4 = AB QW ER T = K\n" ∧
  itemsAsText (lit "\n") (fun m : Msg => m.id) (fun m => m.id != lit "B") [exMsg "", { exMsg "" with id := lit "B" }] =
    (lit "ID00\n", false) := by decide +kernel

end K431
