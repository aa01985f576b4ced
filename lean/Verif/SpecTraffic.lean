import Verif.SpecRadio

/-!
# Specification vocabulary: radiograms with a date-time group, and how they are laid out

The documented form is `TO1 TO2 DE FROM 012345ZDEC22 COL 3 = ABCDE FGHIJ KLMNO = K`.
-/

namespace K431.Spec

/-- InWords in order with one or more spaces between them (and possibly after the last). -/
inductive Laid : List (List Int) → List Int → Prop
  | nil : Laid [] []
  | cons {w g s : List Int} {ws : List (List Int)} : w ≠ [] → (∀ c ∈ w, CallChar c) → (∀ c ∈ g, c = 32) →
      (ws ≠ [] → g ≠ []) → Laid ws s → Laid (w :: ws) (w ++ g ++ s)

/-- The months as they are written in a date-time group, in English and in Swedish. -/
def months : List (List Int) :=
  ["JAN", "FEB", "MAR", "APR", "MAY", "MAJ", "JUN", "JUL", "AUG", "SEP", "OCT", "OKT", "NOV", "DEC"].map lit

/-- The same letters, in either case. -/
def InEitherCase (capital word : List Int) : Prop := word.length = capital.length ∧ ∀ p ∈ capital.zip word, p.2 = p.1 ∨ p.2 = p.1 + 32

/-- `w` is a date-time group: day, hour and minute as six digits, perhaps a letter for the time zone, a month and a year. -/
structure DtgWord (w day zone month year : List Int) : Prop where
  word : w = day ++ zone ++ month ++ year
  day : day.length = 6 ∧ ∀ c ∈ day, 48 ≤ c ∧ c ≤ 57
  zone : zone = [] ∨ ∃ z, zone = [z] ∧ ((65 ≤ z ∧ z ≤ 90) ∨ (97 ≤ z ∧ z ≤ 122))
  month : month = [] ∨ ∃ mo ∈ months, InEitherCase mo month
  year : year = [] ∨ (year.length = 2 ∧ ∀ c ∈ year, 48 ≤ c ∧ c ≤ 57)

/-- The radiogram `s` is `TO.. DE FROM DTG INSTR COUNT = text`, where date-time group, instruction (up to four letters) and group
count (up to four digits) may be missing.  Neither the recipients nor the sender nor the instruction is the word DE, and there are
no two adjacent equal signs. -/
structure ShortForm (s : List Int) (names : List (List Int)) (sender : List Int) (dtg instr count : Option (List Int))
    (text : List Int) : Prop where
  laid : ∃ lead pre de, s = lead ++ pre ++ 61 :: text ∧ (∀ c ∈ lead, c = 32) ∧ IsDe de ∧
    Laid (names ++ de :: sender :: (dtg.toList ++ instr.toList ++ count.toList)) pre
  notDe : ∀ w ∈ names ++ sender :: instr.toList, ¬ IsDe w
  dtg : ∀ w ∈ dtg, ∃ day zone month year, DtgWord w day zone month year
  instr : ∀ w ∈ instr, w.length ≤ 4 ∧ ∀ c ∈ w, (65 ≤ c ∧ c ≤ 90) ∨ (97 ≤ c ∧ c ≤ 122)
  count : ∀ w ∈ count, w.length ≤ 4 ∧ ∀ c ∈ w, 48 ≤ c ∧ c ≤ 57
  single : ¬ ∃ x y, s = x ++ 61 :: 61 :: y

/-- `body` followed by the end sign ` = K` or ` = +`, with blanks around it as they please.  The body begins and ends with a
character that is neither white space nor `=` nor `+`, and nothing contains a line feed. -/
structure Ended (space : Int → Bool) (text body : List Int) : Prop where
  layout : ∃ g1 g2 g3 g4 k, text = g1 ++ body ++ g2 ++ 61 :: g3 ++ k :: g4 ∧ (k = 75 ∨ k = 107 ∨ k = 43) ∧
    ∀ c ∈ g1 ++ g2 ++ g3 ++ g4, Blank c
  some : body ≠ []
  first : ∀ c ∈ body.head?, space c = false
  last : ∀ c ∈ body.getLast?, space c = false ∧ c ≠ 61 ∧ c ≠ 43
  line : 10 ∉ text

/-- InWords in order with gaps between them (and possibly after the last).  InWords contain no blanks. -/
inductive Spaced (gap : Int → Prop) : List (List Int) → List Int → Prop
  | nil : Spaced gap [] []
  | cons {w g s : List Int} {ws : List (List Int)} : w ≠ [] → (∀ c ∈ w, ¬ Blank c) → (∀ c ∈ g, gap c) →
      (ws ≠ [] → g ≠ []) → Spaced gap ws s → Spaced gap (w :: ws) (w ++ g ++ s)

/-- The text consists of these words, with gaps between them and possibly around them. -/
def InWords (gap : Int → Prop) (ws : List (List Int)) (s : List Int) : Prop := ∃ lead s', s = lead ++ s' ∧ (∀ c ∈ lead, gap c) ∧ Spaced gap ws s'

/-- The two texts consist of the same words, with spaces between them. -/
def SameWords (a b : List Int) : Prop := ∃ ws, InWords (· = 32) ws a ∧ InWords (· = 32) ws b

/-- A call-sign in capitals other than DE. -/
def Station (w : List Int) : Prop := w ≠ [] ∧ (∀ c ∈ w, CapitalCallChar c) ∧ ¬ IsDe w

/-- A time is printed as a date-time group in capitals with a letter for the time zone. -/
def PrintedTime (w : List Int) : Prop :=
  (∃ day zone month year, DtgWord w day zone month year ∧ zone ≠ []) ∧ ∀ c ∈ w, CapitalCallChar c

end K431.Spec
