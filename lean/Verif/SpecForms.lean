import Verif.SpecTraffic

/-!
# Specification vocabulary: the forms of a radiogram and the ways to end it

The documented forms (help text and comments of `messages.go`) are

    AA BB CC DE DD 012345 == XY ZZ/P == COL 3 = ABCDE FGHIJ KLMNO = K
    AA DE BB 012345 == VJ QJ 3 = ABCDE FGHIJ KLMNO = K
    TO DE FROM 012345 C = This is a broadcast message. +
    AB DE ZY 012345 WELL, HELLO THERE = K
    DE SA6MWA HELLO WORLD
-/

namespace K431.Spec

/-- The sign that asks the other station to answer, or the one that ends the traffic: K (of either case; the Kelvin sign is a k too) or +. -/
def OverSign (c : Int) : Prop := c = 75 ∨ c = 107 ∨ c = kelvin ∨ c = 43

/-- A text that is just the end of a message: ` K`, ` +`, ` = K`, ` = +`, ` [AR]` or ` = AR`, with blanks around the signs as they please
(but at least one before a K or + that stands alone). -/
inductive EndMark : List Int → Prop
  | over {g g2 : List Int} {k : Int} : g ≠ [] → (∀ c ∈ g ++ g2, Blank c) → OverSign k → EndMark (g ++ k :: g2)
  | equalOver {g g1 g2 : List Int} {k : Int} : (∀ c ∈ g ++ g1 ++ g2, Blank c) → OverSign k → EndMark (g ++ 61 :: (g1 ++ k :: g2))
  | ar {g g2 : List Int} {a r : Int} : (∀ c ∈ g ++ g2, Blank c) → (a = 65 ∨ a = 97) → (r = 82 ∨ r = 114) →
      EndMark (g ++ 91 :: a :: r :: 93 :: g2)
  | equalAr {g g1 g2 : List Int} {a r : Int} : (∀ c ∈ g ++ g1 ++ g2, Blank c) → (a = 65 ∨ a = 97) → (r = 82 ∨ r = 114) →
      EndMark (g ++ 61 :: (g1 ++ a :: r :: g2))

/-- `text` is `body`, perhaps after blanks, and then one of the documented ends, or none at all (then `body` does not look as if it had one).
The body begins and ends with a character that is neither white space nor, at the end, `=` or `+`; nothing contains a line feed. -/
structure Closed (space : Int → Bool) (text body : List Int) : Prop where
  layout : ∃ g z, text = g ++ body ++ z ∧ (∀ c ∈ g, Blank c) ∧
    (EndMark z ∨ ((∀ c ∈ z, Blank c) ∧ ¬ ∃ x y, body = x ++ y ∧ EndMark y))
  some : body ≠ []
  first : ∀ c ∈ body.head?, space c = false
  last : ∀ c ∈ body.getLast?, space c = false ∧ c ≠ 61 ∧ c ≠ 43
  line : 10 ∉ text

/-- A date-time group as documented: `DDHHMM`, `DDHHMMZ` or `DDHHMMZmmmYY` (and what is between these): with a month there is a time zone. -/
def DocumentedDtg (w : List Int) : Prop := ∃ day zone month year, DtgWord w day zone month year ∧ (zone ≠ [] ∨ month = [])

/-- `pre` is `TO.. DE FROM DTG`: call-signs, the word DE, the sender and perhaps a date-time group, with spaces between them. -/
structure Heading (pre : List Int) (names : List (List Int)) (sender : List Int) (dtg : Option (List Int)) : Prop where
  laid : ∃ lead words de, pre = lead ++ words ∧ (∀ c ∈ lead, c = 32) ∧ IsDe de ∧ Laid (names ++ de :: sender :: dtg.toList) words
  notDe : ∀ w ∈ names ++ [sender], ¬ IsDe w
  dtg : ∀ w ∈ dtg, DocumentedDtg w

/-- There are two equal signs next to each other. -/
def DoubleEqual (s : List Int) : Prop := ∃ x y, s = x ++ 61 :: 61 :: y

/-- `TO.. DE FROM DTG == ADDRESSEES == INSTRUCTION COUNT = text`.  The addressees are a list of call-signs, the instruction consists of
letters and blanks, the count of digits.  There is no condition on the text. -/
structure FullForm (s : List Int) (names : List (List Int)) (sender : List Int) (dtg : Option (List Int)) (text : List Int) : Prop where
  form : ∃ pre addressees instr count gap, s = pre ++ 61 :: 61 :: (addressees ++ 61 :: 61 :: (instr ++ count ++ gap ++ 61 :: text)) ∧
    Heading pre names sender dtg ∧ (∀ c ∈ addressees, ListChar c) ∧
    (∀ c ∈ instr, (65 ≤ c ∧ c ≤ 90) ∨ (97 ≤ c ∧ c ≤ 122) ∨ Blank c) ∧ (∀ c ∈ count, 48 ≤ c ∧ c ≤ 57) ∧ (∀ c ∈ gap, Blank c)

/-- `TO.. DE FROM DTG == ADDRESSEES COUNT = text`.  The text does not begin with an equal sign and has no two of them next to each other. -/
structure SemiForm (s : List Int) (names : List (List Int)) (sender : List Int) (dtg : Option (List Int)) (text : List Int) : Prop where
  form : ∃ pre addressees, s = pre ++ 61 :: 61 :: (addressees ++ 61 :: text) ∧ Heading pre names sender dtg ∧ ∀ c ∈ addressees, ListChar c
  single : ¬ DoubleEqual (61 :: text)

/-- `TO.. DE FROM DTG text`: the shortest form.  The text is separated from the heading by a space and does not begin with an equal sign nor,
if there is no date-time group, with six digits. -/
structure MiniForm (s : List Int) (names : List (List Int)) (sender : List Int) (dtg : Option (List Int)) (text : List Int) : Prop where
  form : ∃ pre, s = pre ++ 32 :: text ∧ Heading (pre ++ [32]) names sender dtg
  start : ∀ c ∈ text.head?, ¬ Blank c ∧ c ≠ 61
  notDtg : dtg = none → ¬ ∃ six rest, text = six ++ rest ∧ six.length = 6 ∧ ∀ c ∈ six, 48 ≤ c ∧ c ≤ 57

/-- The text begins with up to four letters and up to four digits, and then an equal sign, as if they were instruction and count of the
short form. -/
def LooksCounted (text : List Int) : Prop :=
  ∃ instr g count g2 rest, text = instr ++ g ++ count ++ g2 ++ 61 :: rest ∧ instr.length ≤ 4 ∧ count.length ≤ 4 ∧
    (∀ c ∈ instr, (65 ≤ c ∧ c ≤ 90) ∨ (97 ≤ c ∧ c ≤ 122) ∨ FoldsToLetter c) ∧ (∀ c ∈ count, 48 ≤ c ∧ c ≤ 57) ∧ ∀ c ∈ g ++ g2, Blank c

end K431.Spec
