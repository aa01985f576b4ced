import Verif.Regex
import Verif.Messages

/-!
# Model of `ParseRadiogram` (messages.go:40-84, 210-249)
-/

namespace K431

/-- `\s`: `[\t\n\f\r ]` -/
def reSpace (c : Rune) : Bool := c == 9 || c == 10 || c == 12 || c == 13 || c == 32
/-- `\d`, `[0-9]` -/
def reDigit (c : Rune) : Bool := 48 ≤ c && c ≤ 57
/-- `[A-Z]` under `(?i)`: with simple case folding this includes U+017F (folds with S) and U+212A (folds
with K). -/
def reLetter (c : Rune) : Bool := (65 ≤ c && c ≤ 90) || (97 ≤ c && c ≤ 122) || c == 383 || c == 8490
/-- a capital letter of a literal under `(?i)` -/
def reLit (u : Rune) (c : Rune) : Bool := c == u || c == u + 32 || (u == 83 && c == 383) || (u == 75 && c == 8490)
/-- `[A-Z0-9/]` under `(?i)` -/
def reCall (c : Rune) : Bool := reLetter c || reDigit c || c == 47
/-- `[A-Z0-9/,\s]` under `(?i)` -/
def reCalls (c : Rune) : Bool := reCall c || c == 44 || reSpace c
/-- `[A-Z\s]` under `(?i)` -/
def reWords (c : Rune) : Bool := reLetter c || reSpace c
/-- `.` without (?s): everything but the newline -/
def reAny (c : Rune) : Bool := c != 10
/-- `=` -/
def reEq (c : Rune) : Bool := c == 61

/-- the literal under `(?i)` -/
def reWord (s : String) : Re := Re.seqs ((Spec.lit s).map (fun u => .cls (reLit u)))

/-- `\s*` -/
def reBlanks : Re := .star reSpace

/-- `([A-Z0-9/,\s]*)(?:\s+|^)DE\s+([A-Z0-9/]+)\s*`, the common beginning of the four expressions. -/
def reHead : List Re :=
  [.cap 1 (.star reCalls), .alt (Re.plus reSpace) .bot, reWord "DE", Re.plus reSpace, .cap 2 (Re.plus reCall), reBlanks]

/-- `([0-9]{6}[A-Z]{0,1}(?:JAN|…|DEC){0,1}(?:[0-9]{2}){0,1}){0,1}` -/
def reDtg : Re :=
  .opt (.cap 3 (Re.seqs [Re.times (.cls reDigit) 6, .opt (.cls reLetter),
    .opt (Re.alts (["JAN", "FEB", "MAR", "APR", "MAY", "MAJ", "JUN", "JUL", "AUG", "SEP", "OCT", "OKT", "NOV", "DEC"].map reWord)),
    .opt (Re.times (.cls reDigit) 2)]))

/-- `(.*)` -/
def reText : Re := .cap 4 (.star reAny)

/-- `MessageRegexpFull`, messages.go:48. -/
def regexpFull : Re := Re.seqs (reHead ++ [reDtg, reBlanks, .cls reEq, .cls reEq, reBlanks, .star reCalls, reBlanks,
  .cls reEq, .cls reEq, reBlanks, .star reWords, reBlanks, .star reDigit, reBlanks, .cls reEq, reBlanks, reText])

/-- `MessageRegexpSemi`, messages.go:58. -/
def regexpSemi : Re := Re.seqs (reHead ++ [reDtg, reBlanks, .cls reEq, .cls reEq, reBlanks, .star reCalls, reBlanks, .star reDigit,
  reBlanks, .cls reEq, reBlanks, reText])

/-- `MessageRegexpShort`, messages.go:69. -/
def regexpShort : Re := Re.seqs (reHead ++ [reDtg, reBlanks, Re.upTo (.cls reLetter) 4, reBlanks, Re.upTo (.cls reDigit) 4,
  reBlanks, .cls reEq, reBlanks, reText])

/-- `MessageRegexpMini`, messages.go:78. -/
def regexpMini : Re := Re.seqs (reHead ++ [reDtg, reBlanks, .star reEq, reBlanks, reText])

/-- `[K+]` under `(?i)` -/
def reKPlus (c : Rune) : Bool := reLit 75 c || c == 43

/-- `MessageTrailRegexp`, messages.go:83. -/
def regexpTrail : Re := Re.seqs [.cap 1 (Re.alts [
    Re.seqs [reBlanks, .cls reEq, reBlanks, .cls reKPlus],
    Re.seqs [.cls reSpace, .cls reKPlus],
    Re.seqs [reBlanks, .cls (· == 91), reWord "AR", .cls (· == 93)],
    Re.seqs [reBlanks, .cls reEq, reBlanks, reWord "AR"]]), reBlanks, .eot]

/-- `MessageTrailRegexp.ReplaceAllString(s, "")`: a match reaches to the end of the text and is not empty, so there is
at most one replacement, of the leftmost match. -/
def withoutTrail (s : Runes) : Runes :=
  match regexpTrail.find s with
  | some (n, _) => s.take n
  | none => s

/-- The loop over the expressions, messages.go:217-247: groups of the first one that matches. -/
def firstMatch (s : Runes) : List Re → Option (List (Nat × Runes))
  | [] => none
  | r :: rs =>
    match r.find s with
    | some (_, t) => some t.caps
    | none => firstMatch s rs

/-- What the outside world provides to `ParseRadiogram`: `blox.ReplaceLineBreaks(s, " ")`, `dtg.Parse` and the time. -/
structure RadioEnv where
  unbreak : Runes → Runes
  dtgParse : Runes → Outcome Int
  now : Int

/-- `ParseRadiogram`, messages.go:210-249.  `none`: has not returned when the random tape is used up. -/
def parseRadiogram (U : Unicode) (E : RadioEnv) (msgs : List Msg) (radiogram : Runes) (t : Tape) :
    Option (Outcome Msg × Tape) :=
  let radiogram := E.unbreak radiogram
  match newUniqueMessageId msgs t with
  | none => none
  | some (id, t) =>
    match firstMatch radiogram [regexpFull, regexpSemi, regexpShort, regexpMini] with
    | none => some (.err .other, t)
    | some caps =>
      let recipients := vettedKeepers U [capture caps 1]
      let from_ := toUpperStr U (trimSpace U (capture caps 2))
      let dtgString := toUpperStr U (trimSpace U (capture caps 3))
      match (if dtgString.length = 0 then .ok E.now else E.dtgParse dtgString : Outcome Int) with
      | .err e => some (.err e, t)
      | .panic => some (.panic, t)
      | .ok dtg =>
        let text := trimSpace U (withoutTrail (capture caps 4))
        let plain := trimRight (fun r => U.isSpace r || r == 43 || r == 61) text
        some (.ok ⟨id, recipients, from_, dtg, Sl.nil, plain, [], radiogram⟩, t)

/-- `NewTextMessage` with `ParseRadiogram` put in: draws the message id from the tape.  `freshId` is not used, as the message has an
id when it is enciphered or deciphered. -/
def newTextMessageRun (U : Unicode) (noise : Nat → Rune) (E : RadioEnv) (freshId : Runes) (inst : Inst) (args : List Runes)
    (t : Tape) : Option ((Outcome Msg × Inst) × Tape) :=
  match args with
  | [] => some (newTextMessage U noise freshId (fun _ => .panic) inst [], t)
  | r :: rest =>
    match parseRadiogram U E inst.messages r t with
    | none => none
    | some (o, t) => some (newTextMessage U noise freshId (fun _ => o) inst (r :: rest), t)

end K431
