import Verif.Basic

/-!
# Regular expressions as used in `messages.go`

Model of Go's `regexp` (package documentation: the match is the one a backtracking engine would find
first, "leftmost-first"): a matcher returns all ways to match, in order of preference.  Repetition is
needed of single-character classes only.
-/

namespace K431

/-- Syntax of the expressions needed. -/
inductive Re where
  | eps
  | cls (p : Rune → Bool)        -- one rune of a class
  | seq (a b : Re)
  | alt (a b : Re)               -- prefers `a`
  | star (p : Rune → Bool)       -- greedy repetition of a class
  | opt (a : Re)                 -- greedy `{0,1}`
  | cap (i : Nat) (a : Re)       -- capturing group
  | bot                          -- `^` without (?m)
  | eot                          -- `$` without (?m)

/-- State of the matcher: are we at the beginning of the text, what is left of it, and the groups captured so far, the latest
first. -/
structure ReSt where
  atStart : Bool
  rest : Runes
  caps : List (Nat × Runes)
  deriving DecidableEq, Repr

/-- All ends of a greedy repetition, longest first. -/
def starRun (p : Rune → Bool) : Bool → Runes → List (Bool × Runes)
  | b, [] => [(b, [])]
  | b, c :: cs => if p c then starRun p false cs ++ [(b, c :: cs)] else [(b, c :: cs)]

/-- All ways to match, in order of preference. -/
def Re.run : Re → ReSt → List ReSt
  | .eps, s => [s]
  | .cls p, s =>
    match s.rest with
    | [] => []
    | c :: cs => if p c then [{ s with atStart := false, rest := cs }] else []
  | .seq a b, s => (a.run s).flatMap b.run
  | .alt a b, s => a.run s ++ b.run s
  | .star p, s => (starRun p s.atStart s.rest).map (fun r => { s with atStart := r.1, rest := r.2 })
  | .opt a, s => a.run s ++ [s]
  | .cap i a, s => (a.run s).map (fun t => { t with caps := (i, s.rest.take (s.rest.length - t.rest.length)) :: t.caps })
  | .bot, s => if s.atStart then [s] else []
  | .eot, s => if s.rest.isEmpty then [s] else []

/-- The text of group `i`; a group that did not take part is the empty string. -/
def capture (caps : List (Nat × Runes)) (i : Nat) : Runes :=
  match caps.find? (fun p => p.1 == i) with
  | some p => p.2
  | none => []

/-- `FindAllStringSubmatch(s, 1)`: the leftmost match; result: number of runes before the match and the final state. -/
def Re.findFrom (r : Re) : Nat → Bool → Runes → Option (Nat × ReSt)
  | n, b, s =>
    match (r.run ⟨b, s, []⟩).head? with
    | some t => some (n, t)
    | none =>
      match s with
      | [] => none
      | _ :: cs => r.findFrom (n + 1) false cs

/-- the leftmost match -/
def Re.find (r : Re) (s : Runes) : Option (Nat × ReSt) := r.findFrom 0 true s

/-- a sequence of expressions -/
def Re.seqs : List Re → Re
  | [] => .eps
  | [a] => a
  | a :: as => .seq a (Re.seqs as)

/-- alternatives -/
def Re.alts : List Re → Re
  | [] => .eps
  | [a] => a
  | a :: as => .alt a (Re.alts as)

/-- `a{n}` -/
def Re.times (a : Re) : Nat → Re
  | 0 => .eps
  | 1 => a
  | n + 1 => .seq a (a.times n)

/-- `a{0,n}` -/
def Re.upTo (a : Re) : Nat → Re
  | 0 => .eps
  | n + 1 => .opt (.seq a (a.upTo n))

/-- `p+` -/
def Re.plus (p : Rune → Bool) : Re := .seq (.cls p) (.star p)

end K431
