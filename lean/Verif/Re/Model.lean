import Verif.Repl.Model
import Verif.Scope.Model

/-! Model of the regular expressions of Python's `re`, for the constructs that the standard replacements of litgen use
(`/repo/src/litgen/internal/cpp_to_python.py:739-883`): characters, `.`, sets, `\b \s \w \d` and their negations, `$`, groups, alternatives,
greedy and lazy repetitions, lookahead, negative lookbehind of one character. With it the engine that is a parameter in `Verif/Repl`
(`/repo/src/codemanip/code_replacements.py:14-16`) gets a definition. -/

namespace Verif.Re
open Verif.Py
open Verif.Scope (isWordChar)

/-- A member of a set of characters. -/
inductive Item
  | one (c : Char)
  | range (a b : Char)
  | space (neg : Bool)
  | word (neg : Bool)
  | digit (neg : Bool)
deriving DecidableEq

/-- `[0-9]`; other decimal digits of Unicode are not counted. -/
def isDigit (c : Char) : Bool := decide (48 ≤ c.toNat) && decide (c.toNat ≤ 57)

/-- `u` says which characters above 127 are alphanumeric. -/
def Item.has (u : Char → Bool) : Item → Char → Bool
  | .one d, c => decide (c = d)
  | .range a b, c => decide (a.toNat ≤ c.toNat) && decide (c.toNat ≤ b.toNat)
  | .space neg, c => neg != isSpace c
  | .word neg, c => neg != isWordChar u c
  | .digit neg, c => neg != isDigit c

/-- A regular expression. -/
inductive Re
  | eps
  | chr (c : Char)
  | any
  | set (neg : Bool) (items : List Item)
  | wordB
  | atEnd
  | notBehind (items : List Item)
  | ahead (r : Re)
  | group (n : Nat) (r : Re)
  | seq (a b : Re)
  | alt (a b : Re)
  | star (greedy : Bool) (r : Re)
deriving DecidableEq

/-- A place in the text: the character before it, what follows it; and the groups that are matched so far, the last one first. -/
structure St where
  prev : Option Char
  rest : Str
  caps : List (Nat × Str)
deriving DecidableEq

/-- One character. -/
def step (p : Char → Bool) : St → List St
  | ⟨_, c :: r, caps⟩ => if p c then [⟨some c, r, caps⟩] else []
  | _ => []

/-- `\b` -/
def boundary (u : Char → Bool) (st : St) : Bool := st.prev.any (isWordChar u) != st.rest.head?.any (isWordChar u)

/-- What is between two places. -/
def between (st t : St) : Str := st.rest.take (st.rest.length - t.rest.length)

/-- Repetition: the ends in the order in which they are tried. -/
def iter (greedy : Bool) (f : St → List St) : Nat → St → List St
  | 0, st => [st]
  | n + 1, st =>
    let more := ((f st).filter (fun t => decide (t.rest.length < st.rest.length))).flatMap (iter greedy f n)
    if greedy then more ++ [st] else st :: more

/-- The places where a match that begins here may end, in the order in which the backtracking of `re` tries them. A repeated expression
consumes at least one character each time (`parseQuant` reads no others). -/
def run (u : Char → Bool) : Re → St → List St
  | .eps, st => [st]
  | .chr c, st => step (fun d => decide (d = c)) st
  | .any, st => step (fun d => decide (d ≠ '\n')) st
  | .set neg items, st => step (fun d => neg != items.any (·.has u d)) st
  | .wordB, st => if boundary u st then [st] else []
  | .atEnd, st => if st.rest = [] ∨ st.rest = ['\n'] then [st] else []
  | .notBehind items, st => if st.prev.any (fun d => items.any (·.has u d)) then [] else [st]
  | .ahead r, st =>
    match run u r st with
    | [] => []
    | t :: _ => [⟨st.prev, st.rest, t.caps⟩]
  | .group n r, st => (run u r st).map (fun t => ⟨t.prev, t.rest, (n, between st t) :: t.caps⟩)
  | .seq a b, st => (run u a st).flatMap (run u b)
  | .alt a b, st => run u a st ++ run u b st
  | .star greedy r, st => iter greedy (run u r) st.rest.length st

/-- The match that `re` finds here. -/
def matchAt (u : Char → Bool) (r : Re) (prev : Option Char) (rest : Str) : Option St := (run u r ⟨prev, rest, []⟩).head?

/-- The same, but not an empty one. -/
def matchAt1 (u : Char → Bool) (r : Re) (prev : Option Char) (rest : Str) : Option St :=
  ((run u r ⟨prev, rest, []⟩).filter (fun t => decide (t.rest.length < rest.length))).head?

/-- A piece of the replacement text: a character or the text of a group. -/
inductive Tok
  | chr (c : Char)
  | ref (n : Nat)
deriving DecidableEq

/-- The text of a group; a group that took no part in the match is empty. -/
def capture (caps : List (Nat × Str)) (n : Nat) : Str := ((caps.find? (fun x => decide (x.1 = n))).map Prod.snd).getD []

/-- `match.expand` -/
def expand (caps : List (Nat × Str)) (tmpl : List Tok) : Str :=
  tmpl.flatMap (fun
    | .chr c => [c]
    | .ref n => capture caps n)

/-- `pattern.sub`: the matches are looked for from left to right; after an empty match, one that is not empty is looked for at the same place.
`skip` is the number of characters that the last match still covers. -/
def scan (u : Char → Bool) (r : Re) (tmpl : List Tok) : Option Char → Nat → Str → Str
  | prev, _, [] =>
    match matchAt u r prev [] with
    | none => []
    | some t => expand t.caps tmpl
  | _, skip + 1, c :: rest => scan u r tmpl (some c) skip rest
  | prev, 0, c :: rest =>
    match matchAt u r prev (c :: rest) with
    | none => c :: scan u r tmpl (some c) 0 rest
    | some t =>
      let n := (c :: rest).length - t.rest.length
      if n ≠ 0 then expand t.caps tmpl ++ scan u r tmpl (some c) (n - 1) rest
      else
        expand t.caps tmpl ++
        match matchAt1 u r prev (c :: rest) with
        | none => c :: scan u r tmpl (some c) 0 rest
        | some t1 => expand t1.caps tmpl ++ scan u r tmpl (some c) ((c :: rest).length - t1.rest.length - 1) rest

def sub (u : Char → Bool) (r : Re) (tmpl : List Tok) (s : Str) : Str := scan u r tmpl none 0 s

/-! ### Reading of patterns -/

/-- Can the expression match without consuming? (An over-approximation.) -/
def nullable : Re → Bool
  | .chr _ => false
  | .any => false
  | .set _ _ => false
  | .group _ r => nullable r
  | .seq a b => nullable a && nullable b
  | .alt a b => nullable a || nullable b
  | _ => true

/-- After a backslash. -/
def escape (c : Char) : Option Re :=
  if c = 'b' then some .wordB
  else if c = 's' then some (.set false [.space false])
  else if c = 'S' then some (.set false [.space true])
  else if c = 'w' then some (.set false [.word false])
  else if c = 'W' then some (.set false [.word true])
  else if c = 'd' then some (.set false [.digit false])
  else if c = 'D' then some (.set false [.digit true])
  else if c.isAlphanum then none
  else some (.chr c)

/-- The members of a set, up to `]`. -/
def parseItems : Nat → Str → Option (List Item × Str)
  | 0, _ => none
  | _ + 1, [] => none
  | _ + 1, ']' :: s => some ([], s)
  | n + 1, '\\' :: c :: s =>
    (if c = 's' then some (Item.space false) else if c = 'w' then some (.word false) else if c = 'd' then some (.digit false)
      else if c.isAlphanum then none else some (.one c)).bind fun i => (parseItems n s).map fun x => (i :: x.1, x.2)
  | n + 1, a :: '-' :: b :: s =>
    if b = ']' then (parseItems n ('-' :: b :: s)).map fun x => (.one a :: x.1, x.2)
    else (parseItems n s).map fun x => (.range a b :: x.1, x.2)
  | n + 1, c :: s => (parseItems n s).map fun x => (.one c :: x.1, x.2)

/-- `[...]`, after the `[`. -/
def parseSet (s : Str) : Option (Re × Str) :=
  match s with
  | '^' :: s => (parseItems (s.length + 1) s).map fun x => (.set true x.1, x.2)
  | s => (parseItems (s.length + 1) s).map fun x => (.set false x.1, x.2)

/-- `?` after a repetition makes it lazy. -/
def parseLazy : Str → Bool × Str
  | '?' :: s => (false, s)
  | s => (true, s)

/-- The quantifier after an expression; `none` for a repetition of something that can be empty. -/
def parseQuant (r : Re) : Str → Option (Re × Str)
  | '*' :: s => let l := parseLazy s; if nullable r then none else some (.star l.1 r, l.2)
  | '+' :: s => let l := parseLazy s; if nullable r then none else some (.seq r (.star l.1 r), l.2)
  | '?' :: s => let l := parseLazy s; some (if l.1 then .alt r .eps else .alt .eps r, l.2)
  | s => some (r, s)

mutual
/-- Alternatives; the number is the one of the last group. -/
def parseAlt : Nat → Nat → Str → Option (Re × Nat × Str)
  | 0, _, _ => none
  | n + 1, g, s =>
    (parseSeq n g s).bind fun x =>
      match x.2.2 with
      | '|' :: s => (parseAlt n x.2.1 s).map fun y => (.alt x.1 y.1, y.2)
      | _ => some x
/-- A sequence, up to `)`, `|` or the end. -/
def parseSeq : Nat → Nat → Str → Option (Re × Nat × Str)
  | 0, _, _ => none
  | _ + 1, g, [] => some (.eps, g, [])
  | _ + 1, g, ')' :: s => some (.eps, g, ')' :: s)
  | _ + 1, g, '|' :: s => some (.eps, g, '|' :: s)
  | n + 1, g, s =>
    (parseAtom n g s).bind fun x => (parseQuant x.1 x.2.2).bind fun q => (parseSeq n x.2.1 q.2).map fun y => (.seq q.1 y.1, y.2)
/-- One expression, without its quantifier. -/
def parseAtom : Nat → Nat → Str → Option (Re × Nat × Str)
  | 0, _, _ => none
  | n + 1, g, '(' :: '?' :: ':' :: s => (parseAlt n g s).bind fun x => close x.1 x.2.1 x.2.2
  | n + 1, g, '(' :: '?' :: '=' :: s => (parseAlt n g s).bind fun x => close (.ahead x.1) x.2.1 x.2.2
  | _ + 1, g, '(' :: '?' :: '<' :: '!' :: '[' :: s =>
    (parseSet s).bind fun x =>
      match x.1 with
      | .set false items => close (.notBehind items) g x.2
      | _ => none
  | _ + 1, _, '(' :: '?' :: _ => none
  | n + 1, g, '(' :: s => (parseAlt n (g + 1) s).bind fun x => close (.group (g + 1) x.1) x.2.1 x.2.2
  | _ + 1, g, '\\' :: c :: s => (escape c).map fun r => (r, g, s)
  | _ + 1, g, '[' :: s => (parseSet s).map fun x => (x.1, g, x.2)
  | _ + 1, g, '.' :: s => some (.any, g, s)
  | _ + 1, g, '$' :: s => some (.atEnd, g, s)
  | _ + 1, g, c :: s => if c ∈ "*+?^{}\\".toList then none else some (.chr c, g, s)
  | _ + 1, _, [] => none
/-- A closing parenthesis. -/
def close (r : Re) (g : Nat) : Str → Option (Re × Nat × Str)
  | ')' :: s => some (r, g, s)
  | _ => none
end

/-- `re.compile`, with the number of groups; `none` for what is not modelled and for what `re` refuses. -/
def compile (s : Str) : Option (Re × Nat) :=
  (parseAlt (3 * s.length + 3) 0 s).bind fun x => if x.2.2 = [] then some (x.1, x.2.1) else none

/-- The replacement text; `none` for a reference to a group that does not exist, and for the escapes that are not modelled. -/
def parseTmpl (groups : Nat) : Str → Option (List Tok)
  | [] => some []
  | '\\' :: c :: s =>
    if isDigit c ∧ c ≠ '0' ∧ c.toNat - 48 ≤ groups then (parseTmpl groups s).map (.ref (c.toNat - 48) :: ·) else none
  | c :: s => if c = '\\' then none else (parseTmpl groups s).map (.chr c :: ·)

/-- `/repo/src/codemanip/code_replacements.py:10-12`: pattern and replacement, once read. -/
def rule (what byWhat : Str) : Option (Re × List Tok) :=
  (compile what).bind fun x => (parseTmpl x.2 byWhat).map fun t => (x.1, t)

/-- `/repo/src/codemanip/code_replacements.py:14-16` `RegexReplacement.apply`. Where `rule` is `none` the text is unchanged; the lists of this
part have no such rule (`C79_rules`). -/
def engine (u : Char → Bool) : Repl.Engine := fun what byWhat s =>
  match rule what byWhat with
  | none => s
  | some x => sub u x.1 x.2 s

end Verif.Re
