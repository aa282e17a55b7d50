import Verif.Py.Str

/-! Model of `/repo/src/codemanip/code_replacements.py`. The regular expression engine is abstract:
`sub what by s` stands for `re.compile(what).subn(by, s)[0]`; everything is proved for every `sub`. -/

namespace Verif.Repl
open Verif.Py

/-- `/repo/src/codemanip/code_replacements.py:6-12` `RegexReplacement`: pattern and replacement. -/
structure Replacement where
  what : Str
  byWhat : Str
deriving DecidableEq

/-- The engine: pattern, replacement, subject, result. -/
abbrev Engine := Str → Str → Str → Str

/-- `/repo/src/codemanip/code_replacements.py:14-16` `RegexReplacement.apply`. -/
def Replacement.apply (sub : Engine) (r : Replacement) (s : Str) : Str := sub r.what r.byWhat s

/-- `" -> "` -/
def arrow : Str := [' ', '-', '>', ' ']

/-- `/repo/src/codemanip/code_replacements.py:23-35` `RegexReplacement.from_string`;
`none` is the `IndexError` of `items[1]`. -/
def fromLine (line : Str) : Option Replacement :=
  match split line arrow with
  | what :: byWhat :: _ =>
    let byWhat := strip byWhat
    let byWhat := if byWhat = "REMOVE".toList then [] else byWhat
    some ⟨strip what, byWhat⟩
  | _ => none

/-- `/repo/src/codemanip/code_replacements.py:45-53` `RegexReplacementList.from_string`
(`none` when one of the lines raises). -/
def fromString (text : Str) : Option (List Replacement) :=
  (((lines text).map strip).filter (fun s => s.length > 0)).mapM fromLine

/-- `/repo/src/codemanip/code_replacements.py:62-63`, one pass over the list. -/
def pass (sub : Engine) (rs : List Replacement) (s : Str) : Str := rs.foldl (fun r x => x.apply sub r) s

/-- `/repo/src/codemanip/code_replacements.py:60-64`, the `while` loop: `remaining` is
`max_iterations - iteration`. -/
def applyLoop (sub : Engine) (rs : List Replacement) : Nat → Option Str → Str → Str
  | 0, _, r => r
  | remaining + 1, previous, r =>
    if previous ≠ some r then applyLoop sub rs remaining (some r) (pass sub rs r) else r

/-- `/repo/src/codemanip/code_replacements.py:55-65` `RegexReplacementList.apply`. -/
def apply (sub : Engine) (rs : List Replacement) (s : Str) : Str := applyLoop sub rs 3 none s

/-- `/repo/src/codemanip/code_replacements.py:67-75`. -/
def addLast (rs : List Replacement) (r : Replacement) : List Replacement := rs ++ [r]

/-- `/repo/src/codemanip/code_replacements.py:77-82` `add_replacements`. -/
def addReplacements (rs : List Replacement) (new : List Replacement) : List Replacement :=
  new.foldl addLast rs

/-- `/repo/src/codemanip/code_replacements.py:84-89`. -/
def addFirst (rs : List Replacement) (r : Replacement) : List Replacement := [r] ++ rs

/-- `/repo/src/codemanip/code_replacements.py:91-92` `merge_replacements`. -/
def merge (rs other : List Replacement) : List Replacement := rs ++ other

end Verif.Repl
