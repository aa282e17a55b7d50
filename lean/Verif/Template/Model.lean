import Verif.Py.Str

/-! Model of the template helpers of `/repo/src/codemanip/code_utils.py`. A Python dict is the list of
its items in insertion order. -/

namespace Verif.Template
open Verif.Py

/-- `"{" + search + "}"` -/
def hole (search : Str) : Str := '{' :: search ++ ['}']

/-- `/repo/src/codemanip/code_utils.py:818-823` `replace_in_string`. -/
def replaceInString (inputString : Str) (replacements : List (Str × Str)) : Str :=
  replacements.foldl (fun r kv => replace r (hole kv.1) kv.2) inputString

/-- `/repo/src/codemanip/code_utils.py:852-862`, the body of the loop. -/
def replaceOrRemove (r : Str) (kv : Str × Option Str) : Str :=
  match kv.2 with
  | none => unlines ((lines r).filter (fun line => !contains line (hole kv.1)))
  | some v => replace r (hole kv.1) v

/-- `/repo/src/codemanip/code_utils.py:849-864` `replace_in_string_remove_line_if_none`. -/
def replaceInStringRemoveLineIfNone (inputString : Str) (replacements : List (Str × Option Str)) : Str :=
  replacements.foldl replaceOrRemove inputString

/-- `"maybe_comma"` -/
def maybeComma : Str := "maybe_comma".toList

/-- `/repo/src/codemanip/code_utils.py:839-845`, the three successive `if`. -/
def dropFinalComma (r : Str) : Str :=
  let r := if endsWith r [',', ' '] then r.take (r.length - 2) else r
  let r := if endsWith r [',', ' ', ')', ';'] then r.take (r.length - 4) ++ [')', ';'] else r
  if endsWith r [',', ' ', ')'] then r.take (r.length - 3) ++ [')'] else r

/-- `/repo/src/codemanip/code_utils.py:826-846` `process_code_template`. -/
def processCodeTemplate (inputString : Str) (replacements : List (Str × Str))
    (withLineRemoval : List (Str × Option Str) := []) (flagReplaceMaybeComma : Bool := true) : Str :=
  let r := replaceInString inputString replacements
  let r := replaceInStringRemoveLineIfNone r withLineRemoval
  if flagReplaceMaybeComma then dropFinalComma (replace r (hole maybeComma) [',', ' ']) else r

/-- `/repo/src/codemanip/code_utils.py:871-876`, the body of the loop of `replace_maybe_comma`. -/
def maybeCommaLine (nbLines : Nat) (nbSkippedFinalLines : Nat) (i : Nat) (line : Str) : Str :=
  if contains line (hole maybeComma) then
    if (i : Int) = (nbLines : Int) - 1 - (nbSkippedFinalLines : Int) then
      replace line (hole maybeComma) []
    else replace line (hole maybeComma) [',']
  else line

/-- `/repo/src/codemanip/code_utils.py:867-879` `replace_maybe_comma`. -/
def replaceMaybeComma (code : Str) (nbSkippedFinalLines : Nat) : Str :=
  unlines ((lines code).zipIdx.map
    (fun p => maybeCommaLine (lines code).length nbSkippedFinalLines p.2 p.1))

end Verif.Template
