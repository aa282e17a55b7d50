import Verif.Py.Str

/-! Model of the translation of C++ template types, `/repo/src/litgen/internal/cpp_to_python.py:49-120`. -/

namespace Verif.TArgs
open Verif.Py

/-- `/repo/src/litgen/internal/cpp_to_python.py:60-71`: the loop that looks for the matching `>`, started after the first
`<` with depth 1. The result is the text before it and the text after it. -/
def closing : Nat → Str → Option (Str × Str)
  | _, [] => none
  | depth, c :: cs =>
    if c = '<' then (closing (depth + 1) cs).map (fun x => (c :: x.1, x.2))
    else if c = '>' then
      if depth = 1 then some ([], cs) else (closing (depth - 1) cs).map (fun x => (c :: x.1, x.2))
    else (closing depth cs).map (fun x => (c :: x.1, x.2))

/-- `/repo/src/litgen/internal/cpp_to_python.py:54`: `s.find("<")`, as the text before it and the text after it. -/
def findOpen : Str → Option (Str × Str)
  | [] => none
  | c :: cs => if c = '<' then some ([], cs) else (findOpen cs).map (fun x => (c :: x.1, x.2))

/-- `/repo/src/litgen/internal/cpp_to_python.py:49-85` `_split_cpp_type_template_args` -/
def splitArgs (s : Str) : List Str :=
  match findOpen s with
  | none => [s]
  | some (before, rest) =>
    match closing 1 rest with
    | none => [s]
    | some (inside, after) => [before, inside, after]

/-- `re.sub(r"\s+", " ", s)` -/
def squeeze : Str → Str
  | [] => []
  | [c] => if isSpace c then [' '] else [c]
  | c :: d :: r => if isSpace c then (if isSpace d then squeeze (d :: r) else ' ' :: squeeze (d :: r)) else c :: squeeze (d :: r)

/-- `/repo/src/litgen/internal/cpp_to_python.py:110-113`: the end of the function; the lines 115-118 have no effect. -/
def finish (s : Str) : Str := strip (squeeze (replace (replace s ['<'] ['[']) ['>'] [']']))

/-- What can go wrong: `IndexError` of `tokens[2]`, or not enough fuel (this is proved impossible). -/
inductive Err
  | index
  | fuel
deriving DecidableEq

/-- `/repo/src/litgen/internal/cpp_to_python.py:88-120` `_perform_cpp_type_replacements_recursively`, where `repl` is
`type_replacements.apply`. -/
def translateLoop (repl : Str → Str) : Nat → Str → Except Err Str
  | 0, _ => .error .fuel
  | n + 1, s =>
    if '<' ∉ s then .ok (repl s)
    else
      match splitArgs s with
      | [before, inside, after] =>
        match translateLoop repl n (strip inside) with
        | .ok x => .ok (finish (repl (repl (strip before) ++ ['<'] ++ x ++ ['>'] ++ repl (strip after))))
        | .error e => .error e
      | _ => .error .index

/-- Entry point, with as fuel the length of the type plus one. -/
def translate (repl : Str → Str) (s : Str) : Except Err Str := translateLoop repl (s.length + 1) s

end Verif.TArgs
