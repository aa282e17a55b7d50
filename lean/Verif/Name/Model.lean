import Verif.Py.Str

/-! Model of the case conversions of `/repo/src/codemanip/code_utils.py`.

Simplification: identifiers are ASCII as far as letter case is concerned: `str.lower` and `str.title`
act on the letters `A-Z`, `a-z` only, other characters are kept. -/

namespace Verif.Name
open Verif.Py

/-- regex class `[A-Z]` -/
def isUp (c : Char) : Bool := 65 ≤ c.toNat && c.toNat ≤ 90
/-- regex class `[a-z]` -/
def isLow (c : Char) : Bool := 97 ≤ c.toNat && c.toNat ≤ 122
/-- regex class `[0-9]` -/
def isDig (c : Char) : Bool := 48 ≤ c.toNat && c.toNat ≤ 57

/-- `str.lower` on one character -/
@[irreducible] def lowC (c : Char) : Char := if isUp c then Char.ofNat (c.toNat + 32) else c
/-- `str.upper` on one character -/
@[irreducible] def upC (c : Char) : Char := if isLow c then Char.ofNat (c.toNat - 32) else c

/-- `str.lower` -/
def lower (s : Str) : Str := s.map lowC

/-- Does the regex `(.)([A-Z][a-z]+)` (`/repo/src/codemanip/code_utils.py:247`) match here? `.` is any
character but a newline. -/
def matches1 : Str → Bool
  | a :: u :: l :: _ => a ≠ '\n' && isUp u && isLow l
  | _ => false

/-- `re.sub("(.)([A-Z][a-z]+)", r"\1_\2", s)` (`/repo/src/codemanip/code_utils.py:251`): leftmost, non
overlapping matches. The first argument is the state: `true` while inside the greedy `[a-z]+`. -/
def sub1 : Bool → Str → Str
  | _, [] => []
  | inTail, c :: cs =>
    if inTail && isLow c then c :: sub1 true cs
    else
      match cs with
      | u :: rest =>
        if matches1 (c :: u :: rest) then c :: '_' :: u :: sub1 true rest
        else c :: sub1 false (u :: rest)
      | [] => [c]

/-- `re.sub("__([A-Z])", r"_\1", s)` (`/repo/src/codemanip/code_utils.py:248, 252`). -/
def sub2 : Str → Str
  | a :: b :: u :: rest =>
    if a = '_' ∧ b = '_' ∧ isUp u then '_' :: u :: sub2 rest
    else a :: sub2 (b :: u :: rest)
  | s => s

/-- `re.sub("([a-z0-9])([A-Z])", r"\1_\2", s)` (`/repo/src/codemanip/code_utils.py:249, 253`). -/
def sub3 : Str → Str
  | a :: u :: rest =>
    if (isLow a || isDig a) && isUp u then a :: '_' :: u :: sub3 rest
    else a :: sub3 (u :: rest)
  | s => s

/-- `/repo/src/codemanip/code_utils.py:245-258` `to_snake_case`. -/
def toSnakeCase (name : Str) : Str := lower (sub3 (sub2 (sub1 false name)))

/-- `str.title` -/
def titleAux : Bool → Str → Str
  | _, [] => []
  | prevCased, c :: cs =>
    (if prevCased then lowC c else upC c) :: titleAux (isUp c || isLow c) cs

/-- `/repo/src/codemanip/code_utils.py:261-263` `to_camel_case`. -/
def toCamelCase (name : Str) : Str := (splitOn '_' name).flatMap (titleAux false)

end Verif.Name
