import Verif.Fn.Spec

/-! Specification of the bindings of functions: what a C++ reader and a Python reader see in the texts. Nothing here refers to the model. -/

namespace Verif.Fn.Spec
open Verif.Py

/-! ### The annotations -/

/-- The annotations of a statement, in the order in which they are written; those that are absent take no line. -/
def annList (args : List Str) (doc policy keep guard : Option Str) : List Str :=
  (if args = [] then [] else [join ", ".toList args]) ++ doc.toList ++ policy.toList ++ keep.toList ++ guard.toList

/-! ### Brackets of C++ -/

/-- Where a reader of C++ is. -/
inductive Mode
  | code | slash | line | block | blockStar | str | strEsc | chr | chrEsc
deriving DecidableEq

/-- One character outside of strings and comments, and not after `/`. -/
def readCode (st : List Char) (c : Char) : Option (Mode × List Char) :=
  if c = '/' then some (.slash, st)
  else if c = '"' then some (.str, st)
  else if c = '\'' then some (.chr, st)
  else if c = '(' ∨ c = '{' ∨ c = '[' then some (.code, c :: st)
  else if c = ')' ∨ c = '}' ∨ c = ']' then
    match st with
    | [] => none
    | b :: st => if (b = '(' ∧ c = ')') ∨ (b = '{' ∧ c = '}') ∨ (b = '[' ∧ c = ']') then some (.code, st) else none
  else some (.code, st)

/-- One character: the mode and the brackets that are open. `none` when a bracket closes another one or a string is cut. -/
def read (m : Mode) (st : List Char) (c : Char) : Option (Mode × List Char) :=
  match m with
  | .code => readCode st c
  | .slash => if c = '/' then some (.line, st) else if c = '*' then some (.block, st) else readCode st c
  | .line => some (if c = '\n' then .code else .line, st)
  | .block => some (if c = '*' then .blockStar else .block, st)
  | .blockStar => some (if c = '/' then .code else if c = '*' then .blockStar else .block, st)
  | .str => if c = '\n' then none else some (if c = '"' then .code else if c = '\\' then .strEsc else .str, st)
  | .strEsc => some (.str, st)
  | .chr => if c = '\n' then none else some (if c = '\'' then .code else if c = '\\' then .chrEsc else .chr, st)
  | .chrEsc => some (.chr, st)

/-- A text, read from a position. -/
def readAll : Mode × List Char → Str → Option (Mode × List Char)
  | s, [] => some s
  | s, c :: cs => (read s.1 s.2 c).bind (readAll · cs)

/-- A text in which brackets, strings and comments are closed. -/
def Closed (s : Str) : Prop := readAll (.code, []) s = some (.code, [])

instance (s : Str) : Decidable (Closed s) := inferInstanceAs (Decidable (_ = _))

/-! ### What a binding library makes of a statement -/

/-- `def` of a class passes the object as first argument; `def_static` and `m.def` do not (pybind11, `is_method`). -/
def selfArgs (method static : Bool) : Nat := if method && !static then 1 else 0

/-- The number of parameters of a callable: `declared` is the number of parameters of the bound function, `member` says whether it
takes an object besides. -/
def Callable.arity (declared : Nat) (member : Bool) : Callable → Nat
  | .address _ => declared + (if member then 1 else 0)
  | .cast _ types _ _ => types.length + (if member then 1 else 0)
  | .short _ _ => 1
  | .lambda params _ _ _ => params.length

/-- Whether a call returns a reference: `declared` says whether the bound function does. The return type of a lambda without an arrow is
never a reference. -/
def Callable.returnsReference (declared : Bool) : Callable → Bool
  | .address _ => declared
  | .cast _ _ _ _ => declared
  | .short _ _ => false
  | .lambda _ ret _ _ => ret.any (fun r => '&' ∈ r)

/-- pybind11 and nanobind refuse a statement in which the annotations of arguments do not match the callable
(`expected_num_args` in `pybind11.h`). -/
def CountsMatch (self named variadic arity : Nat) : Prop := named = 0 ∨ self + named + variadic = arity

instance (a b c d : Nat) : Decidable (CountsMatch a b c d) := inferInstanceAs (Decidable (_ ∨ _))

/-- The number of arguments of a call in Python, without the object. -/
def pythonArgs (self arity : Nat) : Nat := arity - self

/-! ### The reader of parameters -/

/-- The name and the presence of a default value in `py::arg("name") = value`; `none()` may follow the parenthesis. -/
def readArg (s : Str) : Str × Bool :=
  let rest := (s.dropWhile (· ≠ '"')).drop 1
  (rest.takeWhile (· ≠ '"'), decide ('=' ∈ rest.dropWhile (· ≠ '"')))

/-- The name and the presence of a default value in `name: type = value` -/
def readStub (s : Str) : Str × Bool := (s.takeWhile (· ≠ ':'), decide ('=' ∈ s.dropWhile (· ≠ ':')))

/-! ### Python strings -/

/-- The rest after the end of a Python string between three quotes, read from inside; `none` when it does not end. -/
def endOfDocstring : Str → Option Str
  | [] => none
  | ['\\'] => none
  | '\\' :: _ :: cs => endOfDocstring cs
  | '"' :: '"' :: '"' :: cs => some cs
  | _ :: cs => endOfDocstring cs

/-- A text that is one Python string between three quotes. -/
def IsDocstring (s : Str) : Prop := ∃ r, s = ['"', '"', '"'] ++ r ∧ endOfDocstring r = some []

/-- The value of a Python string between three quotes, read from inside, when no backslash occurs. -/
def docstringValue : Str → Option Str
  | [] => none
  | '"' :: '"' :: '"' :: r => if r = [] then some [] else none
  | c :: cs => if c = '\\' then none else (docstringValue cs).map (c :: ·)

end Verif.Fn.Spec
