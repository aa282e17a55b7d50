import Verif.Py.Int
import Verif.Py.Dict

/-! Model of enum values (`/repo/src/srcmlcpp/cpp_types/cpp_enum.py`), of the resolution of integer macros
(`/repo/src/srcmlcpp/cpp_types/blocks/cpp_unit.py`) and of published macros
(`/repo/src/litgen/internal/adapted_types/adapted_define.py`). -/

namespace Verif.Num
open Verif.Py

/-! ### enums -/

/-- A child of an enum block: a member with its `initial_value_code` (empty if it has none), or
something else (a comment, an empty line). -/
inductive Child
  | decl (name value : Str)
  | other (id : Nat)
deriving DecidableEq

/-- `/repo/src/srcmlcpp/cpp_types/cpp_enum.py:92-120`: the value of a member; `last` is the value code of
the last member before it, `macros` is `options.named_number_macros`. A value that cannot be parsed gives
a warning (left out) and no value. -/
def filledValue (macros : Str → Option Int) (last : Option Str) (value : Str) : Str :=
  if value.length > 0 then
    match macros value with
    | some v => intStr v
    | none => value
  else match last with
    | none => ['0']
    | some l =>
      match pyInt 10 l with
      | some n => intStr (n + 1)
      | none => value

/-- `/repo/src/srcmlcpp/cpp_types/cpp_enum.py:80-122` `get_children_with_filled_decl_values`: the loop. -/
def fillLoop (macros : Str → Option Int) : Option Str → List Child → List Child
  | _, [] => []
  | last, .other i :: cs => .other i :: fillLoop macros last cs
  | last, .decl name value :: cs =>
    .decl name (filledValue macros last value) :: fillLoop macros (some (filledValue macros last value)) cs

def childrenWithFilledValues (macros : Str → Option Int) (children : List Child) : List Child :=
  fillLoop macros none children

/-! ### integer macros -/

/-- `s.rstrip("uUlL")` -/
def rstripSuffix (s : Str) : Str := (s.reverse.dropWhile (fun c => "uUlL".toList.contains c)).reverse

/-- `re.fullmatch(r"0[0-7]+", core)` -/
def isCOctal (core : Str) : Bool :=
  match core with
  | '0' :: c :: r => (c :: r).all (fun d => 48 ≤ d.toNat && d.toNat ≤ 55)
  | _ => false

/-- `/repo/src/srcmlcpp/cpp_types/blocks/cpp_unit.py:13-24` `_parse_c_int_literal` -/
def parseCIntLiteral (text : Str) : Option Int :=
  let core := rstripSuffix (strip text)
  if core.length = 0 then none
  else if isCOctal core then pyInt 8 core
  else pyInt 0 core

/-- The loop `while len(token) >= 2 and token.startswith("(") and token.endswith(")")`, with as fuel the
length of the token (enough: each turn removes two characters). -/
def peelLoop : Nat → Str → Str
  | 0, token => token
  | n + 1, token =>
    if token.length ≥ 2 ∧ startsWith token ['('] = true ∧ endsWith token [')'] = true then
      peelLoop n (strip ((token.take (token.length - 1)).drop 1))
    else token

/-- `/repo/src/srcmlcpp/cpp_types/blocks/cpp_unit.py:98-101` -/
def peel (token : Str) : Str := peelLoop token.length (strip token)

/-- `/repo/src/srcmlcpp/cpp_types/blocks/cpp_unit.py:97-113` `_resolve_int_token`. The recursion has fuel:
the outer `none` means that it is exhausted (which does not happen, see `C26_terminates`). Python's own
recursion limit is left out. -/
def resolve (macros : Str → Option Int) (raw : List (Str × Str)) : Nat → Str → List Str → Option (Option Int)
  | 0, _, _ => none
  | fuel + 1, token, seen =>
    match parseCIntLiteral (peel token) with
    | some v => some (some v)
    | none =>
      match macros (peel token) with
      | some v => some (some v)
      | none =>
        match dictGet raw (peel token) with
        | none => some none
        | some value =>
          if peel token ∈ seen then some none
          else resolve macros raw fuel value (peel token :: seen)

/-- A `#define`; `params` and `value` are `none` when the attribute is absent. -/
structure Define where
  name : Str
  params : Option Str
  value : Option Str
deriving DecidableEq

/-- `/repo/src/srcmlcpp/cpp_types/blocks/cpp_unit.py:83-88`: the body of the loop. -/
def addDefine (raw : List (Str × Str)) (d : Define) : List (Str × Str) :=
  match d.params, d.value with
  | none, some v => dictSet raw d.name v
  | _, _ => raw

/-- `/repo/src/srcmlcpp/cpp_types/blocks/cpp_unit.py:81-88` -/
def rawValues (defines : List Define) : List (Str × Str) := defines.foldl addDefine []

/-- `/repo/src/srcmlcpp/cpp_types/blocks/cpp_unit.py:92-94`: the body of the loop. -/
def addCache (cache : List (Str × Int)) (name : Str) (r : Option Int) : List (Str × Int) :=
  match r with
  | some v => dictSet cache name v
  | none => cache

/-- `/repo/src/srcmlcpp/cpp_types/blocks/cpp_unit.py:90-95`: the cache, `none` if the recursion ran out of
fuel somewhere. -/
def fillCache (macros : Str → Option Int) (fuel : Nat) (raw : List (Str × Str)) : Option (List (Str × Int)) :=
  (raw.map Prod.fst).foldlM (fun cache name =>
    (resolve macros raw fuel name []).map (addCache cache name)) []

/-- `/repo/src/srcmlcpp/cpp_types/blocks/cpp_unit.py:69-76` `int_value_from_define_name` -/
def intValueFromDefineName (macros : Str → Option Int) (fuel : Nat) (defines : List Define) (name : Str) :
    Option (Option Int) :=
  (fillCache macros fuel (rawValues defines)).map (fun cache => dictGet cache name)

/-! ### published macros -/

/-- `/repo/src/litgen/internal/adapted_types/adapted_define.py:15-21` -/
inductive ValueType
  | Int | Float | String | Hex | Octal | Other
deriving DecidableEq

/-- A sequence of digits with single underscores, or nothing. -/
def digitsOrNothing (s : Str) : Bool := s.isEmpty || (digits 10 s).isSome

/-- The exponent of a float. -/
def isExponent (s : Str) : Bool :=
  match s with
  | '+' :: r => (digits 10 r).isSome
  | '-' :: r => (digits 10 r).isSome
  | r => (digits 10 r).isSome

/-- A text without its sign. -/
def withoutSign (s : Str) : Str :=
  match s with
  | '+' :: r => r
  | '-' :: r => r
  | r => r

/-- Whether `float(s)` accepts a string that contains one dot (`inf` and `nan` have none). -/
def isFloat (s : Str) : Bool :=
  let s := withoutSign (strip s)
  let a := s.takeWhile (· ≠ '.')
  let b := (s.dropWhile (· ≠ '.')).drop 1
  let f := b.takeWhile (fun c => c ≠ 'e' ∧ c ≠ 'E')
  let e := b.dropWhile (fun c => c ≠ 'e' ∧ c ≠ 'E')
  digitsOrNothing a && digitsOrNothing f && !(a.isEmpty && f.isEmpty) &&
    (match e with
     | [] => true
     | _ :: r => isExponent r)

/-- `/repo/src/litgen/internal/adapted_types/adapted_define.py:24-57` `_compute_define_value_type` -/
def valueType (v : Str) : ValueType :=
  if startsWith v ['"'] && endsWith v ['"'] then .String
  else if v.count '.' > 1 then .Other
  else if v.count '.' = 1 then (if isFloat v then .Float else .Other)
  else if startsWith v ['0', 'x'] || startsWith v ['0', 'X'] then
    (if (pyInt 16 v).isSome then .Hex else .Other)
  else if startsWith v ['0'] && v.length > 1 then
    (if (pyInt 8 v).isSome then .Octal else .Other)
  else (if (pyInt 10 v).isSome then .Int else .Other)

/-- `/repo/src/litgen/internal/adapted_types/adapted_define.py:65-75` `is_publishable` -/
def isPublishable (d : Define) : Bool :=
  match d.params, d.value with
  | some _, _ => false
  | none, none => false
  | none, some v => decide (valueType v ≠ .Other)

/-- `/repo/src/litgen/internal/adapted_types/adapted_define.py:81-88` `published_python_value` -/
def publishedPythonValue (v : Str) : Str :=
  if valueType v = .Octal then ['0', 'o'] ++ v.drop 1 else v

end Verif.Num
