import Verif.Fn.Model

/-! Specification of the bindings of functions: the statement that pybind11 or nanobind reads, as a structure with its text. -/

namespace Verif.Fn.Spec
open Verif.Py Verif.Type Verif.Adapt

/-- What a binding statement calls. -/
inductive Callable
  /-- `f` or `&Foo::f` -/
  | address (text : Str)
  /-- `py::overload_cast<types>(&Foo::f)`, with `py::const_` for a const method -/
  | cast (lib : Str) (types : List Str) (const : Bool) (text : Str)
  /-- `[](Foo & self) { return self.f(); }` -/
  | short (cls name : Str)
  /-- a lambda with its parameters, its return type, the code of its body and its last statement -/
  | lambda (params : List Str) (ret : Option Str) (code : Option Str) (call : Str)
deriving DecidableEq

/-- `py::const_` after the address -/
def constTag (lib : Str) (const : Bool) : Str := if const then ", ".toList ++ lib ++ "::const_".toList else []

/-- The code before the call in a lambda, followed by an empty line. -/
def bodyOf (indent : Str) : Option Str → Str
  | none => []
  | some c => indent ++ indent ++ c ++ "\n\n".toList

/-- The text of a callable. -/
def Callable.text (indent : Str) : Callable → Str
  | .address t => t
  | .cast lib types const t =>
    lib ++ "::overload_cast<".toList ++ join ", ".toList types ++ ">(".toList ++ t ++ constTag lib const ++ ")".toList
  | .short cls name => "[](".toList ++ cls ++ " & self) { return self.".toList ++ name ++ "(); }".toList
  | .lambda params ret code call =>
    "[](".toList ++ join ", ".toList params ++ ")".toList ++ (match ret with | none => [] | some r => " -> ".toList ++ r) ++
    "\n".toList ++ indent ++ "{\n".toList ++
    bodyOf indent code ++
    indent ++ indent ++ call ++ ";\n".toList ++ indent ++ "}".toList

/-- The annotations of a statement, one under the other. -/
def laid (indent : Str) (anns : List Str) : Str := join ", \n".toList (anns.map (indent ++ ·))

/-- The annotations after the callable: on its line if they are short, else on lines of their own. -/
def tail (strip : Bool) (indent : Str) (anns : List Str) : Str :=
  if anns = [] then []
  else ", ".toList ++
    (if '\n' ∈ laid indent anns then '\n' :: laid indent anns
     else if strip then lstrip (laid indent anns) else laid indent anns)

/-- The end of a statement: the statements of a class are chained, the others end with a semicolon. -/
def closing (method : Bool) : Str := if method then ")".toList else ");".toList

/-- First line, callable, annotations, end. -/
def statement (head callable : Str) (strip : Bool) (indent : Str) (anns : List Str) (method : Bool) : Str :=
  head ++ "\n".toList ++ indent ++ callable ++ tail strip indent anns ++ closing method

/-- The first line of a statement that binds a function or a method: `m.def("name",` -/
def head (receiver : Str) (static : Bool) (name location : Str) : Str :=
  receiver ++ (if static then ".def_static(\"".toList else ".def(\"".toList) ++ name ++ "\",".toList ++ location

/-- The lines of the statement that binds a constructor: `.def(py::init<types>()`, then the annotations, with commas between them and
the closing parenthesis before the comment that shows the location. -/
def ctorStatement (lib types location indent : Str) (anns : List Str) : List Str :=
  let first := ".def(".toList ++ lib ++ "::init<".toList ++ types ++ ">()".toList
  match anns with
  | [] => [first ++ ")".toList ++ location]
  | a :: r => (first ++ ",".toList ++ location) :: ctorTail indent a r
where
  /-- annotations but the last are followed by a comma, the last by the parenthesis -/
  ctorTail (indent : Str) : Str → List Str → List Str
    | a, [] => [indent ++ a ++ ")".toList]
    | a, b :: r => (indent ++ a ++ ",".toList) :: ctorTail indent b r

end Verif.Fn.Spec
