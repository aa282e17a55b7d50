import Verif.Fn.Meaning
import Verif.Indent.Model

/-! Specification of the bindings of functions: what is written for a function, from its fields only. Types are printed by `Verif.Type.print`
(C29), the code of the adapters is indented by `Verif.Indent.indentCode` (C04); nothing else of the model is used. -/

namespace Verif.Fn.Spec
open Verif.Py Verif.Type Verif.Adapt

/-- The class of a method, the namespace of a function. -/
def owner (f : Func) : Str :=
  match f.cls with
  | some c => c.qualified
  | none => f.scope

/-- `Ns::Foo::add<int>` -/
def qualifiedName (f : Func) : Str := (if owner f = [] then [] else owner f ++ "::".toList) ++ f.name ++ f.specialization

/-- `Ns::add`, `py::vectorize(Ns::add)` or `&Ns::Foo::add` -/
def addressText (f : Func) : Str :=
  (if f.cls.isSome then "&".toList else []) ++
  (if f.vectorizeImpl then "py::vectorize(".toList ++ qualifiedName f ++ ")".toList else qualifiedName f)

/-- The type of a parameter in a list of types: an array is a pointer. -/
def typeOf (p : Param) : Str := print p.type ++ (if p.arrayCode.head? = some '[' then " *".toList else [])

/-- The declaration of a parameter: `int v[2] = 3` -/
def declaration (p : Param) : Str :=
  print p.type ++ " ".toList ++ p.name ++ p.arrayCode ++ (if p.default = [] then [] else " = ".toList ++ p.default)

/-- Whether the function is a constructor: a method with the name of its class. -/
def isCtor (f : Func) : Bool :=
  match f.cls with
  | some c => decide (f.name = c.name)
  | none => false

/-- The object in a lambda: `const Foo & self` for a const method, `Foo & self` for another one. -/
def selfParam (f : Func) : List Str :=
  match f.cls with
  | none => []
  | some c => if isCtor f then [] else [(if "const".toList ∈ f.aSpecifiers then "const ".toList else []) ++ c.qualified ++ " & self".toList]

/-- The function that a lambda calls: a lambda in its body, a method of the object or a function. -/
def callee (f : Func) : Str :=
  match f.lambdaToCall with
  | some l => l
  | none => (if f.cls.isSome then "self.".toList else []) ++ f.aName ++ f.aSpecialization

/-- The last statement of a lambda. -/
def call (f : Func) (ret : Str) : Str :=
  (if ret = "void".toList then [] else "return ".toList) ++ callee f ++ "(".toList ++ join ", ".toList (f.aParams.map (·.name)) ++ ")".toList

/-- The code of the adapters in a lambda: its lines after the first one are indented twice, the new line at its end is removed. -/
def body (indent : Str) (f : Func) : Option Str :=
  f.adapterCode.map (fun c =>
    let c := Indent.indentCode c 1 true (some (indent ++ indent))
    if c.getLast? = some '\n' then c.dropLast else c)

/-- `py` or `nb` -/
def libOf (nanobind : Bool) : Str := if nanobind then "nb".toList else "py".toList

/-- The callable of a function; `ret` is its return type in C++. -/
def callable (o : Options) (f : Func) (ret : Str) : Callable :=
  if f.adapterCode.isSome ∨ f.lambdaToCall.isSome then
    .lambda (selfParam f ++ f.aParams.map declaration) (if ret = "void".toList then none else some ret) (body o.indent f) (call f ret)
  else if f.overloaded ∨ o.forceOverload f.name then
    if f.cls.isSome ∧ f.params = [] then .short (owner f) (f.name ++ f.specialization)
    else .cast (libOf o.nanobind) (f.params.map typeOf) (decide ("const".toList ∈ f.specifiers)) (addressText f)
  else .address (addressText f)

/-- The return policy. -/
def policy (o : Options) (f : Func) : Option Str :=
  if f.policy = [] then none
  else some ((if o.nanobind then "nb::rv_policy::".toList else "py::return_value_policy::".toList) ++ f.policy)

/-- The docstring: a C++ string with this content, or nothing. -/
def literal (s : Str) : Option Str := if s = [] then none else some ("\"".toList ++ s ++ "\"".toList)

/-- The call guards: the one of the comment, the one of the options. -/
def guards (o : Options) (f : Func) (comment : Option Str) : Option Str :=
  let gil := if o.gilGuard f.name then [libOf o.nanobind ++ "::call_guard<".toList ++ libOf o.nanobind ++ "::gil_scoped_release>()".toList] else []
  match comment.toList ++ gil with
  | [] => none
  | l => some (join ", ".toList l)

/-- The comment that shows where the function is declared. -/
def locationComment (o : Options) (f : Func) : Str :=
  match f.location with
  | none => []
  | some (file, line) => o.indent ++ "// ".toList ++ file ++ ":".toList ++ line

/-- The name of a function in Python. -/
def pythonName (o : Options) (f : Func) : Str :=
  if f.vectorizeImpl then o.vectorizePrefix ++ f.pyName ++ o.vectorizeSuffix else f.pyName

/-- Whether the return type of a method is `static`. -/
def isStatic (f : Func) : Bool :=
  f.cls.isSome && match f.ret with
    | some t => decide ("static".toList ∈ t.specifiers)
    | none => false

/-- The statement that binds a function, given its `py::arg`, its return type in C++, its docstring, and what its comment says on keep_alive
and call_guard. -/
def binding (o : Options) (f : Func) (args : List Str) (ret doc : Str) (keep guard : Option Str) : Str :=
  let text := (callable o f ret).text o.indent
  let anns := annList args (literal doc) (policy o f) keep (guards o f guard)
  let first := head (if f.cls.isSome then [] else f.moduleVar) (isStatic f) (pythonName o f) (locationComment o f)
  if f.adapterCode.isSome ∨ f.lambdaToCall.isSome then
    if isCtor f then
      if o.nanobind then statement ".def(\"__init__\", ".toList text false o.indent anns true
      else statement ".def(py::init(".toList (text ++ ")".toList) false o.indent anns true
    else statement first text false o.indent anns f.cls.isSome
  else if isCtor f then
    if "delete".toList ∈ f.specifiers then []
    else unlines (ctorStatement (libOf o.nanobind) (join ", ".toList (f.params.map typeOf)) (locationComment o f) o.indent
      (annList args (literal doc) none none none))
  else statement first text true o.indent anns f.cls.isSome

end Verif.Fn.Spec
