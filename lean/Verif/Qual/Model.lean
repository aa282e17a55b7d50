import Verif.Scope.Model
import Verif.Adapt.Model

/-! Model of the qualified and terse forms of functions, with their caches: `/repo/src/srcmlcpp/cpp_types/decls_types/cpp_type.py:225-267`,
`/repo/src/srcmlcpp/cpp_types/decls_types/cpp_decl.py:244-376`, `/repo/src/srcmlcpp/cpp_types/functions/cpp_parameter_list.py:87-150`,
`/repo/src/srcmlcpp/cpp_types/functions/cpp_function_decl.py:131-254`, `/repo/src/srcmlcpp/cpp_types/scope/scoped_element_cache.py`.

A method that fills a cache gives the changed element and its result. A result that is the element itself is `none`; in a cache `none` is the element
that has the cache (after a deep copy it is the copy, thanks to the table of `deepcopy`). Simplification: the object that is in a cache and the same object
in a result are two values, so that the caches which the second one fills later do not appear in the first one. -/

namespace Verif.Qual
open Verif.Py Verif.Type

/-- What the unit knows: its identifiers (`_scoped_identifiers`), and which characters above 127 are alphanumeric. -/
structure Env where
  u : Char → Bool
  ids : List Str

/-- `/repo/src/srcmlcpp/cpp_types/scope/cpp_scope_identifiers.py:41-66` -/
def Env.qualify (e : Env) (scope : Scope.CppScope) (code : Str) : Str := Scope.qualifyCppCode e.u e.ids code scope

/-- `" ".join(typenames)` -/
def typeText (t : CppType) : Str := join [' '] t.typenames

/-- `/repo/src/srcmlcpp/cpp_types/decls_types/cpp_type.py:225-250` `CppType.with_qualified_types`; `none` when the result is `self`. -/
def qualifyType (e : Env) (scope : Scope.CppScope) (t : CppType) : Option CppType :=
  if t.typenames = [] then none
  else
    let new := e.qualify scope (typeText t)
    if new ≠ typeText t then some { t with typenames := split new [' '] } else none

/-- A declaration; `cache` is `_cpp_decl_with_qualified_types` (`none`: the attribute is absent). -/
inductive Decl
  | mk (type : CppType) (name array value : Str) (cache : Option (Option Decl))

namespace Decl
def type : Decl → CppType | mk t _ _ _ _ => t
def name : Decl → Str | mk _ n _ _ _ => n
def array : Decl → Str | mk _ _ a _ _ => a
def value : Decl → Str | mk _ _ _ v _ => v
def cache : Decl → Option (Option Decl) | mk _ _ _ _ c => c
def withType (t : CppType) : Decl → Decl | mk _ n a v c => mk t n a v c
def withValue (v : Str) : Decl → Decl | mk t n a _ c => mk t n a v c
def withCache (c : Option (Option Decl)) : Decl → Decl | mk t n a v _ => mk t n a v c
end Decl

/-- `/repo/src/srcmlcpp/cpp_types/decls_types/cpp_decl.py:244-255` -/
def qualifyValue (e : Env) (scope : Scope.CppScope) (v : Str) : Str := if v = [] then [] else e.qualify scope v

/-- `/repo/src/srcmlcpp/cpp_types/decls_types/cpp_decl.py:302-325` `CppDecl.with_qualified_types` -/
def qualifyDecl (e : Env) (scope : Scope.CppScope) (d : Decl) : Decl × Option Decl :=
  match d.cache with
  | some r => (d, r)
  | none =>
    let t := qualifyType e scope d.type
    let v := qualifyValue e scope d.value
    if t.isSome || v ≠ d.value then
      let new := (d.withType (t.getD d.type)).withValue v
      (d.withCache (some (some new)), some new)
    else (d.withCache (some none), none)

/-- `/repo/src/srcmlcpp/cpp_types/functions/cpp_parameter_list.py:87-126` `CppParameterList.with_qualified_types`: the parameters, and the new ones. -/
def qualifyParams (e : Env) (scope : Scope.CppScope) (ps : List Decl) : List Decl × Option (List Decl) :=
  match ps with
  | [p] =>
    if Adapt.isVoidType p.type then ([p], some [])
    else
      let r := qualifyDecl e scope p
      ([r.1], r.2.map (fun x => [x]))
  | ps =>
    let rs := ps.map (qualifyDecl e scope)
    (rs.map Prod.fst, if rs.any (fun r => r.2.isSome) then some (rs.map (fun r => r.2.getD r.1)) else none)

/-- A function; the caches are lists of texts of scopes and results. -/
inductive Func
  | mk (ret : Option CppType) (params : List Decl) (qualified terse : List (Str × Option Func))

namespace Func
def ret : Func → Option CppType | mk r _ _ _ => r
def params : Func → List Decl | mk _ p _ _ => p
def qualified : Func → List (Str × Option Func) | mk _ _ q _ => q
def terse : Func → List (Str × Option Func) | mk _ _ _ t => t
end Func

/-- `/repo/src/srcmlcpp/cpp_types/scope/scoped_element_cache.py:19-29` `contains` and `get` -/
def find (k : Str) : List (Str × Option Func) → Option (Option Func)
  | [] => none
  | (k', r) :: l => if k' = k then some r else find k l

/-- `/repo/src/srcmlcpp/cpp_types/functions/cpp_function_decl.py:164-207` `with_qualified_types` -/
def qualifyFn (e : Env) (scope : Scope.CppScope) (f : Func) : Func × Option Func :=
  match find (Scope.strCpp scope) f.qualified with
  | some r => (f, r)
  | none =>
    let t := f.ret.bind (qualifyType e scope)
    let p := qualifyParams e scope f.params
    let r := if t.isSome || p.2.isSome then
        some (Func.mk (if t.isSome then t else f.ret) (p.2.getD p.1) f.qualified f.terse)
      else none
    (.mk f.ret p.1 ((Scope.strCpp scope, r) :: f.qualified) f.terse, r)

/-- The result of a method that gives `none` for the element itself. -/
def result (r : Func × Option Func) : Func := r.2.getD r.1

/-- `/repo/src/srcmlcpp/cpp_types/decls_types/cpp_type.py:252-267` `CppType.with_terse_types`; `own` is the scope of the type. -/
def terseType (e : Env) (own scope : Scope.CppScope) (t : CppType) : Option CppType :=
  let new := Scope.makeTerseCode e.u (typeText ((qualifyType e own t).getD t)) (Scope.strCppPrefix scope)
  if new ≠ typeText t then some { t with typenames := split new [' '] } else none

/-- `/repo/src/srcmlcpp/cpp_types/decls_types/cpp_decl.py:327-376` `CppDecl.with_terse_types` -/
def terseDecl (e : Env) (own scope : Scope.CppScope) (d : Decl) : Option Decl :=
  let t := terseType e own scope d.type
  let v := Scope.makeTerseCode e.u d.value (Scope.strCppPrefix scope)
  if t.isSome || v ≠ d.value then some ((d.withType (t.getD d.type)).withValue v) else none

/-- `/repo/src/srcmlcpp/cpp_types/functions/cpp_parameter_list.py:128-150` -/
def terseParams (e : Env) (own scope : Scope.CppScope) (ps : List Decl) : Option (List Decl) :=
  let rs := ps.map (fun p => (p, terseDecl e own scope p))
  if rs.any (fun r => r.2.isSome) then some (rs.map (fun r => r.2.getD r.1)) else none

/-- `/repo/src/srcmlcpp/cpp_types/functions/cpp_function_decl.py:226-233`; `cls` is the name of the class of a method. -/
def terseScope (cls : Option Str) (scope : Scope.CppScope) : Scope.CppScope :=
  match cls, scope.getLast? with
  | some c, some l => if l = c then scope.dropLast else scope
  | _, _ => scope

/-- `/repo/src/srcmlcpp/cpp_types/functions/cpp_function_decl.py:209-254` `with_terse_types` -/
def terseFn (e : Env) (own : Scope.CppScope) (cls : Option Str) (scope : Scope.CppScope) (f : Func) : Func × Option Func :=
  match find (Scope.strCpp scope) f.terse with
  | some r => (f, r)
  | none =>
    let scope := terseScope cls scope
    let t := f.ret.bind (terseType e own scope)
    let p := terseParams e own scope f.params
    let r := if t.isSome || p.isSome then
        some (Func.mk (if t.isSome then t else f.ret) (p.getD f.params) f.qualified f.terse)
      else none
    (.mk f.ret f.params f.qualified ((Scope.strCpp scope, r) :: f.terse), r)

/-- `/repo/src/srcmlcpp/cpp_types/decls_types/cpp_decl.py:378-388`: the copy of the declaration has its cache. -/
def specDecl (spec : CppType → Option CppType) (d : Decl) : Decl :=
  match spec d.type with
  | none => d
  | some t => d.withType t

/-- `/repo/src/srcmlcpp/cpp_types/functions/cpp_function_decl.py:131-162` `with_specialized_template`, when it changes something: the copy of the function has
its caches. `spec` is `CppType.with_specialized_template` (see `Verif.Inst`). -/
def specFn (spec : CppType → Option CppType) (f : Func) : Func :=
  .mk (f.ret.map (fun t => (spec t).getD t)) (f.params.map (specDecl spec)) f.qualified f.terse

/-- `/repo/src/litgen/internal/adapted_types/adapted_class.py:363-366`, `:969-975` and `adapted_function.py:257`: a method of a template class is qualified
when the class is adapted; its instance is made from this method, and is qualified when the instance of the class is adapted. -/
def instanceMethod (e : Env) (scope : Scope.CppScope) (spec : CppType → Option CppType) (f : Func) : Func :=
  result (qualifyFn e scope (specFn spec (qualifyFn e scope f).1))

/-- `/repo/src/litgen/internal/adapted_types/adapted_function.py:257` and `:1394-1401`: a template function is qualified when it is adapted; its instance is
made from the qualified function, and is qualified again. -/
def instanceFunction (e : Env) (scope : Scope.CppScope) (spec : CppType → Option CppType) (f : Func) : Func :=
  result (qualifyFn e scope (specFn spec (result (qualifyFn e scope f))))

end Verif.Qual
