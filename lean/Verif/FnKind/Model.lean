import Verif.Py.StrLemmas
import Verif.Name.Model

/-! Model of the questions about a function: what it is, what it returns, whether it throws
(`/repo/src/srcmlcpp/cpp_types/functions/cpp_function_decl.py`). -/

namespace Verif.FnKind
open Verif.Py

/-- A type: `CppType.specifiers`, `typenames` and `modifiers`. -/
structure Ty where
  specifiers : List Str
  typenames : List Str
  modifiers : List Str
deriving DecidableEq

/-- A parameter: the type and `initial_value_code` of its declaration. -/
structure Param where
  type : Ty
  default : Str
deriving DecidableEq

inductive Access | public_ | protected_ | private_
deriving DecidableEq

/-- `/repo/src/srcmlcpp/cpp_types/functions/cpp_function_decl.py:29-65`. The return type is missing for constructors and destructors. The
parent is a zone of a class (its access and the name of the class: `parent_struct_if_method`, lines 351-373), or something else. -/
structure Fn where
  name : Str
  specifiers : List Str
  ret : Option Ty
  params : List Param
  noexcept : Option Str
  parent : Option (Access × Str)
deriving DecidableEq

def true_ : Str := ['t', 'r', 'u', 'e']
def false_ : Str := ['f', 'a', 'l', 's', 'e']

/-- `/repo/src/srcmlcpp/cpp_types/functions/cpp_function_decl.py:106-107` -/
def unwrap (s : Str) : Str := if startsWith s ['('] && endsWith s [')'] then strip (s.drop 1).dropLast else s

/-- `/repo/src/srcmlcpp/cpp_types/functions/cpp_function_decl.py:98-113` `is_noexcept` -/
def isNoexcept (f : Fn) : Bool :=
  match f.noexcept with
  | none => false
  | some [] => true
  | some t =>
    if Name.lower (unwrap (strip t)) ∈ [false_, ['0']] then false
    else if Name.lower (unwrap (strip t)) ∈ [true_, ['1']] then true
    else false

/-- `/repo/src/srcmlcpp/cpp_types/functions/cpp_function_decl.py:312-317` `is_method` -/
def isMethod (f : Fn) : Bool := f.parent.isSome

/-- `/repo/src/srcmlcpp/cpp_types/functions/cpp_function_decl.py:319-330` `method_access_type`; `none` is a failed assertion. -/
def methodAccess (f : Fn) : Option Access := f.parent.map (·.1)

/-- `/repo/src/srcmlcpp/cpp_types/functions/cpp_function_decl.py:375-383` `access_type_if_method` -/
def accessIfMethod (f : Fn) : Option Access := if !isMethod f then none else f.parent.map (·.1)

/-- `/repo/src/srcmlcpp/cpp_types/functions/cpp_function_decl.py:385-390` `parent_struct_name_if_method` -/
def structName (f : Fn) : Option Str := f.parent.map (·.2)

/-- `/repo/src/srcmlcpp/cpp_types/functions/cpp_function_decl.py:392-397` `is_constructor` -/
def isConstructor (f : Fn) : Bool :=
  match structName f with
  | none => false
  | some n => decide (f.name = n)

/-- `/repo/src/srcmlcpp/cpp_types/functions/cpp_function_decl.py:399-403` `is_destructor`; `none` is a failed assertion. -/
def isDestructor (f : Fn) : Option Bool :=
  if startsWith f.name ['~'] then (if isMethod f then some true else none) else some false

/-- `/repo/src/srcmlcpp/cpp_types/functions/cpp_function_decl.py:405-409` `is_default_constructor_zero_param` -/
def isDefaultZero (f : Fn) : Bool := if !isConstructor f then false else decide (f.params.length = 0)

/-- `/repo/src/srcmlcpp/cpp_types/functions/cpp_function_decl.py:416-420`: the loop. -/
def countNoDefault : Nat → List Param → Nat
  | n, [] => n
  | n, p :: ps => countNoDefault (if p.default.length = 0 then n + 1 else n) ps

/-- `/repo/src/srcmlcpp/cpp_types/functions/cpp_function_decl.py:411-421` `is_default_constructor` -/
def isDefault (f : Fn) : Bool := if !isConstructor f then false else decide (countNoDefault 0 f.params = 0)

/-- `/repo/src/srcmlcpp/cpp_types/functions/cpp_function_decl.py:448-450` `returns_pointer` -/
def returnsPointer (f : Fn) : Bool :=
  match f.ret with
  | none => false
  | some t => decide (t.modifiers = [['*']])

/-- `/repo/src/srcmlcpp/cpp_types/functions/cpp_function_decl.py:452-454` `returns_pointer_to_pointer` -/
def returnsPointer2 (f : Fn) : Bool :=
  match f.ret with
  | none => false
  | some t => decide (t.modifiers.count ['*'] = 2)

/-- `/repo/src/srcmlcpp/cpp_types/functions/cpp_function_decl.py:456-458` `returns_reference` -/
def returnsReference (f : Fn) : Bool :=
  match f.ret with
  | none => false
  | some t => decide (t.modifiers = [['&']])

/-- `/repo/src/srcmlcpp/cpp_types/functions/cpp_function_decl.py:463-466` `is_static`, and `:468-469` `is_static_method` -/
def isStatic (f : Fn) : Bool :=
  match f.ret with
  | none => false
  | some t => decide ("static".toList ∈ t.specifiers)
def isStaticMethod (f : Fn) : Bool := isMethod f && isStatic f

/-- `/repo/src/srcmlcpp/cpp_types/functions/cpp_function_decl.py:332-338` `is_virtual_method` -/
def isVirtual (f : Fn) : Bool :=
  if !isMethod f then false
  else match f.ret with
    | none => false
    | some t => decide ("virtual".toList ∈ t.specifiers) || decide ("override".toList ∈ f.specifiers)

end Verif.FnKind
