import Verif.Re.Model
import Verif.Scope.Model
import Verif.Name.Model

/-! Model of the replacements that are gathered while the code is adapted, and applied to the default values: members of enumerations
(`/repo/src/litgen/internal/adapted_types/adapted_enum.py`), names of functions (`/repo/src/litgen/internal/adapted_types/adapted_function.py`),
and the caches of the scopes (`/repo/src/litgen/internal/context/litgen_context.py`, `/repo/src/litgen/internal/context/replacements_cache.py`).

Simplification: the Python names (`enum_name_to_python`, `decl_name_python`, `function_name_to_python`, see `Verif/Keyword`) are given. -/

namespace Verif.Cache
open Verif.Py Verif.Repl

/-- A member of an enumeration: `decl_name`, `decl_name_python()`. -/
structure Member where
  cpp : Str
  py : Str
deriving DecidableEq

/-- An enumeration: `enum_name`, `enum_name_to_python(enum_name)`, `is_enum_class()`, `adapted_enum_decls`. -/
structure Enum where
  cpp : Str
  py : Str
  isClass : Bool
  members : List Member
deriving DecidableEq

/-- `\b{name}\b` -/
def wordPattern (name : Str) : Str := "\\b".toList ++ name ++ "\\b".toList

/-- `\b{enum}.{member}\b|{enum}.{member}\b` -/
def classPattern (enum member : Str) : Str :=
  "\\b".toList ++ enum ++ ['.'] ++ member ++ "\\b".toList ++ ['|'] ++ enum ++ ['.'] ++ member ++ "\\b".toList

/-- `/repo/src/litgen/internal/adapted_types/adapted_enum.py:106-134` `AdaptedEnumDecl.cpp_to_python_replacements` -/
def memberRules (fromInside : Bool) (e : Enum) (m : Member) : List Replacement :=
  let byWhat := e.py ++ ['.'] ++ m.py
  if e.isClass then addFirst [] ⟨classPattern e.cpp m.cpp, byWhat⟩
  else if startsWith (Name.lower m.cpp) (Name.lower e.cpp) then addFirst [] ⟨wordPattern m.cpp, byWhat⟩
  else if fromInside then addFirst [] ⟨wordPattern m.cpp, byWhat⟩
  else []

/-- `/repo/src/litgen/internal/adapted_types/adapted_enum.py:204-208` `AdaptedEnum.cpp_to_python_replacements` -/
def enumRules (fromInside : Bool) (e : Enum) : List Replacement :=
  e.members.foldl (fun r m => merge r (memberRules fromInside e m)) []

/-- `\b{name}(?=\s*\()` -/
def callPattern (name : Str) : Str := "\\b".toList ++ name ++ "(?=\\s*\\()".toList

/-- `/repo/src/litgen/internal/adapted_types/adapted_function.py:1343-1368` `_register_function_name_replacement`: what is stored. -/
def functionRules (isConstructor isOperator : Bool) (cpp py : Str) : List Replacement :=
  if isConstructor || isOperator then []
  else if cpp ≠ py then [⟨callPattern cpp, py⟩]
  else []

/-- `_scoped_replacements`: the caches by the text of their scope. -/
abbrev Caches := List (Str × List Replacement)

/-- `self._scoped_replacements[key]` -/
def cacheOf (c : Caches) (key : Str) : Option (List Replacement) := (c.find? (fun x => x.1 == key)).map Prod.snd

/-- `/repo/src/litgen/internal/context/litgen_context.py:87-92` `get_scoped_replacements`: the cache is created when it is missing. -/
def ensure (c : Caches) (key : Str) : Caches := if (cacheOf c key).isSome then c else c ++ [(key, [])]

/-- `/repo/src/litgen/internal/context/replacements_cache.py:17-18` `store_replacements`, `store_replacement`, in the cache of the scope. -/
def store (c : Caches) (scope : Scope.CppScope) (rs : List Replacement) : Caches :=
  (ensure c (Scope.strCpp scope)).map (fun x => if x.1 = Scope.strCpp scope then (x.1, merge x.2 rs) else x)

/-- `/repo/src/litgen/internal/context/litgen_context.py:94-105` `apply_scoped_var_value_replacements` -/
def applyScoped (sub : Engine) (c : Caches) (scope : Option Scope.CppScope) (s : Str) : Str :=
  (Scope.scopeHierarchyList (scope.getD [])).foldl
    (fun s sc => match cacheOf c (Scope.strCpp sc) with | some rs => Repl.apply sub rs s | none => s) s

/-- `/repo/src/litgen/internal/adapted_types/adapted_enum.py:94-104` `decl_value_python`: no scope is given to `var_value_to_python`
(`/repo/src/litgen/internal/cpp_to_python.py:249-260`), whose other replacements are left out (see `Verif/Re`). -/
def memberValue (sub : Engine) (c : Caches) (e : Enum) (value : Str) : Str := Repl.apply sub (enumRules true e) (applyScoped sub c none value)

end Verif.Cache
