import Verif.Tpl.Model
import Verif.Keyword.Model
import Verif.ToPy.Model

/-! Model of the names of the instantiations of template classes: in the class of the stub, in the synonyms and in the signatures
(`/repo/src/litgen/internal/adapted_types/adapted_class.py`, `/repo/src/litgen/internal/template_options.py`).

Simplification: the parser of types is a parameter, as in `Verif/Tpl`. -/

namespace Verif.Names
open Verif.Py Verif.Tpl

/-- What is read of the options and of the context. `whole` is `code_to_cpp_type` on a whole type, `parse` is the `str_code()` of it on an argument. -/
structure Env where
  u : Char → Bool
  names : Keyword.Options
  whole : Str → Option CppTy
  parse : Parser
  specs : List TSpec
  namespaces : List (Str × Str)
  roots : List Str

/-- `options.type_replacements.apply` -/
def Env.repl (e : Env) : Str → Str := Repl.apply e.names.sub e.names.types

/-- `/repo/src/litgen/internal/template_options.py:308-318` `specialized_type_python_name_str` -/
def special (e : Env) (s : Str) : Option Str :=
  if '<' ∉ s then none else (e.whole s).bind (pythonName e.parse e.repl e.specs)

/-- The types in signatures: `type_to_python`, see `Verif/ToPy`. -/
def typePy (e : Env) (s : Str) : Except TArgs.Err Str := ToPy.typeToPython e.u ⟨e.repl, special e, e.namespaces, e.roots⟩ s

/-- `/repo/src/litgen/internal/adapted_types/adapted_class.py:968-988` `_tpl_instantiate_template_for_type`: the name of the class. -/
def instanceName (e : Env) (c t : Str) : Except TArgs.Err Str := typePy e (naming (Keyword.className e.names c) t)

/-- `/repo/src/litgen/internal/adapted_types/adapted_class.py:990-1015` `_tpl_split_into_template_instantiations`: the names of the classes. -/
def classNames (e : Env) (c : Str) (nbParams : Nat) : List (Except TArgs.Err Str) := (instantiations e.specs c nbParams).map (instanceName e c)

/-- `/repo/src/litgen/internal/adapted_types/adapted_class.py:1016-1023`: the line `a = b` of a synonym, as `(a, b)`. -/
def synonymLine (e : Env) (c : Str) (y : Synonym) : Str × Str :=
  (naming (Keyword.className e.names c) (Keyword.className e.names y.name), naming (Keyword.className e.names c) (Keyword.className e.names y.target))

/-- `/repo/src/litgen/internal/adapted_types/adapted_class.py:990-1025` `_tpl_split_into_template_instantiations`: the synonyms. -/
def synonymLines (e : Env) (c : Str) (nbParams : Nat) : List (Str × Str) :=
  match matchingSpec e.specs c with
  | none => []
  | some s => if nbParams ≠ 1 && s.types.length > 0 then [] else s.synonyms.map (synonymLine e c)

end Verif.Names
