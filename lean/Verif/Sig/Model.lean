import Verif.Py.Str

/-! Model of the text that identifies an overload in the stub, `/repo/src/litgen/internal/adapted_types/adapted_function.py:1161-1193`. -/

namespace Verif.Sig
open Verif.Py

/-- A function: whether it is a constructor, the Python name of the operator if it is one (`operators.cpp_to_python_operator_name`), its C++
name, `specialized_template_params` (their texts), and the texts of its parameters in the stub (`_stub_params_list_signature`). -/
structure Fn where
  constructor : Bool
  operator : Option Str
  name : Str
  specialized : List Str
  params : List Str
deriving DecidableEq

/-- The parts of the options that are read: `specialized_function_python_name` and `function_name_to_python`. -/
structure Options where
  specializedName : Str → Str → Option Str
  toPython : Str → Str

/-- `/repo/src/litgen/internal/adapted_types/adapted_function.py:1172-1193` `_stub_function_name_python`; `none` is a failed assertion. -/
def pythonName (o : Options) (f : Fn) : Option Str :=
  if f.constructor then some "__init__".toList
  else
    match f.operator with
    | some name => some name
    | none =>
      match f.specialized with
      | [type] => (o.specializedName f.name type).map o.toPython
      | _ => some (o.toPython f.name)

/-- `/repo/src/litgen/internal/adapted_types/adapted_function.py:1161-1170` `stub_python_signature` -/
def signature (o : Options) (f : Fn) : Option Str :=
  (pythonName o f).map (fun name => name ++ ['('] ++ join [',', ' '] f.params ++ [')'])

end Verif.Sig
