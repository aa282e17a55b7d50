import Verif.Scope.Model

/-! Model of the lookup of classes (`/repo/src/srcmlcpp/cpp_types/blocks/cpp_block.py`) and of the collection of
virtual methods (`/repo/src/srcmlcpp/cpp_types/classes/cpp_struct.py`). -/

namespace Verif.Base
open Verif.Py Verif.Scope

/-- A method: its name, the text of the types of its parameters, and whether it is virtual. -/
structure Method where
  name : Str
  params : Str
  virtual : Bool
deriving DecidableEq

/-- A struct or class: its name, the names of the enclosing scopes, the names of its base classes as written,
and its methods. A unit is the list of its classes, in the order of `all_structs_recursive`; a class is
identified by its position. -/
structure Struct where
  name : Str
  scope : List Str
  supers : List Str
  methods : List Method
deriving DecidableEq

/-- `/repo/src/srcmlcpp/cpp_types/blocks/cpp_block.py:109-115`: the class name and the scope of a request. -/
def requested (request : Str) : Str × Str :=
  if contains request colons then
    ((split request colons).getLast?.getD [], join colons (split request colons).dropLast)
  else (request, [])

/-- `/repo/src/srcmlcpp/cpp_types/blocks/cpp_block.py:121-124` -/
def searchedScopes (classScope current : Str) : List Str :=
  if current.length > 0 then [classScope, current ++ colons ++ classScope] else [classScope]

/-- `/repo/src/srcmlcpp/cpp_types/blocks/cpp_block.py:126-133`: the test of the loop. -/
def isFound (request : Str) (current : List Str) (s : Struct) : Bool :=
  decide (s.name = (requested request).1) &&
    (searchedScopes (requested request).2 (join colons current)).any (fun t => startsWith t (join colons s.scope))

/-- `/repo/src/srcmlcpp/cpp_types/blocks/cpp_block.py:101-138` `find_struct_or_class`: the position of the class. -/
def findStruct (structs : List Struct) (request : Str) (current : List Str) : Option Nat :=
  structs.findIdx? (isFound request current)

/-- `/repo/src/srcmlcpp/cpp_types/classes/cpp_struct.py:122-136` `base_classes`, without the access types. -/
def baseClasses (structs : List Struct) (s : Struct) : List Nat :=
  s.supers.filterMap (fun name => findStruct structs name s.scope)

/-- `/repo/src/srcmlcpp/cpp_types/classes/cpp_struct.py:319-327` `is_method_already_present` -/
def isPresent (ms : List Method) (m : Method) : Bool :=
  ms.any (fun p => decide (p.name = m.name) && decide (p.params = m.params))

/-- `/repo/src/srcmlcpp/cpp_types/classes/cpp_struct.py:331-332` -/
def addMethod (ms : List Method) (m : Method) : List Method :=
  if isPresent ms m then ms else ms ++ [m]

/-- `/repo/src/srcmlcpp/cpp_types/classes/cpp_struct.py:329-332`: the loop on the base classes; `rec` is the
recursive call. -/
def addBases (rec : Nat → Option (List Method)) : List Method → List Nat → Option (List Method)
  | ms, [] => some ms
  | ms, b :: bs =>
    match rec b with
    | none => none
    | some bms => addBases rec (bms.foldl addMethod ms) bs

/-- `/repo/src/srcmlcpp/cpp_types/classes/cpp_struct.py:313-334` `virtual_methods`. The recursion has fuel: `none`
means that it is exhausted (in Python: a `RecursionError` if no amount is enough). The argument
`include_inherited_virtual_methods` is handed on and not used. -/
def virtualMethods (structs : List Struct) (includeInherited : Bool) : Nat → Nat → Option (List Method)
  | 0, _ => none
  | fuel + 1, i =>
    match structs[i]? with
    | none => some []
    | some s =>
      addBases (virtualMethods structs includeInherited fuel) (s.methods.filter Method.virtual) (baseClasses structs s)

end Verif.Base
