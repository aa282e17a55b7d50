import Verif.Print.Model

/-! Model of the queries on a class: `CppStruct` of `/repo/src/srcmlcpp/cpp_types/classes/cpp_struct.py` (zones, members, elements, methods) and the
addition of a method. The children of the block of the class are the elements of `Verif/Print`; a zone has the name of its access type.

Simplifications: the function that `add_method` parses from its text is given (`code_first_function_decl`), as is the zone that `add_access_block` parses
from `public:`; objects are values (the zone found by `get_access_blocks(access_type)[-1]` is the last one with that access). -/

namespace Verif.Query
open Verif.Py Verif.Print

/-- `isinstance(child, CppPublicProtectedPrivate)`, with `access_type` and `block_children`. -/
def zone? : Elem → Option (Str × List Elem)
  | .access _ n _ l => some (n, l)
  | _ => none

/-- `access_type is None or access_zone.access_type == access_type` -/
def wanted (a : Option Str) (n : Str) : Bool :=
  match a with
  | none => true
  | some a => n == a

/-- `/repo/src/srcmlcpp/cpp_types/classes/cpp_struct.py:195-204` `get_access_blocks` -/
def accessBlocks (a : Option Str) : List Elem → List Elem
  | [] => []
  | e :: r =>
    match zone? e with
    | some (n, _) => if wanted a n then e :: accessBlocks a r else accessBlocks a r
    | none => accessBlocks a r

/-- The declarations of a `CppDeclStatement`. -/
def declsOf : Elem → List (Comments × Decl)
  | .decls _ ds => ds
  | _ => []

/-- `/repo/src/srcmlcpp/cpp_types/classes/cpp_struct.py:206-215` `get_members_with_access_type` -/
def membersWithAccess : List Elem → List (Str × Comments × Decl)
  | [] => []
  | e :: r =>
    match zone? e with
    | some (n, l) => (l.flatMap declsOf).map (fun d => (n, d)) ++ membersWithAccess r
    | none => membersWithAccess r

/-- `/repo/src/srcmlcpp/cpp_types/classes/cpp_struct.py:217-226` `get_members` -/
def members (a : Option Str) : List Elem → List (Comments × Decl)
  | [] => []
  | e :: r =>
    match zone? e with
    | some (n, l) => if wanted a n then l.flatMap declsOf ++ members a r else members a r
    | none => members a r

/-- `/repo/src/srcmlcpp/cpp_types/classes/cpp_struct.py:228-247` `get_elements`; `kind` is `isinstance(_, element_type)`. -/
def elements (a : Option Str) (kind : Option (Elem → Bool)) : List Elem → List Elem
  | [] => []
  | e :: r =>
    match zone? e with
    | some (n, l) =>
      if wanted a n then (match kind with | none => l | some k => l.filter k) ++ elements a kind r else elements a kind r
    | none => elements a kind r

/-- `isinstance(child, CppFunctionDecl)` -/
def fn? : Elem → Option Fn
  | .fn _ f => some f
  | _ => none

/-- `/repo/src/srcmlcpp/cpp_types/classes/cpp_struct.py:249-258` `get_methods` -/
def methods : List Elem → List Fn
  | [] => []
  | e :: r =>
    match zone? e with
    | some (_, l) => l.filterMap fn? ++ methods r
    | none => methods r

/-- `/repo/src/srcmlcpp/cpp_types/classes/cpp_struct.py:298-304` `get_methods_with_name` -/
def methodsNamed (name : Str) (cls : List Elem) : List Fn := (methods cls).filter (fun f => f.name == name)

/-- `/repo/src/srcmlcpp/cpp_types/functions/cpp_function_decl.py:340-348` `is_overloaded_method`, for a method of the class `cls`. -/
def isOverloaded (cls : List Elem) (f : Fn) : Bool := decide ((methodsNamed f.name cls).length ≥ 2)

/-- `/repo/src/srcmlcpp/cpp_types/classes/cpp_struct.py:260-276` `add_access_block`, without comments. -/
def addZone (a : Str) (cls : List Elem) : List Elem := cls ++ [.access ⟨[], [], false⟩ a false []]

/-- `/repo/src/srcmlcpp/cpp_types/classes/cpp_struct.py:288, 294`: `get_access_blocks(access_type)[-1]`, then `add_element`
(`/repo/src/srcmlcpp/cpp_types/blocks/cpp_block.py:194-196`). -/
def addToLast (a : Str) (f : Elem) : List Elem → List Elem
  | [] => []
  | .access c n d l :: r =>
    if n = a ∧ (accessBlocks (some a) r).length = 0 then .access c n d (l ++ [f]) :: r else .access c n d l :: addToLast a f r
  | e :: r => e :: addToLast a f r

/-- `/repo/src/srcmlcpp/cpp_types/classes/cpp_struct.py:278-296` `add_method`, for the function parsed from the code and its comments. -/
def addMethod (a : Str) (c : Comments) (f : Fn) (cls : List Elem) : List Elem :=
  addToLast a (.fn c f) (if (accessBlocks (some a) cls).length = 0 then addZone a cls else cls)

end Verif.Query
