import Verif.Py.Str

/-! Model of the choice of the elements of a class that are published: `AdaptedClass.__init__` of
`/repo/src/litgen/internal/adapted_types/adapted_class.py`, with the inner classes.

Simplifications: whether a function is publishable (`init_is_function_publishable`, see `Verif/Publish`), whether its adapted function raises a
`SrcmlcppException` (an unsupported operator) and whether a member can be published (`check_can_publish`, see `Verif/Cls`) are given. The children are those
before `_group_overloaded_methods` (see `Verif/Overload`). Warnings are left out. -/

namespace Verif.Query
open Verif.Py

/-- A member of a declaration statement: `decl_name`, `cpp_type.str_code()`, `check_can_publish()`. -/
structure Member where
  name : Str
  type : Str
  canPublish : Bool
deriving DecidableEq

/-- An element of a class. `zone` is a `CppPublicProtectedPrivate`; `other` are the elements that are not supported. -/
inductive Child where
  | emptyLine
  | comment (text : Str)
  | fn (name : Str) (publishable raises : Bool)
  | decls (ds : List Member)
  | unprocessed
  | struct (name : Str) (block : List Child)
  | enum (name : Str)
  | macro_
  | other
  | zone (access : Str) (children : List Child)

/-- The options: `member_exclude_by_name_and_class__regex` (class, member), `member_exclude_by_name__regex`, `member_exclude_by_type__regex`,
`class_exclude_by_name__regex`, `enum_exclude_by_name__regex`, `class_expose_protected_methods__regex`. -/
structure Options where
  excludeOfClass : Str → Str → Bool
  excludeMember : Str → Bool
  excludeType : Str → Bool
  excludeClass : Str → Bool
  excludeEnum : Str → Bool
  exposeProtected : Str → Bool

/-- An adapted element: functions have `is_overloaded`, classes have `adapted_public_children` and `adapted_protected_methods`. -/
inductive Pub where
  | emptyLine
  | comment (text : Str)
  | fn (name : Str) (overloaded : Bool)
  | member (name : Str)
  | cls (name : Str) (children : List Pub) (prot : List (Str × Bool))
  | enum (name : Str)
  | macro_

/-- The functions of the zones of a class, by name (`get_methods`). -/
def fnNames : List Child → List Str
  | [] => []
  | .zone _ l :: r => l.filterMap (fun c => match c with | .fn n _ _ => some n | _ => none) ++ fnNames r
  | _ :: r => fnNames r

/-- `/repo/src/srcmlcpp/cpp_types/functions/cpp_function_decl.py:340-348` `is_overloaded_method`, for a method of the class with the block `all`. -/
def overloaded (all : List Child) (name : Str) : Bool := decide (((fnNames all).filter (fun n => n == name)).length ≥ 2)

/-- `/repo/src/litgen/internal/adapted_types/adapted_class.py:400-416` `_init_add_adapted_class_member` -/
def addMembers (o : Options) (cls : Str) : List Member → List Pub
  | [] => []
  | d :: ds =>
    if !o.excludeOfClass cls d.name && !o.excludeMember d.name && !o.excludeType d.type then
      (if d.canPublish then .member d.name :: addMembers o cls ds else addMembers o cls ds)
    else addMembers o cls ds

/-- `/repo/src/litgen/internal/adapted_types/adapted_class.py:418-427` `_init_add_adopted_class_function` (an exception adds nothing: 465-466) -/
def addFunction (o : Options) (cls : Str) (all : List Child) (name : Str) (publishable raises : Bool) : List Pub :=
  if !o.excludeOfClass cls name then
    (if publishable then (if raises then [] else [.fn name (overloaded all name)]) else [])
  else []

/-- The functions of a zone, for the loop of `_prot_fill_methods`; `none` is the exception. -/
def protZone (all : List Child) : List Child → Option (List (Str × Bool))
  | [] => some []
  | .fn n p raises :: r => if p then (if raises then none else (protZone all r).map (fun l => (n, overloaded all n) :: l)) else protZone all r
  | _ :: r => protZone all r

/-- The loop `/repo/src/litgen/internal/adapted_types/adapted_class.py:1197-1201`. -/
def protLoop (all : List Child) : List Child → Option (List (Str × Bool))
  | [] => some []
  | .zone a l :: r =>
    if a = "protected".toList then (protZone all l).bind (fun x => (protLoop all r).map (fun y => x ++ y)) else protLoop all r
  | _ :: r => protLoop all r

/-- `/repo/src/litgen/internal/adapted_types/adapted_class.py:1194-1201` `_prot_fill_methods`: `adapted_protected_methods`, or the exception. -/
def protMethods (o : Options) (cls : Str) (block : List Child) : Option (List (Str × Bool)) :=
  if !o.exposeProtected cls then some [] else protLoop block block

mutual
/-- `/repo/src/litgen/internal/adapted_types/adapted_class.py:432-466`: the body of the loop of `_init_fill_public_children`. The exception of the
constructor of an inner class adds nothing. -/
def addChild (o : Options) (cls : Str) (all : List Child) : Child → List Pub
  | .emptyLine => [.emptyLine]
  | .comment t => [.comment t]
  | .fn n p raises => addFunction o cls all n p raises
  | .decls ds => addMembers o cls ds
  | .unprocessed => []
  | .struct n block =>
    if !o.excludeClass n then
      (match protMethods o n block with
      | none => []
      | some prot => [.cls n (fillZones o n block block) prot])
    else []
  | .enum n => if !o.excludeEnum n then [.enum n] else []
  | .macro_ => [.macro_]
  | .other => []
  | .zone _ _ => []
/-- The elements of a zone. -/
def addChildren (o : Options) (cls : Str) (all : List Child) : List Child → List Pub
  | [] => []
  | c :: r => addChild o cls all c ++ addChildren o cls all r
/-- `/repo/src/litgen/internal/adapted_types/adapted_class.py:429-466` `_init_fill_public_children`: the elements of the public zones. -/
def fillZones (o : Options) (cls : Str) (all : List Child) : List Child → List Pub
  | [] => []
  | .zone a l :: r => if a = "public".toList then addChildren o cls all l ++ fillZones o cls all r else fillZones o cls all r
  | .emptyLine :: r => fillZones o cls all r
  | .comment _ :: r => fillZones o cls all r
  | .fn _ _ _ :: r => fillZones o cls all r
  | .decls _ :: r => fillZones o cls all r
  | .unprocessed :: r => fillZones o cls all r
  | .struct _ _ :: r => fillZones o cls all r
  | .enum _ :: r => fillZones o cls all r
  | .macro_ :: r => fillZones o cls all r
  | .other :: r => fillZones o cls all r
end

/-- `/repo/src/litgen/internal/adapted_types/adapted_class.py:363-372` `AdaptedClass.__init__`; `none` is the exception. -/
def adaptClass (o : Options) (cls : Str) (block : List Child) : Option Pub :=
  (protMethods o cls block).map (fun prot => .cls cls (fillZones o cls block block) prot)

end Verif.Query
