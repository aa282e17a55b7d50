import Verif.Scope.Model

/-! Model of the visit of the elements of a unit by `visit_cpp_breadth_first`, class by class, of the queries made with it, and of the identifiers that a
unit knows (`/repo/src/srcmlcpp/cpp_types/scope/cpp_scope_identifiers.py`).

An element is visited with its chain of parents, the nearest first: C49 (`Verif/Elem`) says that the attributes `parent` are this chain. Simplifications: only the
names are kept in the elements; the blocks of functions, which are not processed, and the lists of initializers are one element without children. -/

namespace Verif.Ids
open Verif.Py

/-- The four classes of functions: `CppFunctionDecl`, `CppConstructorDecl` (`body` is false), `CppFunction`, `CppConstructor` (`body` is true). -/
structure Fn where
  body : Bool
  ctor : Bool
  name : Str
  /-- `hasattr(self, "return_type")` -/
  ret : Bool
  /-- The names of the parameters. -/
  params : List Str
  /-- The parameters of the template: the name of its declaration for one like `int N`, `none` for one like `typename T`. -/
  template : Option (List (Option Str))
deriving DecidableEq

/-- The elements, with what they are made of. -/
inductive Node where
  | namespace_ (name : Str) (children : List Node)
  | struct (name : Str) (supers : Option (List Str)) (zones : List (List Node)) (template : Option (List (Option Str)))
  /-- The children of the block of an enumeration: `some a` for an enumerator, `none` for something else. -/
  | enum_ (isClass : Bool) (name : Str) (children : List (Option Str))
  | declStmt (names : List Str)
  | fn (f : Fn)
  | other

/-- An element that is visited: its class and its name. -/
inductive Item where
  | unit | block | zone
  | namespace_ (name : Str)
  | struct (name : Str)
  | enum_ (isClass : Bool) (name : Str)
  | declStmt
  | decl (name : Str)
  | fn (name : Str)
  | type_ | params | param | template | supers | super_ | other
deriving DecidableEq

/-- An element and its parents, the nearest first. -/
abbrev Seen := Item × List Item

/-- `/repo/src/srcmlcpp/cpp_types/decls_types/cpp_decl.py:390-395`: a declaration with a type. -/
def visitDecl (anc : List Item) (n : Str) : List Seen := [(.decl n, anc), (.type_, .decl n :: anc)]

/-- `/repo/src/srcmlcpp/cpp_types/functions/cpp_parameter.py:283-289` -/
def visitParam (anc : List Item) (p : Option Str) : List Seen :=
  (.param, anc) :: (match p with | none => [] | some n => visitDecl (.param :: anc) n)

/-- `/repo/src/srcmlcpp/cpp_types/functions/cpp_parameter_list.py:152-157` -/
def visitParams (anc : List Item) (ps : List (Option Str)) : List Seen := (.params, anc) :: ps.flatMap (visitParam (.params :: anc))

/-- `/repo/src/srcmlcpp/cpp_types/template/cpp_template.py:51-56` -/
def visitTemplate (anc : List Item) : Option (List (Option Str)) → List Seen
  | none => []
  | some ps => (.template, anc) :: visitParams (.template :: anc) ps

/-- `/repo/src/srcmlcpp/cpp_types/classes/cpp_super_list.py:48-53` -/
def visitSupers (anc : List Item) : Option (List Str) → List Seen
  | none => []
  | some l => (.supers, anc) :: l.map (fun _ => (.super_, .supers :: anc))

/-- `/repo/src/srcmlcpp/cpp_types/functions/cpp_function_decl.py:477-486`, `/repo/src/srcmlcpp/cpp_types/functions/cpp_function.py:49-54`,
`/repo/src/srcmlcpp/cpp_types/functions/cpp_constructor.py:59-66` -/
def visitFn (anc : List Item) (f : Fn) : List Seen :=
  (.fn f.name, anc) ::
    (if f.body then (.other, .fn f.name :: anc) :: (if f.ctor then [(.other, .fn f.name :: anc)] else [])
     else (if f.ret then [(.type_, .fn f.name :: anc)] else []) ++ visitParams (.fn f.name :: anc) (f.params.map some) ++
       visitTemplate (.fn f.name :: anc) f.template)

/-- `/repo/src/srcmlcpp/cpp_types/decls_types/cpp_decl_statement.py:51-56` -/
def visitStmt (anc : List Item) (names : List Str) : List Seen := (.declStmt, anc) :: names.flatMap (visitDecl (.declStmt :: anc))

/-- `/repo/src/srcmlcpp/cpp_types/cpp_enum.py:124-129`; the enumerators have no type. -/
def visitEnum (anc : List Item) (isClass : Bool) (n : Str) (l : List (Option Str)) : List Seen :=
  (.enum_ isClass n, anc) :: (.block, .enum_ isClass n :: anc) ::
    l.map (fun a => (match a with | none => Item.other | some a => Item.decl a, .block :: .enum_ isClass n :: anc))

mutual
/-- `visit_cpp_breadth_first`, the elements of the events `OnElement`: `/repo/src/srcmlcpp/cpp_types/cpp_namespace.py:49-54`,
`/repo/src/srcmlcpp/cpp_types/classes/cpp_struct.py:372-381`, and the definitions above. -/
def visit (anc : List Item) : Node → List Seen
  | .namespace_ n l => (.namespace_ n, anc) :: (.block, .namespace_ n :: anc) :: visitAll (.block :: .namespace_ n :: anc) l
  | .struct n sup zs t =>
    (.struct n, anc) :: (visitSupers (.struct n :: anc) sup ++
      ((.block, .struct n :: anc) :: visitZones (.block :: .struct n :: anc) zs ++ visitTemplate (.struct n :: anc) t))
  | .enum_ c n l => visitEnum anc c n l
  | .declStmt l => visitStmt anc l
  | .fn f => visitFn anc f
  | .other => [(.other, anc)]
/-- `/repo/src/srcmlcpp/cpp_types/blocks/cpp_block.py:170-178`, the loop on the children of a block. -/
def visitAll (anc : List Item) : List Node → List Seen
  | [] => []
  | x :: l => visit anc x ++ visitAll anc l
/-- `/repo/src/srcmlcpp/cpp_types/blocks/cpp_block.py:170-178` for the block of a class and its zones. -/
def visitZones (anc : List Item) : List (List Node) → List Seen
  | [] => []
  | z :: l => (.zone, anc) :: visitAll (.zone :: anc) z ++ visitZones anc l
end

/-- `/repo/src/srcmlcpp/cpp_types/blocks/cpp_block.py:180-189` `all_cpp_elements_recursive` of a unit. -/
def allElements (body : List Node) : List Seen := (.unit, []) :: visitAll [.unit] body

/-- `/repo/src/srcmlcpp/cpp_types/blocks/cpp_block.py:158-168` `all_decl_recursive`: the names. -/
def allDecls (body : List Node) : List Str := (allElements body).filterMap (fun x => match x.1 with | .decl n => some n | _ => none)

/-- `/repo/src/srcmlcpp/cpp_types/blocks/cpp_block.py:140-144` `all_functions_recursive`: the names. -/
def allFunctions (body : List Node) : List Str := (allElements body).filterMap (fun x => match x.1 with | .fn n => some n | _ => none)

/-- `/repo/src/srcmlcpp/cpp_types/blocks/cpp_block.py:93-99` `all_structs_recursive`: the names. -/
def allStructs (body : List Node) : List Str := (allElements body).filterMap (fun x => match x.1 with | .struct n => some n | _ => none)

/-- `/repo/src/srcmlcpp/cpp_types/base/cpp_element.py:97-109` `self_scope` -/
def selfScope : Item → Option Str
  | .struct n => some n
  | .namespace_ n => some n
  | .enum_ _ n => some n
  | _ => none

/-- `/repo/src/srcmlcpp/cpp_types/base/cpp_element.py:136-174` `cpp_scope` (see also `Verif/Elem`) -/
def cppScope (x : Seen) : Scope.CppScope :=
  let anc := match x.1, x.2 with
    | .decl _, .block :: .enum_ false _ :: rest => rest
    | _, anc => anc
  (anc.reverse).filterMap selfScope

/-- `/repo/src/srcmlcpp/cpp_types/decls_types/cpp_decl.py:410-441` `decl_context`, in `VarDecl` or `EnumDecl`. -/
def isVarOrEnumerator : List Item → Bool
  | .declStmt :: _ => true
  | .block :: .enum_ _ _ :: _ => true
  | _ => false

/-- `/repo/src/srcmlcpp/cpp_types/functions/cpp_function_decl.py:392-397` `is_constructor`, with `parent_struct_if_method`; its assertions hold as a zone is
always in the block of a class. -/
def isConstructor (anc : List Item) (n : Str) : Bool :=
  match anc with
  | .zone :: .block :: .struct c :: _ => n == c
  | _ => false

/-- `/repo/src/srcmlcpp/cpp_types/scope/cpp_scope_identifiers.py:16-39`, the body of the loop. -/
def identifier (x : Seen) : Option Str :=
  match x.1 with
  | .struct n => some (Scope.qualifiedName (cppScope x) n)
  | .enum_ _ n => some (Scope.qualifiedName (cppScope x) n)
  | .fn n => if isConstructor x.2 n then none else some (Scope.qualifiedName (cppScope x) n)
  | .decl n => if isVarOrEnumerator x.2 then some (Scope.qualifiedName (cppScope x) n) else none
  | _ => none

/-- `/repo/src/srcmlcpp/cpp_types/scope/cpp_scope_identifiers.py:12-39` `fill_cache` on the elements of a unit
(`/repo/src/srcmlcpp/cpp_types/blocks/cpp_unit.py:65-67`). -/
def known (body : List Node) : List Str := (allElements body).filterMap identifier

end Verif.Ids
