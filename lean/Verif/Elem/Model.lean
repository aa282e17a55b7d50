import Verif.Py.Str

/-! Model of the tree of C++ elements: parents, ancestors, depth and scope,
`/repo/src/srcmlcpp/cpp_types/base/cpp_element.py`. Objects are identified by a number; their attributes other than
`parent` and the cached scopes are given by a function from numbers to kinds. -/

namespace Verif.Elem
open Verif.Py

/-- `/repo/src/srcmlcpp/cpp_types/scope/cpp_scope.py:8-12` (without `_Unknown`, which no element has). -/
inductive ScopeType
  | namespace_
  | classOrStruct
  | enum_
deriving DecidableEq

/-- `/repo/src/srcmlcpp/cpp_types/scope/cpp_scope.py:15-18` -/
structure ScopePart where
  type : ScopeType
  name : Str
deriving DecidableEq

/-- What the code asks of an element. `tparams` are the printed `specialized_template_params` of the template hosts
(`/repo/src/srcmlcpp/cpp_types/template/cpp_i_template_host.py:18`). -/
inductive Kind
  | namespace_ (name : Str)
  | struct (name : Str) (tparams : List Str)
  | enum_ (isClass : Bool) (name : Str)
  | function (tparams : List Str)
  | block
  | decl
  | other
deriving DecidableEq

abbrev Kinds := Nat → Kind

/-- A list of trees: the first one, its children, and its next siblings. The children are the ones which
`visit_cpp_breadth_first` visits. -/
inductive Forest
  | nil
  | cons (id : Nat) (children siblings : Forest)

/-- `/repo/src/srcmlcpp/cpp_types/base/cpp_element.py:238-241` `CppElementsVisitorEvent` -/
inductive Event
  | onElement (id : Nat) (depth : Nat)
  | onBeforeChildren (id : Nat) (depth : Nat)
  | onAfterChildren (id : Nat) (depth : Nat)
deriving DecidableEq

/-- `visit_cpp_breadth_first`: `/repo/src/srcmlcpp/cpp_types/blocks/cpp_block.py:170-178`,
`/repo/src/srcmlcpp/cpp_types/cpp_enum.py:124-129`, `/repo/src/srcmlcpp/cpp_types/cpp_namespace.py:49-54`,
`/repo/src/srcmlcpp/cpp_types/classes/cpp_struct.py:372-381`, `/repo/src/srcmlcpp/cpp_types/decls_types/cpp_decl.py:390-395`.
They are all the same traversal; a leaf (`/repo/src/srcmlcpp/cpp_types/base/cpp_element.py:78-85`) does not run the two
events around its children, which has no effect on what follows. -/
def visit : Nat → Forest → List Event
  | _, .nil => []
  | d, .cons i ch sib =>
    .onElement i d :: .onBeforeChildren i d :: visit (d + 1) ch ++ .onAfterChildren i d :: visit d sib

/-- The attribute `parent` of the objects: absent, or perhaps `None`. -/
abbrev Parents := Nat → Option (Option Nat)

/-- State of `fill_children_parents`; the last element of the Python list is the head. -/
structure FillState where
  stack : List (Option Nat)
  parents : Parents

def setParent (ps : Parents) (i : Nat) (p : Option Nat) : Parents := fun j => if j = i then some p else ps j

/-- `/repo/src/srcmlcpp/cpp_types/base/cpp_element.py:217-230` `visitor_fill_parent`; `none` is an assertion or a `pop`
from an empty list. -/
def fillStep (st : FillState) : Event → Option FillState
  | .onElement i _ =>
    match st.stack with
    | [] => none
    | [last] => some { st with parents := setParent st.parents i last }
    | last :: _ :: _ => if last = none then none else some { st with parents := setParent st.parents i last }
  | .onBeforeChildren i _ => some { st with stack := some i :: st.stack }
  | .onAfterChildren _ _ =>
    match st.stack with
    | [] => none
    | _ :: rest => some { st with stack := rest }

def fillEvents : FillState → List Event → Option FillState
  | st, [] => some st
  | st, e :: es => (fillStep st e).bind (fun st' => fillEvents st' es)

/-- `/repo/src/srcmlcpp/cpp_types/base/cpp_element.py:208-232` `fill_children_parents`; `top` is `None` for a unit, the
parent of the element otherwise. -/
def fillParents (ps : Parents) (top : Option Nat) (t : Forest) : Option Parents :=
  (fillEvents ⟨[top], ps⟩ (visit 0 t)).map (·.parents)

/-- The loop `while current_parent is not None`: the objects met. `none` for a missing attribute, or no fuel. -/
def chain (ps : Parents) : Nat → Option Nat → Option (List Nat)
  | _, none => some []
  | 0, some _ => none
  | n + 1, some i => (ps i).bind (fun p => (chain ps n p).map (i :: ·))

/-- `/repo/src/srcmlcpp/cpp_types/base/cpp_element.py:176-190` `ancestors_list` -/
def ancestorsList (ps : Parents) (fuel : Nat) (includeSelf : Bool) (i : Nat) : Option (List Nat) :=
  (ps i).bind (fun p => chain ps fuel (if includeSelf then some i else p))

/-- `/repo/src/srcmlcpp/cpp_types/base/cpp_element.py:67-76` `depth` -/
def depth (ps : Parents) (fuel : Nat) (i : Nat) : Option Nat :=
  match ps i with
  | none => some 0
  | some p => (chain ps fuel p).map List.length

/-- `/repo/src/srcmlcpp/cpp_types/base/cpp_element.py:97-109` `self_scope` -/
def selfScope : Kind → Option ScopePart
  | .struct name _ => some ⟨.classOrStruct, name⟩
  | .namespace_ name => some ⟨.namespace_, name⟩
  | .enum_ _ name => some ⟨.enum_, name⟩
  | _ => none

/-- `/repo/src/srcmlcpp/cpp_types/decls_types/cpp_decl.py:397-408` `parent_enum_if_applicable`, together with
`not parent_enum.is_enum_class()` of its use. -/
def inCEnum (ks : Kinds) (ps : Parents) (i : Nat) : Bool :=
  match ks i with
  | .decl =>
    match ps i with
    | some (some b) =>
      match ks b with
      | .block =>
        match ps b with
        | some (some e) =>
          match ks e with
          | .enum_ isClass _ => !isClass
          | _ => false
        | _ => false
      | _ => false
    | _ => false
  | _ => false

/-- `ancestors[:-2]` -/
def dropLast2 (l : List Nat) : List Nat := l.take (l.length - 2)

/-- `/repo/src/srcmlcpp/cpp_types/base/cpp_element.py:136-174` `cpp_scope`, without the cache. -/
def cppScope (ks : Kinds) (ps : Parents) (fuel : Nat) (includeSelf : Bool) (i : Nat) : Option (List ScopePart) :=
  (ancestorsList ps fuel includeSelf i).map fun l =>
    let ancestors := l.reverse
    let ancestors := if inCEnum ks ps i then dropLast2 ancestors else ancestors
    ancestors.filterMap (fun j => selfScope (ks j))

/-- The objects with their `_cached_cpp_scope` attributes, by `include_self`. -/
structure World where
  parents : Parents
  cache : Bool → Nat → Option (List ScopePart)

/-- `/repo/src/srcmlcpp/cpp_types/base/cpp_element.py:136-174` `cpp_scope`, with the cache of lines 146-151 and 169-174. -/
def scopeCached (ks : Kinds) (fuel : Nat) (w : World) (includeSelf : Bool) (i : Nat) : Option (List ScopePart × World) :=
  match w.cache includeSelf i with
  | some s => some (s, w)
  | none =>
    (cppScope ks w.parents fuel includeSelf i).map fun s =>
      (s, { w with cache := fun b j => if b = includeSelf ∧ j = i then some s else w.cache b j })

/-- `/repo/src/srcmlcpp/cpp_types/base/cpp_element.py:111-119` `_clear_scope_cache` -/
def clearCache (w : World) (i : Nat) : World := { w with cache := fun b j => if j = i then none else w.cache b j }

/-- What happens to the elements during a generation: parents are filled, scopes are asked, caches are cleared. -/
inductive Op
  | fill (top : Option Nat) (t : Forest)
  | ask (includeSelf : Bool) (i : Nat)
  | clear (i : Nat)

/-- A step; errors stop the run. -/
def Op.run (ks : Kinds) (fuel : Nat) (w : World) : Op → Option World
  | .fill top t => (fillParents w.parents top t).map (fun ps => { w with parents := ps })
  | .ask b i => (scopeCached ks fuel w b i).map (·.2)
  | .clear i => some (clearCache w i)

def runOps (ks : Kinds) (fuel : Nat) : World → List Op → Option World
  | w, [] => some w
  | w, o :: os => (o.run ks fuel w).bind (fun w' => runOps ks fuel w' os)

end Verif.Elem
