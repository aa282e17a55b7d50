import Verif.Type.Model
import Verif.Scope.Model

/-! Model of the specialisation of templates: `with_specialized_template` of types, declarations, functions and classes
(`/repo/src/srcmlcpp/cpp_types/decls_types/cpp_type.py`, `decls_types/cpp_decl.py`, `decls_types/cpp_decl_statement.py`,
`functions/cpp_function_decl.py`, `classes/cpp_struct.py`), and `/repo/src/srcmlcpp/cpp_types/template/cpp_i_template_host.py`. -/

namespace Verif.Inst
open Verif.Py Verif.Type
open Verif.Scope (isWordChar)

/-- `re.subn(rf"\b{name}\b", by, s)` for a name without regular expression operator and a replacement without backslash: the result and
the number of replacements. Arguments: whether the previous character is a word character; how many characters are still covered by the
last match; the rest. `u` says which characters above 127 are word characters. (With an empty name, the pattern matches at each
boundary.) -/
def subnAux (u : Char → Bool) (name by_ : Str) : Bool → Nat → Str → Str × Nat
  | prev, _, [] => if name = [] ∧ prev then (by_, 1) else ([], 0)
  | _, skip + 1, c :: rest => subnAux u name by_ (isWordChar u c) skip rest
  | prev, 0, c :: rest =>
    let nextIsWord := ((c :: rest).drop name.length).head?.any (isWordChar u)
    let lastIsWord := (name.getLast?.map (isWordChar u)).getD prev
    if prev ≠ isWordChar u c ∧ startsWith (c :: rest) name ∧ lastIsWord ≠ nextIsWord then
      if name = [] then
        let r := subnAux u name by_ (isWordChar u c) 0 rest
        (by_ ++ c :: r.1, r.2 + 1)
      else
        let r := subnAux u name by_ (isWordChar u c) (name.length - 1) rest
        (by_ ++ r.1, r.2 + 1)
    else
      let r := subnAux u name by_ (isWordChar u c) 0 rest
      (c :: r.1, r.2)

def subn (u : Char → Bool) (name by_ s : Str) : Str × Nat := subnAux u name by_ false 0 s

/-- `/repo/src/srcmlcpp/cpp_types/template/cpp_template_specialization.py:8-38` `CppTemplateSpecializationPart`; an empty name stands for
the first parameter which has no type yet. -/
structure Part where
  type : CppType
  name : Str
deriving DecidableEq

/-- What `with_specialized_template` returns: an exception, `None`, or the new element. -/
inductive Res (α : Type) where
  | error
  | unchanged
  | changed (a : α)
deriving DecidableEq

/-- `/repo/src/srcmlcpp/cpp_types/decls_types/cpp_type.py:207-218`: one typename and one part; the flag is `was_changed`.
`none` is the `AssertionError` of `len(typenames) == 1`, or the `ValueError` of `str_code`. -/
def specTypename1 (u : Char → Bool) (p : Part) (tn : Str) : Option (Str × Bool) :=
  if p.type.typenames.length ≠ 1 then none
  else
    match strCode p.type with
    | none => none
    | some by_ =>
      if tn = p.name then some (by_, true)
      else
        let r := subn u p.name by_ tn
        if r.2 > 0 then some (r.1, true) else some (tn, false)

/-- `/repo/src/srcmlcpp/cpp_types/decls_types/cpp_type.py:206-218`: the parts one after the other. -/
def specTypename (u : Char → Bool) : List Part → Str → Option (Str × Bool)
  | [], tn => some (tn, false)
  | p :: ps, tn =>
    match specTypename1 u p tn with
    | none => none
    | some r =>
      match specTypename u ps r.1 with
      | none => none
      | some r' => some (r'.1, r.2 || r'.2)

/-- `/repo/src/srcmlcpp/cpp_types/decls_types/cpp_type.py:197-223` `CppType.with_specialized_template` -/
def specType (u : Char → Bool) (ps : List Part) (t : CppType) : Res CppType :=
  match t.typenames.mapM (specTypename u ps) with
  | none => .error
  | some l => if l.any Prod.snd then .changed { t with typenames := l.map Prod.fst } else .unchanged

/-- A declaration: `decl_name` and what follows the name (array, bit field) in `name`, and the initial value. -/
structure Decl where
  type : CppType
  name : Str
  init : Str
deriving DecidableEq

/-- `/repo/src/srcmlcpp/cpp_types/decls_types/cpp_decl.py:378-388` `CppDecl.with_specialized_template` -/
def specDecl (u : Char → Bool) (ps : List Part) (d : Decl) : Res Decl :=
  match specType u ps d.type with
  | .error => .error
  | .unchanged => .unchanged
  | .changed t => .changed { d with type := t }

/-- The loop `for x in xs: new = f(x); append(new if new is not None else x)`, with `was_changed`
(`/repo/src/srcmlcpp/cpp_types/decls_types/cpp_decl_statement.py:64-72`, `functions/cpp_function_decl.py:146-155`). -/
def specAll {α : Type} (f : α → Res α) : List α → Option (List α × Bool)
  | [] => some ([], false)
  | x :: xs =>
    match f x, specAll f xs with
    | .error, _ => none
    | _, none => none
    | .unchanged, some r => some (x :: r.1, r.2)
    | .changed y, some r => some (y :: r.1, true)

/-- `/repo/src/srcmlcpp/cpp_types/template/cpp_i_template_host.py:12-32`: the names of the template parameters (`none` if the element is
not a template) and the types already given. -/
structure Host where
  template : Option (List Str)
  given : List CppType
deriving DecidableEq

/-- `/repo/src/srcmlcpp/cpp_types/template/cpp_i_template_host.py:36-47` `is_template_fully_specialized` -/
def Host.full (h : Host) : Bool :=
  match h.template with
  | none => false
  | some names => h.given.length == names.length

/-- `/repo/src/srcmlcpp/cpp_types/template/cpp_i_template_host.py:49-55` `str_template_specialization` -/
def Host.text (h : Host) : Option Str :=
  if h.given.length > 0 then (h.given.mapM strCode).map (fun l => "<".toList ++ join ", ".toList l ++ ">".toList) else some []

/-- `/repo/src/srcmlcpp/cpp_types/template/cpp_i_template_host.py:57-67` `_store_template_specs`: the parts, with their names (they are
changed in place), and the host. `none` is an `AssertionError`. -/
def store : Host → List Part → Option (Host × List Part)
  | h, [] => some (h, [])
  | h, p :: ps =>
    if p.name = [] then
      match h.template with
      | none => none
      | some names =>
        match names[h.given.length]? with
        | none => none
        | some n =>
          match store { h with given := h.given ++ [p.type] } ps with
          | none => none
          | some r => some (r.1, ⟨p.type, n⟩ :: r.2)
    else
      match store h ps with
      | none => none
      | some r => some (r.1, p :: r.2)

/-- A function or method declaration (`return_type` is missing for constructors). -/
structure Func where
  host : Host
  name : Str
  ret : Option CppType
  params : List Decl
deriving DecidableEq

/-- `/repo/src/srcmlcpp/cpp_types/functions/cpp_function_decl.py:138-144`: the return type. -/
def specRet (u : Char → Bool) (ps : List Part) : Option CppType → Option (Option CppType × Bool)
  | none => some (none, false)
  | some t =>
    match specType u ps t with
    | .error => none
    | .unchanged => some (some t, false)
    | .changed t' => some (some t', true)

/-- `/repo/src/srcmlcpp/cpp_types/functions/cpp_function_decl.py:131-161` `CppFunctionDecl.with_specialized_template` -/
def specFunc (u : Char → Bool) (ps : List Part) (f : Func) : Res Func :=
  match store f.host ps with
  | none => .error
  | some (host, ps) =>
    match specRet u ps f.ret, specAll (specDecl u ps) f.params with
    | some r, some l => if r.2 || l.2 then .changed ⟨host, f.name, r.1, l.1⟩ else .unchanged
    | _, _ => .error

/-- What precedes the block of a class. -/
structure Head where
  host : Host
  name : Str
  bases : List Str
deriving DecidableEq

mutual
/-- The members of a class: methods, member variables, nested classes, and the rest (enums, comments, friends, ...). -/
inductive Elem where
  | func (f : Func)
  | decls (ds : List Decl)
  | struct_ (h : Head) (blocks : List Block)
  | other (text : Str)
/-- What is in the block of a class: access sections, and the rest. -/
inductive Block where
  | access (name : Str) (children : List Elem)
  | other (text : Str)
end

/-- `/repo/src/srcmlcpp/cpp_types/decls_types/cpp_decl_statement.py:58-78` `CppDeclStatement.with_specialized_template` -/
def specDecls (u : Char → Bool) (ps : List Part) (ds : List Decl) : Res (List Decl) :=
  match specAll (specDecl u ps) ds with
  | none => .error
  | some r => if r.2 then .changed r.1 else .unchanged

mutual
/-- `/repo/src/srcmlcpp/cpp_types/classes/cpp_struct.py:355-358`: the test on the kind of the member, and
`/repo/src/srcmlcpp/cpp_types/classes/cpp_struct.py:343-370` `CppStruct.with_specialized_template` (`_fill_children_parents` is left
out). -/
def specElem (u : Char → Bool) (ps : List Part) : Elem → Res Elem
  | .func f =>
    match specFunc u ps f with
    | .error => .error
    | .unchanged => .unchanged
    | .changed f => .changed (.func f)
  | .decls ds =>
    match specDecls u ps ds with
    | .error => .error
    | .unchanged => .unchanged
    | .changed ds => .changed (.decls ds)
  | .struct_ h blocks =>
    match store h.host ps with
    | none => .error
    | some (host, ps) =>
      match specBlocks u ps blocks with
      | none => .error
      | some r => if r.2 then .changed (.struct_ { h with host := host } r.1) else .unchanged
  | .other _ => .unchanged
/-- `/repo/src/srcmlcpp/cpp_types/classes/cpp_struct.py:352-364`: the loop on the blocks. -/
def specBlocks (u : Char → Bool) (ps : List Part) : List Block → Option (List Block × Bool)
  | [] => some ([], false)
  | b :: bs =>
    match specBlock u ps b, specBlocks u ps bs with
    | some r, some rs => some (r.1 :: rs.1, r.2 || rs.2)
    | _, _ => none
/-- `/repo/src/srcmlcpp/cpp_types/classes/cpp_struct.py:353-364`: one block. -/
def specBlock (u : Char → Bool) (ps : List Part) : Block → Option (Block × Bool)
  | .access name children =>
    match specChildren u ps children with
    | none => none
    | some r => some (.access name r.1, r.2)
  | .other t => some (.other t, false)
/-- `/repo/src/srcmlcpp/cpp_types/classes/cpp_struct.py:355-363`: the loop on the members of a block. -/
def specChildren (u : Char → Bool) (ps : List Part) : List Elem → Option (List Elem × Bool)
  | [] => some ([], false)
  | x :: xs =>
    match specElem u ps x, specChildren u ps xs with
    | .error, _ => none
    | _, none => none
    | .unchanged, some r => some (x :: r.1, r.2)
    | .changed y, some r => some (y :: r.1, true)
end

/-- `/repo/src/litgen/internal/adapted_types/adapted_function.py:1394-1401` `_tpl_instantiate_template_for_type` (and
`/repo/src/litgen/internal/adapted_types/adapted_class.py:969-974` for classes): `from_type(cpp_type)`, then
`assert new_cpp_function is not None`. -/
def instantiateFunc (u : Char → Bool) (t : CppType) (f : Func) : Option Func :=
  match specFunc u [⟨t, []⟩] f with
  | .changed f => some f
  | _ => none

/-- `/repo/src/litgen/internal/adapted_types/adapted_class.py:969-974` -/
def instantiateClass (u : Char → Bool) (t : CppType) (h : Head) (blocks : List Block) : Option Elem :=
  match specElem u [⟨t, []⟩] (.struct_ h blocks) with
  | .changed e => some e
  | _ => none

end Verif.Inst
