import Verif.Tree.Model
import Verif.Elem.ModelVar
import Verif.Overload.Model
import Verif.Template.Model
import Verif.Escape.Model
import Verif.Cls.ModelClass

/-! Model of the code of a unit (a header): its blocks and its namespaces,
`/repo/src/litgen/internal/adapted_types/adapted_unit.py`, `adapted_block.py`, `adapted_namespace.py`, `adapted_comment.py`,
`adapted_condition_macro.py`, `line_spacer.py` and `/repo/src/litgen/internal/context/litgen_context.py`.

Simplifications: the code of the classes, functions, enumerations, macros and global variables is given (see `Verif.Cls`, `Verif.Fn`,
`Verif.Enums`, `Verif.Num`). The regular expressions of the options are predicates, the replacements of names and of comments are functions.
Progress bars and warnings are left out. -/

namespace Verif.Unit
open Verif.Py

/-- The options that matter for blocks and namespaces. -/
structure Options where
  /-- `bind_library`: nanobind or pybind11 -/
  nanobind : Bool
  /-- `namespaces_root` -/
  roots : List Str
  /-- `_indent_cpp_spaces()`, `_indent_python_spaces()` -/
  cppIndent : Str
  pyIndent : Str
  /-- `python_reproduce_cpp_layout` -/
  reproduceLayout : Bool
  /-- `cpp_to_python.namespace_name_to_python` -/
  nsName : Str → Str
  /-- `cpp_to_python._comment_apply_replacements` -/
  comment : Str → Str
  /-- `custom_bindings._pub_make_submodule_custom_code`: is it the binding? the qualified namespace, the variable (see `Verif.Custom`) -/
  custom : Bool → Str → Str → Option Str
  /-- `custom_bindings._pub_make_main_module_custom_code` -/
  main : Bool → Option Str
  /-- `class_exclude_by_name__regex`, `enum_exclude_by_name__regex`, `namespace_exclude__regex`, `macro_define_include_by_name__regex`,
  `globals_vars_include_by_name__regex` -/
  excludeClass : Str → Bool
  excludeEnum : Str → Bool
  excludeNs : Str → Bool
  includeMacro : Str → Bool
  includeGlobal : Str → Bool

/-- The classes of adapted elements that `LineSpacerCpp` distinguishes: `AdaptedFunction`, `AdaptedEnum`, `AdaptedClass`,
`AdaptedNamespace`, and the others that a block holds. -/
inductive Kind where
  | func
  | enum_
  | cls
  | ns
  | other
deriving DecidableEq

/-- An adapted element of a block: one with its own code (for the functions `key` is the C++ name), or a namespace with its comments. -/
inductive El where
  | leaf (kind : Kind) (key : Str) (stub : Overload.Elem) (pydef : List Str)
  | ns (name previous eol : Str) (elements : List El)

def El.kind : El → Kind
  | .leaf k _ _ _ => k
  | .ns _ _ _ _ => .ns

/-! ### The elements that hold no code -/

/-- `/repo/src/litgen/internal/adapted_types/adapted_comment.py:22-30` `AdaptedEmptyLine` -/
def emptyLine (o : Options) : El := .leaf .other [] ⟨none, if o.reproduceLayout then [[]] else []⟩ []

/-- `/repo/src/litgen/internal/adapted_types/adapted_comment.py:47-51` `add_hash` -/
def addHash (o : Options) (s : Str) : Str := if o.reproduceLayout then "#".toList ++ s else "# ".toList ++ lstrip s

/-- `/repo/src/litgen/internal/adapted_types/adapted_comment.py:43-58` `AdaptedComment` -/
def commentEl (o : Options) (text : Str) : El := .leaf .other [] ⟨none, (lines (o.comment text)).map (addHash o)⟩ []

/-- `/repo/src/litgen/internal/adapted_types/adapted_condition_macro.py:21-38` `AdaptedConditionMacro`; `previous` are its comment lines
(`_elm_comment_python_previous_lines`), `eol` is `eol_comment_code()`. -/
def macroEl (previous : List Str) (code eol : Str) : El :=
  .leaf .other [] ⟨none, previous ++ (lines (code ++ eol)).map ("# ".toList ++ ·)⟩ ((lines code).map ("// ".toList ++ ·))

/-! ### Spaces between elements -/

def standout (k : Kind) : Bool := k = .enum_ || k = .cls || k = .ns

def handled (k : Kind) : Bool := k = .func || standout k

/-- `/repo/src/litgen/internal/adapted_types/line_spacer.py:23-50` `LineSpacerCpp.spacing_lines`: the lines, given `last_element`. -/
def spacing (last : Option Kind) (k : Kind) (ls : List Str) : List Str :=
  if ls.length = 0 then []
  else match last with
    | none => []
    | some l => if !handled k then [] else if standout l || standout k then [[], []] else [[]]

/-- `line_spacer.py:23-28, 47`: the new `last_element`. -/
def lastKind (last : Option Kind) (k : Kind) (ls : List Str) : Option Kind := if ls.length = 0 then last else some k

/-! ### The context -/

/-- A `NamespacesCodeTree` of the `LitgenContext`: its code and the set `_created_namespaces`. -/
structure Ctx where
  created : List Str
  tree : Tree.Tree

/-- `/repo/src/litgen/internal/context/litgen_context.py:77-79` `clear_namespaces_code_tree`: a new tree. -/
def Ctx.empty : Ctx := ⟨[], Tree.emptyTree⟩

/-- `/repo/src/litgen/internal/context/namespaces_code_tree.py:100-102` `was_namespace_created` -/
def Ctx.has (c : Ctx) (q : Str) : Bool := decide (q ∈ c.created)

/-- `/repo/src/litgen/internal/context/namespaces_code_tree.py:104-105` `register_namespace_creation` -/
def Ctx.register (c : Ctx) (q : Str) : Ctx := ⟨q :: c.created, c.tree⟩

/-- `/repo/src/litgen/internal/context/namespaces_code_tree.py:89-98` `store_code`; `none` is the `IndexError`. -/
def Ctx.store (o : Options) (c : Ctx) (q code : Str) : Option Ctx :=
  (Tree.storeCode o.roots c.tree (split q "::".toList) code).map (fun t => ⟨c.created, t⟩)

/-! ### Namespaces -/

/-- `/repo/src/litgen/internal/adapted_types/adapted_namespace.py:65-67` `_qualified_namespace_name`: `cpp_scope_str(include_self=True)` of
a namespace that is inside namespaces only; `scope` has its own name at the end. -/
def qualified (scope : List Str) : Str := join "::".toList scope

def parts (scope : List Str) : List Elem.ScopePart := scope.map (fun n => ⟨.namespace_, n⟩)

/-- `/repo/src/litgen/internal/adapted_types/adapted_namespace.py:142-143` `pydef_submodule_cpp_var` -/
def submoduleVar (o : Options) (scope : List Str) : Str := Elem.varNameOf o.roots (parts scope) []

/-- `/repo/src/litgen/internal/adapted_types/adapted_namespace.py:57-59` `flag_shall_create_namespace_as_module` -/
def asModule (o : Options) (name : Str) : Bool := !decide (name ∈ o.roots)

/-- `/repo/src/litgen/internal/cpp_to_python.py:42-46` `comment_pydef_one_line` -/
def docOneLine (o : Options) (comment : Str) : Str := o.comment (Escape.formatCppCommentOnOneLine (some (o.comment comment)))

/-- `/repo/src/litgen/internal/adapted_types/adapted_namespace.py:119` `submodule_code_template` -/
def submoduleTemplate : Str :=
  "{py}::module_ {submodule_cpp_var} = {parent_module_cpp_var}.def_submodule(\"{module_name}\", \"{module_doc}\");".toList

/-- `/repo/src/litgen/internal/adapted_types/adapted_namespace.py:119-139`: the code that creates a submodule. -/
def submoduleCode (o : Options) (scope : List Str) (name comment : Str) : Str :=
  Template.processCodeTemplate submoduleTemplate
    [("py".toList, if o.nanobind then "nb".toList else "py".toList),
     ("parent_module_cpp_var".toList, Elem.parentVarNameOf o.roots (parts scope.dropLast)),
     ("submodule_cpp_var".toList, submoduleVar o scope),
     ("module_doc".toList, docOneLine o comment),
     ("module_name".toList, o.nsName name)] []

/-- `/repo/src/litgen/internal/adapted_types/adapted_namespace.py:114-139` `_pydef_def_submodule_code` -/
def defSubmodule (o : Options) (scope : List Str) (name comment : Str) (c : Ctx) : List Str × Ctx :=
  if c.has (qualified scope) then ([], c)
  else (lines (submoduleCode o scope name comment), c.register (qualified scope))

/-- The custom code of a namespace, `adapted_namespace.py:99-104` and `153-157`. -/
def customLines (o : Options) (isPydef : Bool) (scope : List Str) : List Str :=
  match o.custom isPydef (qualified scope) (submoduleVar o scope) with
  | none => []
  | some code => Cls.splitlines code

/-- `/repo/src/litgen/internal/adapted_types/adapted_namespace.py:152-165`: what a namespace does with the lines of its block. -/
def finishPydef (o : Options) (scope : List Str) (name comment : Str) (ls : List Str) (c : Ctx) : Option (List Str × Ctx) :=
  if asModule o name then
    let ls := ls ++ customLines o true scope
    let d := defSubmodule o scope name comment c
    (d.2.store o (qualified scope) (unlines (Indent.indentCodeLines (d.1 ++ ls) 1 false (some o.cppIndent)))).map (fun c => ([], c))
  else some (ls, c)

mutual
/-- `pydef_lines()` of an element: `/repo/src/litgen/internal/adapted_types/adapted_namespace.py:147-166` for a namespace. `scope` are the
names of the namespaces around it. -/
def elPydef (o : Options) (scope : List Str) : El → Ctx → Option (List Str × Ctx)
  | .leaf _ _ _ p, c => some (p, c)
  | .ns name previous eol els, c =>
    (blockPydef o (scope ++ [name]) none els c).bind (fun r =>
      finishPydef o (scope ++ [name]) name (Cls.fullComment previous eol) r.1 r.2)
/-- `/repo/src/litgen/internal/adapted_types/adapted_block.py:190-206` `AdaptedBlock.pydef_lines` -/
def blockPydef (o : Options) (scope : List Str) (last : Option Kind) : List El → Ctx → Option (List Str × Ctx)
  | [], c => some ([], c)
  | e :: es, c =>
    (elPydef o scope e c).bind (fun r =>
      (blockPydef o scope (lastKind last e.kind r.1) es r.2).map (fun r' =>
        (spacing last e.kind r.1 ++ r.1 ++ r'.1, r'.2)))
end

/-- `/repo/src/litgen/internal/adapted_types/adapted_namespace.py:75-82` `proxy_class_code` -/
def proxyCode (o : Options) (name : Str) : Str :=
  Indent.unindentCode ("
            class ".toList ++ o.nsName name ++ ":  # Proxy class that introduces typings for the *submodule* ".toList ++ o.nsName name ++ "
            ".toList ++ o.pyIndent ++ "pass  # (This corresponds to a C++ namespace. All methods are static!)
            ".toList) true

/-- `/repo/src/litgen/internal/adapted_types/adapted_namespace.py:69-84` `_stub_class_as_ns_creation_code` -/
def proxyClass (o : Options) (scope : List Str) (name : Str) (c : Ctx) : List Str × Ctx :=
  if c.has (qualified scope) then ([], c) else (lines (proxyCode o name), c.register (qualified scope))

/-- `/repo/src/litgen/internal/adapted_types/adapted_namespace.py:88-93`: the docstring of a namespace, decided before its block is written. -/
def nsDocstring (o : Options) (scope : List Str) (name comment : Str) (c : Ctx) : List Str :=
  if !c.has (qualified scope) && asModule o name then Fn.docstringLines (o.comment comment) else []

/-- `/repo/src/litgen/internal/adapted_types/adapted_namespace.py:94-112`: what a namespace does with its docstring and the lines of its block. -/
def finishStub (o : Options) (scope : List Str) (name : Str) (ls : List Str) (c : Ctx) : Option (List Str × Ctx) :=
  let ls := ls ++ [[]]
  if asModule o name then
    let ls := ls ++ customLines o false scope
    let d := proxyClass o scope name c
    (d.2.store o (qualified scope) (unlines (d.1 ++ Indent.indentCodeLines ls 1 false (some o.pyIndent)))).map (fun c => ([], c))
  else some (ls, c)

/-- The elements that `dedup_stub_lines` keeps, with their kinds (it drops elements and keeps the order of the others). -/
def withKinds : List (Kind × Overload.Elem) → List (Overload.Elem × List Str) → List (Kind × List Str)
  | (k, s) :: cs, e :: es => if s = e.1 then (k, e.2) :: withKinds cs es else withKinds cs (e :: es)
  | _, _ => []

/-- The loop `/repo/src/litgen/internal/adapted_types/adapted_block.py:178-187`. -/
def spacedLines (o : Options) (last : Option Kind) : List (Kind × List Str) → List Str
  | [] => []
  | (k, ls) :: es => (if o.reproduceLayout then [] else spacing last k ls) ++ ls ++ spacedLines o (lastKind last k ls) es

/-- `/repo/src/litgen/internal/adapted_types/adapted_block.py:171-187`, given the `stub_lines()` of the elements (`dedup_stub_lines` does not
call it for the functions it drops, which are no namespaces). -/
def blockLines (o : Options) (l : List (Kind × Overload.Elem)) : List Str :=
  spacedLines o none (withKinds l (Overload.dedupStubLines (l.map Prod.snd)))

mutual
/-- `stub_lines()` of an element, with what `dedup_stub_lines` asks of it:
`/repo/src/litgen/internal/adapted_types/adapted_namespace.py:87-112` for a namespace. -/
def elStub (o : Options) (scope : List Str) : El → Ctx → Option (Overload.Elem × Ctx)
  | .leaf _ _ s _, c => some (s, c)
  | .ns name previous eol els, c =>
    (elsStub o (scope ++ [name]) els c).bind (fun r =>
      (finishStub o (scope ++ [name]) name
        (nsDocstring o (scope ++ [name]) name (Cls.fullComment previous eol) c ++ blockLines o r.1) r.2).map (fun r => (⟨none, r.1⟩, r.2)))
/-- `stub_lines()` of the elements of a block, in order. -/
def elsStub (o : Options) (scope : List Str) : List El → Ctx → Option (List (Kind × Overload.Elem) × Ctx)
  | [], c => some ([], c)
  | e :: es, c =>
    (elStub o scope e c).bind (fun r => (elsStub o scope es r.2).map (fun r' => ((e.kind, r.1) :: r'.1, r'.2)))
end

/-! ### Units -/

def orEmpty : Option Str → Str
  | none => []
  | some s => s

/-- `/repo/src/litgen/internal/adapted_types/adapted_unit.py:46-61` `AdaptedUnit.str_pydef`, with
`/repo/src/litgen/internal/adapted_types/adapted_element.py:107-112`. The context is new for each file
(`/repo/src/litgen/litgen_generator.py:194`). -/
def unitPydef (o : Options) (els : List El) : Option Str :=
  (blockPydef o [] none els Ctx.empty).map (fun r =>
    (if r.1.length = 0 then [] else unlines r.1 ++ "\n".toList) ++
      Tree.fullTreeCode ⟨.pydef, o.roots, o.cppIndent, o.nsName⟩ r.2.tree ++ orEmpty (o.main true))

/-- `/repo/src/litgen/internal/adapted_types/adapted_unit.py:29-44` `AdaptedUnit.str_stub`, with
`/repo/src/litgen/internal/adapted_types/adapted_element.py:100-105`. -/
def unitStub (o : Options) (els : List El) : Option Str :=
  (elsStub o [] els Ctx.empty).map (fun r =>
    unlines (blockLines o r.1) ++ Tree.fullTreeCode ⟨.stub, o.roots, o.pyIndent, o.nsName⟩ r.2.tree ++ orEmpty (o.main false))

/-! ### Which elements are adapted -/

/-- What an adapted element prints. -/
structure Code where
  stub : Overload.Elem
  pydef : List Str

/-- A child of a `CppBlock`. The adapted element of a class, function, macro, enumeration or global variable is `none` if its construction
raises a `SrcmlcppException`. -/
inductive Child where
  | emptyLine
  | comment (text : Str)
  | conditionMacro (previous : List Str) (code eol : Str)
  | struct (name : Str) (code : Option Code)
  | function (name : Str) (publishable : Bool) (code : Option Code)
  | define (name : Str) (publishable : Bool) (code : Option Code)
  | enum_ (name : Str) (code : Option Code)
  | namespace_ (name previous eol : Str) (hasBlock : Bool) (children : List Child)
  | decls (decls : List (Str × Option Code))

def leaf? (kind : Kind) (key : Str) (shall : Bool) : Option Code → List El
  | none => []
  | some c => if shall then [.leaf kind key c.stub c.pydef] else []

/-- `/repo/src/litgen/internal/adapted_types/adapted_block.py:152-163`: the loop over the declarations; an exception ends it. -/
def globals (o : Options) : List (Str × Option Code) → List El
  | [] => []
  | (n, c) :: ds =>
    if o.includeGlobal n then
      match c with
      | none => []
      | some c => .leaf .other [] c.stub c.pydef :: globals o ds
    else globals o ds

/-- `isinstance(elem, AdaptedFunction) and elem.is_overloaded`: the C++ name, for `group_overloaded_functions`. -/
def overloadKey : El → Option Str
  | .leaf _ key s _ => if (Overload.overload s).isSome then some key else none
  | .ns _ _ _ _ => none

mutual
/-- `/repo/src/litgen/internal/adapted_types/adapted_block.py:117-166`: the body of the loop of `_fill_adapted_elements`; the outer `none` is
an error other than `SrcmlcppException`. -/
def fillChild (o : Options) : Child → Option (List El)
  | .emptyLine => some [emptyLine o]
  | .comment text => some [commentEl o text]
  | .conditionMacro previous code eol => some [macroEl previous code eol]
  | .struct name code => some (leaf? .cls [] (!o.excludeClass name) code)
  | .function name publishable code => some (leaf? .func name publishable code)
  | .define name publishable code => some (leaf? .other [] (o.includeMacro name && publishable) code)
  | .enum_ name code => some (leaf? .enum_ [] (!o.excludeEnum name) code)
  | .namespace_ name previous eol hasBlock children =>
    if hasBlock && !o.excludeNs name && !decide (name = []) then
      ((fillChildren o children).bind (Overload.groupOverloaded overloadKey)).map (fun els => [.ns name previous eol els])
    else some []
  | .decls ds => some (globals o ds)
/-- The loop `/repo/src/litgen/internal/adapted_types/adapted_block.py:115-166` `_fill_adapted_elements` -/
def fillChildren (o : Options) : List Child → Option (List El)
  | [] => some []
  | ch :: cs => (fillChild o ch).bind (fun a => (fillChildren o cs).map (fun b => a ++ b))
end

/-- `/repo/src/litgen/internal/adapted_types/adapted_block.py:102-106, 168-169` `AdaptedBlock.__init__` -/
def fillBlock (o : Options) (children : List Child) : Option (List El) :=
  (fillChildren o children).bind (Overload.groupOverloaded overloadKey)

end Verif.Unit
