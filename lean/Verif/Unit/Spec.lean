import Verif.Unit.Model
import Verif.Overload.Spec

/-! Specification of the code of a unit: what stands in which module, in which order. The text is compared by its rows (`rows`). -/

namespace Verif.Unit.Spec
open Verif.Py

/-- The lines of a text that are not blank, with their indentation, without their trailing spaces. -/
def rows (s : Str) : List Str := ((lines s).map rstrip).filter (fun l => l ≠ [])

/-- The rows of lines. -/
def rowsOf (ls : List Str) : List Str := ls.flatMap rows

/-- Rows moved to the right. -/
def shift (indent : Str) (rs : List Str) : List Str := rs.map (indent ++ ·)

/-- The module of a scope: the names of its namespaces that are not root namespaces. -/
def path (o : Options) (scope : List Str) : List Str := scope.filter (fun n => n ∉ o.roots)

/-- An occurrence of a namespace in the source: its scope, with its own name at the end, and its comment. -/
structure Occurrence where
  scope : List Str
  comment : Str
deriving DecidableEq

mutual
/-- The namespaces that become modules, in the order in which they begin. -/
def spaces (o : Options) (scope : List Str) : El → List Occurrence
  | .leaf _ _ _ _ => []
  | .ns name previous eol els =>
    (if name ∈ o.roots then [] else [⟨scope ++ [name], Cls.fullComment previous eol⟩]) ++ spacesAll o (scope ++ [name]) els
def spacesAll (o : Options) (scope : List Str) : List El → List Occurrence
  | [] => []
  | e :: es => spaces o scope e ++ spacesAll o scope es
end

/-- Which of the two codes. -/
inductive Side where
  | binding
  | stub
deriving DecidableEq

def Side.isPydef : Side → Bool
  | .binding => true
  | .stub => false

/-- The variable of a module in the binding. -/
def var (p : List Str) : Str :=
  if p = [] then "m".toList else "py".toList ++ join "_".toList (p.map ("Ns".toList ++ ·))

/-- The rows of an optional code. -/
def rows? : Option Str → List Str
  | none => []
  | some s => rows s

mutual
/-- What a unit holds, in order: the module of each element and its rows. The custom code of a namespace stands at its end. -/
def placed (side : Side) (o : Options) (scope : List Str) : El → List (List Str × List Str)
  | .leaf _ _ s p => [(path o scope, rowsOf (match side with | .binding => p | .stub => s.stubLines))]
  | .ns name _ _ els =>
    placedAll side o (scope ++ [name]) els ++
    (if name ∈ o.roots then []
     else [(path o (scope ++ [name]),
       rows? (o.custom side.isPydef (join "::".toList (scope ++ [name])) (var (path o (scope ++ [name])))))])
def placedAll (side : Side) (o : Options) (scope : List Str) : List El → List (List Str × List Str)
  | [] => []
  | e :: es => placed side o scope e ++ placedAll side o scope es
end

/-- The rows of the elements of a module, in order. -/
def items (side : Side) (o : Options) (els : List El) (p : List Str) : List Str :=
  ((placedAll side o [] els).filter (fun x => x.1 = p)).flatMap (·.2)

/-- The first occurrences, in order. -/
def distinct : List Str → List Str
  | [] => []
  | n :: ns => n :: (distinct ns).filter (fun m => m ≠ n)

/-- The modules inside a module, in the order of their first occurrence. -/
def inside (o : Options) (els : List El) (p : List Str) : List Str :=
  distinct ((spacesAll o [] els).filterMap (fun x =>
    if (path o x.scope).dropLast = p then (path o x.scope).getLast? else none))

/-- The first occurrence of a module. -/
def first (o : Options) (els : List El) (p : List Str) : Option Occurrence := (spacesAll o [] els).find? (fun x => path o x.scope = p)

/-- The comment of its first occurrence. -/
def comment (o : Options) (els : List El) (p : List Str) : Str := ((first o els p).map (·.comment)).getD []

/-- The statement that creates a module: `py::module_ pyNsA_NsB = pyNsA.def_submodule("b", "its comment");` -/
def declaration (o : Options) (p : List Str) (name comment : Str) : Str :=
  (if o.nanobind then "nb".toList else "py".toList) ++ "::module_ ".toList ++ var p ++ " = ".toList ++ var p.dropLast ++
    ".def_submodule(\"".toList ++ o.nsName name ++ "\", \"".toList ++ docOneLine o comment ++ "\");".toList

/-- The number of levels of modules. -/
def depth (o : Options) (els : List El) : Nat := ((spacesAll o [] els).map (fun x => (path o x.scope).length)).foldr max 0

/-- The binding of a module: a block with the creation of the module, its elements, and the modules inside it. -/
def bindingModule (o : Options) (els : List El) : Nat → List Str → Str → List Str
  | 0, _, _ => []
  | d + 1, p, name =>
    ["{ // <namespace ".toList ++ name ++ ">".toList] ++
    shift o.cppIndent (rows (declaration o (p ++ [name]) name (comment o els (p ++ [name]))) ++ items .binding o els (p ++ [name])) ++
    shift o.cppIndent ((inside o els (p ++ [name])).flatMap (bindingModule o els d (p ++ [name]))) ++
    ["} // </namespace ".toList ++ name ++ ">".toList]

/-- The class that stands for a module in the stub. -/
def proxy (o : Options) (name : Str) : List Str :=
  rowsOf ["class ".toList ++ o.nsName name ++ ":  # Proxy class that introduces typings for the *submodule* ".toList ++ o.nsName name,
    o.pyIndent ++ "pass  # (This corresponds to a C++ namespace. All methods are static!)".toList]

/-- The stub of a module: the class that stands for it, inside it the docstring, its elements, and the modules inside it. -/
def stubModule (o : Options) (els : List El) : Nat → List Str → Str → List Str
  | 0, _, _ => []
  | d + 1, p, name =>
    ["# <submodule ".toList ++ o.nsName name ++ ">".toList] ++ proxy o name ++
    shift o.pyIndent (rowsOf (Fn.docstringLines (o.comment (comment o els (p ++ [name])))) ++ items .stub o els (p ++ [name])) ++
    shift o.pyIndent ((inside o els (p ++ [name])).flatMap (stubModule o els d (p ++ [name]))) ++
    ["# </submodule ".toList ++ o.nsName name ++ ">".toList]

/-- The binding of a unit: what stands in the main module, then its modules, then the custom code of the main module. -/
def binding (o : Options) (els : List El) : List Str :=
  items .binding o els [] ++ (inside o els []).flatMap (bindingModule o els (depth o els) []) ++ rows? (o.main true)

/-! ### Overloads in stubs -/

/-- What the de-duplication sees of an element. -/
def summary : El → Overload.Elem
  | .leaf _ _ s _ => s
  | .ns _ _ _ _ => ⟨none, []⟩

/-- The elements that are no duplicates of an earlier overload. -/
def survivors (els : List El) : List El :=
  (els.zipIdx.filter (fun p => !Overload.Spec.isDuplicate ((els.take p.2).map summary) (summary p.1))).map Prod.fst

/-- An element, with `@overload` only if it is needed. -/
def shorten (kept : List Overload.Elem) : El → El
  | .leaf k key s p => .leaf k key ⟨s.fn, Overload.Spec.expectedLines kept s⟩ p
  | .ns n pr e els => .ns n pr e els

/-- The elements of a block that its stub shows. -/
def shown (els : List El) : List El := (survivors els).map (shorten ((survivors els).map summary))

mutual
/-- What the stub shows of an element. -/
def shownEl : El → El
  | .leaf k key s p => .leaf k key s p
  | .ns n pr e els => .ns n pr e (shown (shownEls els))
def shownEls : List El → List El
  | [] => []
  | e :: es => shownEl e :: shownEls es
end

/-- The stub of a unit, of the elements that are shown. -/
def stub (o : Options) (els : List El) : List Str :=
  items .stub o els [] ++ (inside o els []).flatMap (stubModule o els (depth o els) []) ++ rows? (o.main false)

/-! ### Well-formed units -/

mutual
/-- The names of all namespaces. -/
def nsNames : El → List Str
  | .leaf _ _ _ _ => []
  | .ns name _ _ els => name :: nsNamesAll els
def nsNamesAll : List El → List Str
  | [] => []
  | e :: es => nsNames e ++ nsNamesAll es
end

/-- A module is not written both inside and outside a root namespace. -/
def Consistent (o : Options) (els : List El) : Prop :=
  ∀ a ∈ spacesAll o [] els, ∀ b ∈ spacesAll o [] els, path o a.scope = path o b.scope → a.scope = b.scope

/-- A text of spaces, on one line. -/
def Blank (s : Str) : Prop := ∀ c ∈ s, isSpace c = true ∧ c ≠ '\n'

/-- The units that the properties speak of: the namespaces have identifiers as names, in C++ and in Python; the custom code of the main module
begins on a new line (`/repo/src/litgen/internal/custom_bindings.py:219-220`). -/
structure Regular (o : Options) (els : List El) : Prop where
  cpp : Blank o.cppIndent
  py : Blank o.pyIndent
  names : ∀ n ∈ nsNamesAll els, n ≠ [] ∧ ':' ∉ n ∧ '\n' ∉ n ∧ '{' ∉ n
  pyNames : ∀ n ∈ nsNamesAll els, '\n' ∉ o.nsName n ∧ '{' ∉ o.nsName n
  consistent : Consistent o els
  main : ∀ b s, o.main b = some s → s.head? = some '\n'

/-! ### Which elements are adapted -/

/-- What is asked of a class, function, macro or enumeration before it is published. -/
def wanted (o : Options) : Child → Bool
  | .struct name _ => !o.excludeClass name
  | .function _ publishable _ => publishable
  | .define name publishable _ => o.includeMacro name && publishable
  | .enum_ name _ => !o.excludeEnum name
  | .namespace_ name _ _ hasBlock _ => hasBlock && !o.excludeNs name && name ≠ []
  | _ => true

/-- The adapted element of a child that has code of its own. -/
def leafOf : Child → Option El
  | .struct _ (some c) => some (.leaf .cls [] c.stub c.pydef)
  | .function name _ (some c) => some (.leaf .func name c.stub c.pydef)
  | .define _ _ (some c) => some (.leaf .other [] c.stub c.pydef)
  | .enum_ _ (some c) => some (.leaf .enum_ [] c.stub c.pydef)
  | _ => none

/-- The declarations of a statement that are wanted, up to the first one that cannot be adapted. -/
def wantedDecls (o : Options) (ds : List (Str × Option Code)) : List Code :=
  ((ds.filter (fun d => o.includeGlobal d.1)).map (·.2)).takeWhile Option.isSome |>.filterMap id

mutual
/-- The elements that a child gives to its block. -/
def visible (o : Options) : Child → List El
  | .emptyLine => [emptyLine o]
  | .comment text => [commentEl o text]
  | .conditionMacro previous code eol => [macroEl previous code eol]
  | .namespace_ name previous eol hasBlock children =>
    if wanted o (.namespace_ name previous eol hasBlock children) then
      [.ns name previous eol (Overload.Spec.grouped overloadKey (visibleAll o children))]
    else []
  | .decls ds => (wantedDecls o ds).map (fun c => .leaf .other [] c.stub c.pydef)
  | .struct name c => if wanted o (.struct name c) then (leafOf (.struct name c)).toList else []
  | .function name b c => if wanted o (.function name b c) then (leafOf (.function name b c)).toList else []
  | .define name b c => if wanted o (.define name b c) then (leafOf (.define name b c)).toList else []
  | .enum_ name c => if wanted o (.enum_ name c) then (leafOf (.enum_ name c)).toList else []
def visibleAll (o : Options) : List Child → List El
  | [] => []
  | c :: cs => visible o c ++ visibleAll o cs
end

end Verif.Unit.Spec
