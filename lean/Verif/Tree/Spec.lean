import Verif.Tree.Model

/-! Specification: the document that corresponds to a history of codes stored under paths, with no tree. -/

namespace Verif.Tree.Spec
open Verif.Py

/-- Codes stored under paths of namespaces, in the order of storing. -/
abbrev History := List (List Str × Str)

/-- The codes stored here, one after the other, on lines of their own. -/
def own (h : History) : Str :=
  (h.filterMap (fun e => if e.1 = [] then some e.2 else none)).foldl (fun acc code =>
    if acc = [] ∨ acc.getLast? = some '\n' then acc ++ code else acc ++ ['\n'] ++ code) []

/-- The sub-namespaces, in the order of their first use. -/
def names (h : History) : List Str :=
  h.foldl (fun acc e => match e.1 with
    | [] => acc
    | n :: _ => if n ∈ acc then acc else acc ++ [n]) []

/-- What is stored in a sub-namespace. -/
def sub (h : History) (n : Str) : History :=
  h.filterMap (fun e => match e.1 with
    | [] => none
    | m :: p => if m = n then some (p, e.2) else none)

/-- The name of a namespace as it is written: python names in stubs, C++ names in glue code. -/
def shown (cfg : Config) (name : Str) : Str := if cfg.codeType = .stub then cfg.toPython name else name

/-- The line that opens a namespace. -/
def opening (cfg : Config) (name : Str) : Str :=
  (if cfg.codeType = .stub then "# <submodule ".toList else "{ // <namespace ".toList) ++ shown cfg name ++ ['>']

/-- The line that closes a namespace. -/
def closing (cfg : Config) (name : Str) : Str :=
  (if cfg.codeType = .stub then "# </submodule ".toList else "} // </namespace ".toList) ++ shown cfg name ++ ['>']

/-- The document of a namespace: its opening line, its own code, the documents of its sub-namespaces, indented,
and its closing line. A namespace with no code of its own (and the outermost one) is transparent. The depth
bounds the recursion. -/
def document (cfg : Config) : Nat → Str → History → Str
  | 0, _, _ => []
  | depth + 1, name, h =>
    let subs := (names h).map (fun n => document cfg depth n (sub h n))
    if name = [] ∨ own h = [] then own h ++ subs.flatten
    else ['\n'] ++ opening cfg name ++ ['\n'] ++ own h ++
      (subs.map (fun s => Indent.indentCode s (indentStr := some cfg.indent))).flatten ++
      ['\n'] ++ closing cfg name ++ ['\n']

/-- The lines of a text that are not blank, without their indentation. -/
def content (s : Str) : List Str := ((lines s).map strip).filter (fun l => l ≠ [])

/-- The codes stored under a path, in order. -/
def codesAt (path : List Str) (h : History) : List Str :=
  (h.filter (fun e => e.1 = path)).map (fun e => e.2)

/-- The paths without the names of the root namespaces. -/
def dropRoots (roots : List Str) (h : History) : History :=
  h.map (fun e => (e.1.filter (fun n => n ∉ roots), e.2))

/-- A depth that bounds all paths. -/
def depthOf (h : History) : Nat := (h.map (fun e => e.1.length)).foldr max 0 + 1

end Verif.Tree.Spec
