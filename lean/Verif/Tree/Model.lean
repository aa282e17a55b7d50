import Verif.Indent.Model

/-! Model of `/repo/src/litgen/internal/context/namespaces_code_tree.py`. -/

namespace Verif.Tree
open Verif.Py

mutual
/-- A `NamespacesCodeTree`: its `_namespace_code` and its `_sub_namespaces_code`. The set
`_created_namespaces` does not take part in the emission and is left out. -/
inductive Tree
  | node (code : Str) (subs : Subs)
/-- The dictionary `_sub_namespaces_code`, in insertion order. -/
inductive Subs
  | nil
  | cons (name : Str) (t : Tree) (rest : Subs)
end

/-- A new tree (`namespaces_code_tree.py:32-37`). -/
def emptyTree : Tree := .node [] .nil

/-- `namespaces_code_tree.py:82-85`: adding code to the code of a node. -/
def addText (old code : Str) : Str :=
  if old.length > 0 ∧ endsWith old ['\n'] = false then old ++ ['\n'] ++ code else old ++ code

def addCode (t : Tree) (code : Str) : Tree :=
  match t with
  | .node c subs => .node (addText c code) subs

/-- Apply `f` to the sub-tree of a name, created if it does not exist (`namespaces_code_tree.py:77-80`). -/
def updateSubs (n : Str) (f : Tree → Option Tree) : Subs → Option Subs
  | .nil => (f emptyTree).map (fun t => .cons n t .nil)
  | .cons m t rest =>
    if m = n then (f t).map (fun t' => .cons m t' rest)
    else (updateSubs n f rest).map (fun rest' => .cons m t rest')

/-- `namespaces_code_tree.py:75-87` `_store_code_in_tree`; `none` is the `IndexError` of `namespace_names[0]`. -/
def storeIn : List Str → Str → Tree → Option Tree
  | [], _, _ => none
  | [n], code, .node c subs => (updateSubs n (fun t => some (addCode t code)) subs).map (fun s => .node c s)
  | n :: m :: ns, code, .node c subs => (updateSubs n (storeIn (m :: ns) code) subs).map (fun s => .node c s)

/-- `namespaces_code_tree.py:89-98` `store_code`: the names of the root namespaces are left out. The argument is
already split at `::`. -/
def storeCode (roots : List Str) (t : Tree) (names : List Str) (code : Str) : Option Tree :=
  storeIn (names.filter (fun n => ¬ n ∈ roots)) code t

/-- `PydefOrStub` -/
inductive CodeType
  | stub | pydef
deriving DecidableEq

/-- `namespaces_code_tree.py:38-43` and the call of `replace` at `namespaces_code_tree.py:61`. -/
def intro : CodeType → Str → Str
  | .stub, name => replace "\n# <submodule NS_NAME>\n".toList "NS_NAME".toList name
  | .pydef, name => replace "\n{ // <namespace NS_NAME>\n".toList "NS_NAME".toList name

/-- `namespaces_code_tree.py:38-43` and the call of `replace` at `namespaces_code_tree.py:72`. -/
def outro : CodeType → Str → Str
  | .stub, name => replace "\n# </submodule NS_NAME>\n".toList "NS_NAME".toList name
  | .pydef, name => replace "\n} // </namespace NS_NAME>\n".toList "NS_NAME".toList name

/-- The options that matter: `toPython` is `namespace_name_to_python` (`namespaces_code_tree.py:57-58`). -/
structure Config where
  codeType : CodeType
  roots : List Str
  indent : Str
  toPython : Str → Str

def written (cfg : Config) (name : Str) : Str :=
  match cfg.codeType with
  | .stub => cfg.toPython name
  | .pydef => name

/-- `namespaces_code_tree.py:50-53` -/
def isIgnored (cfg : Config) (name code : Str) : Bool :=
  if name.length = 0 ∨ code.length = 0 then true else decide (name ∈ cfg.roots)

def indentSub (cfg : Config) (ignored : Bool) (code : Str) : Str :=
  if ignored then code else Indent.indentCode code (indentStr := some cfg.indent)

/-- `namespaces_code_tree.py:60-61` and `71-72`: the lines around the code. -/
def wrap (cfg : Config) (ignored : Bool) (name body : Str) : Str :=
  if ignored then body else intro cfg.codeType (written cfg name) ++ body ++ outro cfg.codeType (written cfg name)

mutual
/-- `namespaces_code_tree.py:45-73` `full_tree_code` -/
def treeCode (cfg : Config) (name : Str) : Tree → Str
  | .node code subs => wrap cfg (isIgnored cfg name code) name (code ++ subsCode cfg (isIgnored cfg name code) subs)
/-- The loop `namespaces_code_tree.py:65-69`. -/
def subsCode (cfg : Config) (ignored : Bool) : Subs → Str
  | .nil => []
  | .cons n t rest => indentSub cfg ignored (treeCode cfg n t) ++ subsCode cfg ignored rest
end

/-- A history of calls of `store_code`. -/
def storeAll (roots : List Str) : Tree → List (List Str × Str) → Option Tree
  | t, [] => some t
  | t, (names, code) :: ops =>
    match storeCode roots t names code with
    | none => none
    | some t' => storeAll roots t' ops

def fullTreeCode (cfg : Config) (t : Tree) : Str := treeCode cfg [] t

end Verif.Tree
