import Verif.Py.Str
import Verif.Py.Dict

/-! Model of `/repo/src/litgen/internal/adapted_types/adapted_block.py:41-82` (`group_overloaded_functions`) and of
`/repo/src/litgen/internal/adapted_types/stub_overload_dedup.py` (`dedup_stub_lines`). -/

namespace Verif.Overload
open Verif.Py

/-! ### grouping -/

variable {α : Type}

/-- `fn_first_index`, `result` and `deferred` (`adapted_block.py:51-53`). -/
structure State (α : Type) where
  first : List (Str × Nat)
  result : List α
  deferred : List (Str × List α)

def emptyState : State α := ⟨[], [], []⟩

/-- `adapted_block.py:62-64`: one more deferred element. -/
def defer (d : List (Str × List α)) (n : Str) (e : α) : List (Str × List α) :=
  match dictGet d n with
  | none => dictSet d n [e]
  | some es => dictSet d n (es ++ [e])

/-- `adapted_block.py:58-64`: an overloaded function. -/
def stepFunction (s : State α) (n : Str) (e : α) : State α :=
  match dictGet s.first n with
  | none => ⟨dictSet s.first n s.result.length, s.result ++ [e], s.deferred⟩
  | some _ => ⟨s.first, s.result, defer s.deferred n e⟩

/-- The body of the loop `adapted_block.py:55-66`. `key` gives the C++ name of an overloaded function, and nothing
for the other elements. -/
def step (key : α → Option Str) (s : State α) (e : α) : State α :=
  match key e with
  | some n => stepFunction s n e
  | none => ⟨s.first, s.result ++ [e], s.deferred⟩

/-- `list.insert` -/
def pyInsert (l : List α) (i : Nat) (x : α) : List α := l.take i ++ x :: l.drop i

/-- The inner loop `adapted_block.py:79-80`; `j` is the index of `enumerate`. -/
def insertAll (r : List α) (after : Nat) (j : Nat) : List α → List α
  | [] => r
  | e :: es => insertAll (pyInsert r (after + 1 + j) e) after (j + 1) es

/-- `sorted(…, key=…, reverse=True)` (`adapted_block.py:73-77`): a stable sort, by decreasing index. -/
def insertSorted (x : Nat × List α) : List (Nat × List α) → List (Nat × List α)
  | [] => [x]
  | y :: l => if x.1 < y.1 then y :: insertSorted x l else x :: y :: l

def sortDesc : List (Nat × List α) → List (Nat × List α)
  | [] => []
  | x :: l => insertSorted x (sortDesc l)

/-- The list `adapted_block.py:74`. Every deferred name has a first index: the lookup never fails
(`fn_first_index[name]` is a `KeyError` otherwise, `none` here). -/
def insertions (first : List (Str × Nat)) : List (Str × List α) → Option (List (Nat × List α))
  | [] => some []
  | (n, es) :: d =>
    match dictGet first n, insertions first d with
    | some i, some r => some ((i, es) :: r)
    | _, _ => none

/-- The loop `adapted_block.py:78-80`. -/
def insertGroups (r : List α) : List (Nat × List α) → List α
  | [] => r
  | (i, es) :: l => insertGroups (insertAll r i 0 es) l

/-- `adapted_block.py:68-82`. -/
def finish (elements : List α) (s : State α) : Option (List α) :=
  if s.deferred = [] then some elements
  else (insertions s.first s.deferred).map (fun l => insertGroups s.result (sortDesc l))

/-- `adapted_block.py:41-82` `group_overloaded_functions`; `none` is a `KeyError`. -/
def groupOverloaded (key : α → Option Str) (elements : List α) : Option (List α) :=
  finish elements (elements.foldl (step key) emptyState)

/-! ### de-duplication -/

/-- An `AdaptedFunction`: `is_overloaded`, `stub_python_signature()`, `_stub_function_name_python()`. -/
structure Fn where
  overloaded : Bool
  signature : Str
  pyName : Str
deriving DecidableEq

/-- An adapted element with its `stub_lines()`; `fn` is `none` if it is not an `AdaptedFunction`. -/
structure Elem where
  fn : Option Fn
  stubLines : List Str
deriving DecidableEq

/-- `isinstance(elem, AdaptedFunction) and elem.is_overloaded`: the function. -/
def overload (e : Elem) : Option Fn :=
  match e.fn with
  | none => none
  | some f => if f.overloaded then some f else none

/-- The first pass `stub_overload_dedup.py:25-33`; `emitted` is `emitted_signatures`. -/
def survivors (emitted : List Str) : List Elem → List Elem
  | [] => []
  | e :: es =>
    match overload e with
    | none => e :: survivors emitted es
    | some f => if f.signature ∈ emitted then survivors emitted es else e :: survivors (f.signature :: emitted) es

/-- `any(line.strip() for line in element_lines)` (`stub_overload_dedup.py:43`) -/
def hasContent (ls : List Str) : Bool := ls.any (fun l => strip l ≠ [])

/-- `stub_overload_dedup.py:44-46` -/
def countOverload (counts : List (Str × Nat)) (e : Elem) : List (Str × Nat) :=
  match overload e with
  | none => counts
  | some f => if hasContent e.stubLines then dictSet counts f.pyName ((dictGet counts f.pyName).getD 0 + 1) else counts

/-- `stub_overload_dedup.py:49`: the names with at most one overload. -/
def singletons (counts : List (Str × Nat)) : List Str :=
  (counts.filter (fun p => p.2 ≤ 1)).map Prod.fst

def overloadLine : Str := "@overload".toList

/-- The body of the loop `stub_overload_dedup.py:53-60`. -/
def stripSingleton (single : List Str) (e : Elem) : Elem × List Str :=
  match overload e with
  | none => (e, e.stubLines)
  | some f =>
    if f.pyName ∈ single then (e, e.stubLines.filter (fun l => strip l ≠ overloadLine)) else (e, e.stubLines)

/-- `stub_overload_dedup.py:10-62` `dedup_stub_lines` -/
def dedupStubLines (elements : List Elem) : List (Elem × List Str) :=
  let s := survivors [] elements
  s.map (stripSingleton (singletons (s.foldl countOverload [])))

end Verif.Overload
