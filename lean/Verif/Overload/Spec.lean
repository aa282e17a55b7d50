import Verif.Overload.Model

/-! Specification of the grouping and of the de-duplication of overloads. -/

namespace Verif.Overload.Spec
open Verif.Py

/-- The elements that are not overloaded, and of the overloaded functions the first of each name not in `seen`. -/
def firsts {α : Type} (key : α → Option Str) : List Str → List α → List α
  | _, [] => []
  | seen, e :: es =>
    match key e with
    | none => e :: firsts key seen es
    | some n => if n ∈ seen then firsts key seen es else e :: firsts key (n :: seen) es

/-- All the functions of a name. -/
def ofName {α : Type} (key : α → Option Str) (n : Str) (l : List α) : List α := l.filter (fun e => key e = some n)

/-- What takes the place of a first occurrence. -/
def block {α : Type} (key : α → Option Str) (l : List α) (e : α) : List α :=
  match key e with
  | none => [e]
  | some n => ofName key n l

/-- Each first occurrence is replaced by all the functions of its name. -/
def grouped {α : Type} (key : α → Option Str) (l : List α) : List α := (firsts key [] l).flatMap (block key l)

/-- The function, if the element is an overloaded one. -/
def overloaded (e : Elem) : Option Fn := e.fn.filter (fun f => f.overloaded)

/-- An overloaded function is a duplicate if an earlier overloaded function has its signature. -/
def isDuplicate (before : List Elem) (e : Elem) : Bool :=
  (overloaded e).any (fun f => before.any (fun e' => (overloaded e').any (fun g => g.signature = f.signature)))

/-- The elements that are not duplicates of an earlier one, in their order. -/
def kept (l : List Elem) : List Elem :=
  (l.zipIdx.filter (fun p => ! isDuplicate (l.take p.2) p.1)).map Prod.fst

/-- The number of declarations of a name, among overloaded functions that print something. -/
def declarations (n : Str) (l : List Elem) : Nat :=
  (l.filter (fun e => (overloaded e).any (fun f => f.pyName = n) && hasContent e.stubLines)).length

/-- The number of `@overload` lines. -/
def decorators (ls : List Str) : Nat := (ls.filter (fun l => strip l = overloadLine)).length

/-- The lines of a function that is the only one left of its name lose their `@overload`. -/
def expectedLines (k : List Elem) (e : Elem) : List Str :=
  if (overloaded e).any (fun f => declarations f.pyName k ≤ 1) then e.stubLines.filter (fun l => strip l ≠ overloadLine)
  else e.stubLines

end Verif.Overload.Spec
