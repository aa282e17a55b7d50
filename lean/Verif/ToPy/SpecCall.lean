import Verif.Py.Str
import Verif.Scope.Model

/-! Specification: the parameters of a callable, with their types and their names. -/

namespace Verif.ToPy.Spec
open Verif.Py
open Verif.Scope (isWordChar)

/-- A name of a parameter. -/
def Name (u : Char → Bool) (w : Str) : Prop :=
  ∃ c s, w = c :: s ∧ (('a' ≤ c ∧ c ≤ 'z') ∨ ('A' ≤ c ∧ c ≤ 'Z') ∨ c = '_') ∧ ∀ d ∈ s, isWordChar u d = true

/-- A part of a type: without blanks, commas and closing brackets. -/
def Token (t : Str) : Prop := t ≠ [] ∧ ∀ c ∈ t, isSpace c = false ∧ c ≠ ',' ∧ c ≠ ']'

/-- A parameter: the parts of its type and its name, if it has one. -/
structure Param where
  type : List Str
  name : Option Str

/-- The parameter as it is written. -/
def Param.text (p : Param) : Str := join [' '] (p.type ++ p.name.toList)

/-- The parameter without its name. -/
def Param.unnamed (p : Param) : Str := join [' '] p.type

/-- The last part of the type of a parameter without a name is not taken for a name. -/
structure Param.Clear (u : Char → Bool) (p : Param) : Prop where
  some : p.type ≠ []
  tokens : ∀ t ∈ p.type, Token t
  names : ∀ n, p.name = .some n → Name u n
  last : p.name = none → p.type.length = 1 ∨ ∀ t ∈ p.type.getLast?, ¬ Name u t

/-- How a list of parameters begins. -/
def callable : Str := "Callable[[".toList

/-- `r` is the text `s` where the callables have lost the names of their parameters. -/
inductive Unnamed (u : Char → Bool) : Str → Str → Prop
  | kept (s) : ¬ callable <:+: s → Unnamed u s s
  | callable (a) (ps : List Param) (s r) : ¬ callable <:+: a → (∀ p ∈ ps, Param.Clear u p) → Unnamed u s r →
    Unnamed u (a ++ (Spec.callable ++ (join ", ".toList (ps.map Param.text) ++ ']' :: s)))
      (a ++ (Spec.callable ++ (join ", ".toList (ps.map Param.unnamed) ++ ']' :: r)))

end Verif.ToPy.Spec
