import Verif.Py.Str

/-! Specification: what is seen of a function, and its qualified form. -/

namespace Verif.Qual.Spec
open Verif.Py

/-- A type as it is written; `words` are its names. -/
structure TypeText where
  specifiers : List Str
  words : Str
  modifiers : List Str
deriving DecidableEq

/-- A parameter as it is written. -/
structure ParamText where
  type : TypeText
  name : Str
  array : Str
  value : Str
deriving DecidableEq

/-- A function as it is written. -/
structure Sig where
  ret : Option TypeText
  params : List ParamText
deriving DecidableEq

def TypeText.map (q : Str → Str) (t : TypeText) : TypeText := { t with words := q t.words }

/-- The names of the type and the value are changed by `q`. -/
def ParamText.map (q : Str → Str) (p : ParamText) : ParamText := { p with type := p.type.map q, value := q p.value }

/-- `void f(void)` has no parameters. -/
def Sig.noVoid (s : Sig) : Sig :=
  if s.params.length = 1 ∧ s.params.all (fun p => p.type = ⟨[], "void".toList, []⟩) then { s with params := [] } else s

/-- All the names of the function are changed by `q`. -/
def Sig.map (q : Str → Str) (s : Sig) : Sig := ⟨s.ret.map (TypeText.map q), s.params.map (ParamText.map q)⟩

end Verif.Qual.Spec
