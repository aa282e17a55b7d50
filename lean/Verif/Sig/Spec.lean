import Verif.Py.Str

/-! Texts whose commas are all inside brackets. -/

namespace Verif.Sig.Spec
open Verif.Py

/-- From the depth `d`, the brackets are closed at the end, and no comma is outside of brackets. -/
def closedFrom : Nat → Str → Prop
  | d, [] => d = 0
  | d, c :: s =>
    if c = '(' ∨ c = '[' ∨ c = '{' then closedFrom (d + 1) s
    else if c = ')' ∨ c = ']' ∨ c = '}' then 0 < d ∧ closedFrom (d - 1) s
    else (c = ',' → 0 < d) ∧ closedFrom d s

/-- A parameter: not empty, with its commas inside brackets. -/
def Closed (s : Str) : Prop := s ≠ [] ∧ closedFrom 0 s

end Verif.Sig.Spec
