import Verif.Py.Str

/-! Specification of indentation, independent of the model. -/

namespace Verif.Indent.Spec
open Verif.Py

/-- `l` starts with exactly `k` spaces (the next character, if any, is not a space). -/
def LeadingSpaces (k : Nat) (l : Str) : Prop :=
  ∃ rest, l = spaces k ++ rest ∧ rest.head? ≠ some ' '

/-- The margin of a text: the number of leading spaces of its first line that is not made of spaces
only; 0 if there is no such line. -/
def Margin (ls : List Str) (m : Nat) : Prop :=
  (m = 0 ∧ ∀ l ∈ ls, ∀ c ∈ l, c = ' ') ∨
  ∃ before first after, ls = before ++ first :: after ∧ (∀ l ∈ before, ∀ c ∈ l, c = ' ') ∧
    (∃ c ∈ first, c ≠ ' ') ∧ LeadingSpaces m first

/-- `out` is `l` with the margin removed (if `l` has it) and without its trailing spaces. -/
def Dedented (m : Nat) (l out : Str) : Prop :=
  ∃ body trail, l = body ++ spaces trail ∧ out.getLast? ≠ some ' ' ∧
    ((body = spaces m ++ out) ∨                  -- the margin is removed
     (body = out ∧ ¬ spaces m <+: l))            -- the line does not have the margin

end Verif.Indent.Spec
