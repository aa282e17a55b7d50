import Verif.Py.Str

/-! Specification of identifiers in snake case and camel case, independent of the model. -/

namespace Verif.Name.Spec
open Verif.Py

def Upper (c : Char) : Prop := 'A' ≤ c ∧ c ≤ 'Z'
def Lower (c : Char) : Prop := 'a' ≤ c ∧ c ≤ 'z'
instance (c : Char) : Decidable (Upper c) := inferInstanceAs (Decidable (_ ∧ _))
instance (c : Char) : Decidable (Lower c) := inferInstanceAs (Decidable (_ ∧ _))

/-- Remove the underscores. -/
def eraseUnderscores (s : Str) : Str := s.filter (· ≠ '_')

/-- `Word`: an upper case letter followed by lower case letters, at least one. -/
def CapWord (w : Str) : Prop :=
  ∃ u l ls, w = u :: l :: ls ∧ Upper u ∧ Lower l ∧ ∀ c ∈ ls, Lower c

/-- `word`: at least two lower case letters. -/
def LowWord (w : Str) : Prop := 2 ≤ w.length ∧ ∀ c ∈ w, Lower c

end Verif.Name.Spec
