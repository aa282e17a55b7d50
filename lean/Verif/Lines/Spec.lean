import Verif.Py.Str

/-! Specification of the blank-line helpers, independent of the model. -/

namespace Verif.Lines.Spec
open Verif.Py

/-- A blank line: nothing but white space. -/
def Blank (l : Str) : Prop := ∀ c ∈ l, isSpace c = true

instance (l : Str) : Decidable (Blank l) := inferInstanceAs (Decidable (∀ c ∈ l, isSpace c = true))

/-- At most `n` consecutive blank lines anywhere in `ls`. -/
def BlankRunsAtMost (n : Nat) (ls : List Str) : Prop :=
  ∀ a run b, ls = a ++ run ++ b → (∀ l ∈ run, Blank l) → run.length ≤ n

/-- What a reader expects of "at most `n` consecutive empty lines": walk the lines, remember how
many blank lines immediately precede in the source, drop a blank line if there are already `n`. -/
def cap (n : Nat) : Nat → List Str → List Str
  | _, [] => []
  | seen, l :: ls =>
    if Blank l then
      if seen < n then l :: cap n (seen + 1) ls else cap n (seen + 1) ls
    else l :: cap n 0 ls

/-- All blank lines of the text are spelled the same way (for instance they are all empty). -/
def UniformBlanks (ls : List Str) : Prop :=
  ∀ l ∈ ls, ∀ m ∈ ls, Blank l → Blank m → l = m

end Verif.Lines.Spec
