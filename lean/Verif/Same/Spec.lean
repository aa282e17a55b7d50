import Mathlib.Data.List.Forall2
import Verif.Indent.Spec
import Verif.Lines.Spec

/-! What a comparison of codes looks at, independent of the model. -/

namespace Verif.Same.Spec
open Verif.Py

/-- The lines `kept` are what a reader sees in the code: the lines without the margin and without the blanks at their ends, from the first to the
last line that is not blank. -/
def Reads (code : Str) (kept : List Str) : Prop :=
  ∃ m out before after, Indent.Spec.Margin (lines code) m ∧ List.Forall₂ (Indent.Spec.Dedented m) (lines code) out ∧
    out = before ++ kept ++ after ∧ (∀ l ∈ before, Lines.Spec.Blank l) ∧ (∀ l ∈ after, Lines.Spec.Blank l) ∧
    (∀ l ∈ kept.head?, ¬ Lines.Spec.Blank l) ∧ (∀ l ∈ kept.getLast?, ¬ Lines.Spec.Blank l)

/-- The code, each line moved by `k` blanks to the right. -/
def shift (k : Nat) (code : Str) : Str := unlines ((lines code).map (spaces k ++ ·))

/-- The first line that is not blank is not more indented than any other. -/
def Flush (code : Str) : Prop :=
  ∀ m, Indent.Spec.Margin (lines code) m → ∀ l ∈ lines code, (∃ c ∈ l, c ≠ ' ') → spaces m <+: l

end Verif.Same.Spec
