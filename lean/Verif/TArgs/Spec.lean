import Verif.Py.Str

/-! Balanced angle brackets. -/

namespace Verif.TArgs.Spec
open Verif.Py

/-- Angle brackets are balanced. -/
inductive Balanced : Str → Prop
  | nil : Balanced []
  | char (c : Char) (s : Str) : c ≠ '<' → c ≠ '>' → Balanced s → Balanced (c :: s)
  | nest (a b : Str) : Balanced a → Balanced b → Balanced ('<' :: a ++ '>' :: b)

/-- The text is cut at its first `<` and at the `>` that matches it. -/
def CutAt (s before inside after : Str) : Prop :=
  s = before ++ '<' :: inside ++ '>' :: after ∧ '<' ∉ before ∧ Balanced inside

/-- The text without blanks, with square brackets. -/
def squareNoBlanks (s : Str) : Str :=
  (s.filter (fun c => !isSpace c)).map (fun c => if c = '<' then '[' else if c = '>' then ']' else c)

end Verif.TArgs.Spec
