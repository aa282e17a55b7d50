import Verif.Py.Str

/-! Python reserved words and identifiers. -/

namespace Verif.Keyword.Spec
open Verif.Py

/-- The reserved words of Python 3 (reference manual, 2.3.1 Keywords). -/
def Reserved (s : Str) : Prop :=
  String.ofList s ∈ ["False", "await", "else", "import", "pass", "None", "break", "except", "in", "raise", "True", "class", "finally",
    "is", "return", "and", "continue", "for", "lambda", "try", "as", "def", "from", "nonlocal", "while", "assert", "del",
    "global", "not", "with", "async", "elif", "if", "or", "yield"]

instance (s : Str) : Decidable (Reserved s) := inferInstanceAs (Decidable (_ ∈ _))

/-- A reserved word followed by an underscore. -/
def Escaped (s : Str) : Prop := ∃ w, Reserved w ∧ s = w ++ ['_']

def Letter (c : Char) : Prop := ('a' ≤ c ∧ c ≤ 'z') ∨ ('A' ≤ c ∧ c ≤ 'Z') ∨ c = '_'
def Digit (c : Char) : Prop := '0' ≤ c ∧ c ≤ '9'

/-- An (ASCII) identifier: letters, digits and underscores, not starting with a digit. -/
def Identifier (s : Str) : Prop := (∃ c r, s = c :: r ∧ Letter c) ∧ ∀ c ∈ s, Letter c ∨ Digit c

/-- The two letters differ at most by their case. -/
def SameLetter (a b : Char) : Prop := a = b ∨ (a.toNat + 32 = b.toNat ∧ 'A' ≤ a ∧ a ≤ 'Z') ∨ (b.toNat + 32 = a.toNat ∧ 'A' ≤ b ∧ b ≤ 'Z')

/-- The two texts differ at most by the case of their letters. -/
def SameText (a b : Str) : Prop := a.length = b.length ∧ ∀ (i : Nat) (x y : Char), a[i]? = some x → b[i]? = some y → SameLetter x y

/-- `short` is `name` without its leading `pre`, ignoring the case of the letters, and without the underscore after it. -/
def WithoutPrefix (pre name short : Str) : Prop :=
  ∃ p, SameText p pre ∧ (name = p ++ ['_'] ++ short ∨ (name = p ++ short ∧ short.head? ≠ some '_'))

end Verif.Keyword.Spec
