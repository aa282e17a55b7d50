import Verif.Py.Str

/-! Specification: repeating a function on texts. -/

namespace Verif.Repl.Spec
open Verif.Py

/-- `f` applied `n` times. -/
def times (f : Str → Str) : Nat → Str → Str
  | 0, s => s
  | n + 1, s => times f n (f s)

/-- Functions applied one after the other, in list order. -/
def inOrder : List (Str → Str) → Str → Str
  | [], s => s
  | f :: fs, s => inOrder fs (f s)

end Verif.Repl.Spec
