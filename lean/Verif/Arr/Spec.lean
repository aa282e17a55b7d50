import Verif.Py.Str

/-! Decorated numeric types and the codes of the buffer protocol. -/

namespace Verif.Arr.Spec
open Verif.Py

def Blanks (w : Str) : Prop := ∀ c ∈ w, isSpace c = true

/-- `s` is the type `t` with optional `const` before it, an optional `*` after it and blanks. -/
def Decorated (t s : Str) : Prop :=
  ∃ w₁ c w₂ star w₃, s = w₁ ++ c ++ t ++ w₂ ++ star ++ w₃ ∧ Blanks w₁ ∧ Blanks w₂ ∧ Blanks w₃ ∧
    (c = [] ∨ ∃ w, Blanks w ∧ c = "const ".toList ++ w) ∧ (star = [] ∨ star = ['*'])

/-- The type that a one letter code stands for, in the documentation of Python's `array` module and of NumPy
(`np_uint_l` and `np_int_l` are litgen's names of `unsigned long` and `long`). -/
def meaning : Char → Option String
  | 'b' => some "int8_t" | 'B' => some "uint8_t" | 'h' => some "int16_t" | 'H' => some "uint16_t"
  | 'i' => some "int32_t" | 'I' => some "uint32_t" | 'l' => some "np_int_l" | 'L' => some "np_uint_l"
  | 'q' => some "long long" | 'f' => some "float" | 'd' => some "double" | 'g' => some "long double"
  | _ => none

/-- Floating point types; unsigned types. -/
def floats : List Str := ["float", "double", "long double"].map String.toList
def Unsigned (t : Str) : Prop := "uint".toList.isPrefixOf t = true ∨ "unsigned ".toList.isPrefixOf t = true

end Verif.Arr.Spec
