import Verif.Py.Str

/-! What the boxed types should look like. -/

namespace Verif.Boxed.Spec
open Verif.Py

/-- A C++ (and Python) identifier, in ASCII. -/
def IdentChar (c : Char) : Prop := c.isAlpha = true ∨ c.isDigit = true ∨ c = '_'

def Identifier (s : Str) : Prop := (∀ c ∈ s, IdentChar c) ∧ ∃ c r, s = c :: r ∧ c.isDigit = false

/-- The C++ types whose values cannot be changed in place in Python, with the literal that initialises a box. -/
def boxable : List (Str × Str) :=
  (["int", "unsigned int", "signed int", "long", "unsigned long", "signed long", "long long", "unsigned long long", "signed long long",
    "uint8_t", "int8_t", "uint16_t", "int16_t", "uint32_t", "int32_t", "uint64_t", "int64_t", "size_t", "ssize_t", "std::size_t"].map
      (fun t => (t.toList, "0".toList))) ++
  ((["float", "double", "long double"].map (fun t => (t.toList, "0.".toList))) ++
  [("string".toList, "\"\"".toList), ("std::string".toList, "\"\"".toList), ("bool".toList, "false".toList)])

/-- The structure that boxes the type `t`: its lines, from `struct` to the closing brace. -/
def boxLines (name t init text indent : Str) : List Str :=
  ["struct ".toList ++ name,
   "{".toList,
   indent ++ t ++ " value;".toList,
   indent ++ name ++ "(".toList ++ t ++ " v = ".toList ++ init ++ ") : value(v) {}".toList,
   indent ++ "std::string __repr__() const { return std::string(\"".toList ++ name ++ "(\") + ".toList ++ text ++ " + \")\"; }".toList,
   "};".toList]

/-- How the value of a box is turned into a `std::string`. -/
def valueText (t : Str) : Str := if t = "string".toList ∨ t = "std::string".toList then "value".toList else "std::to_string(value)".toList

/-- Python's order on strings. -/
inductive Before : Str → Str → Prop where
  | nil (b : Char) (bs : Str) : Before [] (b :: bs)
  | head (a b : Char) (as bs : Str) : a.toNat < b.toNat → Before (a :: as) (b :: bs)
  | tail (a : Char) (as bs : Str) : Before as bs → Before (a :: as) (a :: bs)

end Verif.Boxed.Spec
