import Verif.Py.Str

/-! Specification: the literals of C++ that are default values. -/

namespace Verif.Mut.Spec
open Verif.Py

/-- From one character to another. -/
abbrev Within (a b c : Char) : Prop := a.toNat ≤ c.toNat ∧ c.toNat ≤ b.toNat

abbrev Digit (c : Char) : Prop := Within '0' '9' c
abbrev Hex (c : Char) : Prop := Digit c ∨ Within 'a' 'f' c ∨ Within 'A' 'F' c

/-- A text of such characters, not empty. -/
def Some1 (p : Char → Prop) (s : Str) : Prop := s ≠ [] ∧ ∀ c ∈ s, p c

/-- No sign, or a minus. -/
def Minus (s : Str) : Prop := s = [] ∨ s = ['-']

/-- `12.5`, `12.`, `.5`, `12` -/
inductive Mantissa : Str → Prop
  | dot (a b) : Some1 Digit a → (∀ c ∈ b, Digit c) → Mantissa (a ++ '.' :: b)
  | part (b) : Some1 Digit b → Mantissa ('.' :: b)
  | whole (a) : Some1 Digit a → Mantissa a

/-- No exponent, or `e10`, `E-5`, ... -/
inductive Exponent : Str → Prop
  | none : Exponent []
  | some (e g d) : e = 'e' ∨ e = 'E' → g = [] ∨ g = ['+'] ∨ g = ['-'] → Some1 Digit d → Exponent (e :: (g ++ d))

/-- No letter, or one that makes a number floating. -/
def FloatMark (s : Str) : Prop := s = [] ∨ ∃ c ∈ "fFdDlL".toList, s = [c]

/-- A number in base ten, with an optional fraction, exponent and mark. -/
def Decimal (s : Str) : Prop := ∃ g m e f, Minus g ∧ Mantissa m ∧ Exponent e ∧ FloatMark f ∧ s = g ++ (m ++ (e ++ f))

/-- `0x1F`, `0b101`, `0o17`, `42`, `0` -/
inductive IntDigits : Str → Prop
  | hex (x d) : x = 'x' ∨ x = 'X' → Some1 Hex d → IntDigits ('0' :: x :: d)
  | bin (x d) : x = 'b' ∨ x = 'B' → Some1 (fun c => c = '0' ∨ c = '1') d → IntDigits ('0' :: x :: d)
  | oct (x d) : x = 'o' ∨ x = 'O' → Some1 (Within '0' '7') d → IntDigits ('0' :: x :: d)
  | dec (c d) : Within '1' '9' c → (∀ x ∈ d, Digit x) → IntDigits (c :: d)
  | zero : IntDigits ['0']

/-- An integer, with any marks `u`, `l`. -/
def Integer (s : Str) : Prop := ∃ g d f, Minus g ∧ IntDigits d ∧ (∀ c ∈ f, c ∈ "uUlL".toList) ∧ s = g ++ (d ++ f)

/-- Between quotes, on one line. -/
def Quoted (s : Str) : Prop := ∃ m, '\n' ∉ m ∧ s = '"' :: (m ++ ['"'])

/-- One or two characters between single quotes, on one line. -/
def Char12 (s : Str) : Prop := ∃ m : Str, '\n' ∉ m ∧ (m.length = 1 ∨ m.length = 2) ∧ s = '\'' :: (m ++ ['\''])

/-- What is inside a string literal: a quote is escaped. -/
inductive Inside : Str → Prop
  | nil : Inside []
  | char (c s) : c ≠ '"' → c ≠ '\\' → c ≠ '\n' → Inside s → Inside (c :: s)
  | escape (c s) : c ≠ '\n' → Inside s → Inside ('\\' :: c :: s)

/-- The type that is constructed: what is before the first brace, or before the first parenthesis if there is no brace. -/
inductive Constructs : Str → Str → Prop
  | paren (t a) : '(' ∉ t → '{' ∉ t → '{' ∉ a → Constructs (t ++ '(' :: a) t
  | brace (t a) : '{' ∉ t → Constructs (t ++ '{' :: a) t

/-- The scope of the enumeration contains the one where the type is written; `t` is the name that is written. -/
def Reaches (scope : List Str) (t enum_ : Str) : Prop := ∃ p : List Str, p <+: scope ∧ enum_ = p.flatMap (fun x => x ++ [':', ':']) ++ t

/-- The words that are values. -/
def words : List Str :=
  ["true".toList, "false".toList, "TRUE".toList, "FALSE".toList, "nullptr".toList, "NULL".toList] ++ [[], "std::".toList].map (fun p => p ++ "nullopt".toList)

/-- The types whose values never change: numbers, booleans, bytes, texts. -/
def valueTypes : List Str :=
  ([[], "signed ".toList, "unsigned ".toList].flatMap (fun p =>
    ["int".toList, "char".toList, "short".toList, "long".toList, "long long".toList].map (fun t => p ++ t))) ++
  ([[], "u".toList].flatMap (fun p => ["8".toList, "16".toList, "32".toList, "64".toList, "ptr".toList].map (fun n => p ++ ("int".toList ++ (n ++ "_t".toList))))) ++
  (["32".toList, "64".toList, "128".toList].map (fun n => "float".toList ++ (n ++ "_t".toList))) ++
  (["string".toList, "string_view".toList, "wstring".toList, "u16string".toList, "u32string".toList, "byte".toList, "size_t".toList].map
    (fun n => "std::".toList ++ n)) ++
  ["float".toList, "double".toList, "long double".toList, "bool".toList, "size_t".toList, "ssize_t".toList]

/-- A value that does not change: `isType` and `isValue` say what the options add. -/
inductive Immutable (isType isValue : Str → Bool) (s : Str) : Prop
  | chosen : isValue s = true → Immutable isType isValue s
  | decimal : Decimal s → Immutable isType isValue s
  | integer : Integer s → Immutable isType isValue s
  | quoted : Quoted s → Immutable isType isValue s
  | char : Char12 s → Immutable isType isValue s
  | word : s ∈ words → Immutable isType isValue s
  | type (t) : Constructs s t → t ∈ valueTypes ∨ isType t = true → Immutable isType isValue s

end Verif.Mut.Spec
