import Verif.Num.Model

/-! Specification: integer literals of C++, and what a macro denotes. -/

namespace Verif.Num.Spec
open Verif.Py

/-- The number written with the digits `s` in a base (at least one digit). -/
def number (base : Nat) (s : Str) : Option Nat :=
  if s = [] then none
  else s.foldl (fun acc c => acc.bind (fun a => (digitVal c).bind (fun d =>
    if d < base then some (a * base + d) else none))) (some 0)

/-- A C++ integer literal without suffix and digit separators: hexadecimal, binary, octal or decimal. -/
def cLiteral (s : Str) : Option Nat :=
  match s with
  | '0' :: 'x' :: r => number 16 r
  | '0' :: 'X' :: r => number 16 r
  | '0' :: 'b' :: r => number 2 r
  | '0' :: 'B' :: r => number 2 r
  | ['0'] => some 0
  | '0' :: r => number 8 r
  | s => number 10 s

/-- The same after an optional minus sign. -/
def cSigned (s : Str) : Option Int :=
  match s with
  | '-' :: r => (cLiteral r).map (fun (n : Nat) => -(n : Int))
  | s => (cLiteral s).map (fun (n : Nat) => (n : Int))

/-- The members of an enum. -/
def members : List Child → List (Str × Str)
  | [] => []
  | .decl n v :: cs => (n, v) :: members cs
  | .other _ :: cs => members cs

/-- A literal with a leading zero (octal, hexadecimal or binary) is not one that Python reads in base 10. -/
def LeadingZero (s : Str) : Prop := ∃ c r, s = '0' :: c :: r ∨ s = '-' :: '0' :: c :: r

/-- The value of an explicit enum member: a macro of the options, or a literal. -/
def memberValue (macros : Str → Option Int) (v : Str) : Option Int :=
  match macros v with
  | some k => some k
  | none => cSigned v

/-- A child without its value. -/
def shape : Child → Sum Str Nat
  | .decl n _ => .inl n
  | .other i => .inr i

/-- `t` has no blank at its ends, and is not between parentheses. -/
def Atom (t : Str) : Prop :=
  (∀ c, t.head? = some c → isSpace c = false) ∧ (∀ c, t.getLast? = some c → isSpace c = false) ∧
  ¬ ∃ m, t = '(' :: m ++ [')']

/-- `s` is `t` inside any number of parentheses and blanks. -/
inductive Wrapped : Str → Str → Prop
  | atom (t : Str) (h : Atom t) : Wrapped t t
  | blanks (a s b t : Str) (ha : ∀ c ∈ a, isSpace c = true) (hb : ∀ c ∈ b, isSpace c = true)
      (h : Wrapped s t) : Wrapped (a ++ s ++ b) t
  | parens (s t : Str) (h : Wrapped s t) : Wrapped ('(' :: s ++ [')']) t

/-- The text of the last object-like definition of a name. -/
def definition (defines : List Define) (name : Str) : Option Str :=
  ((defines.filter (fun d => d.params = none ∧ d.value.isSome ∧ d.name = name)).getLast?).bind Define.value

/-- What a text denotes: a literal, a number given in the options, or what the definition of a macro
denotes. -/
inductive Denotes (macros : Str → Option Int) (defines : List Define) : Str → Int → Prop
  | literal (s t : Str) (v : Int) (hw : Wrapped s t) (h : parseCIntLiteral t = some v) :
      Denotes macros defines s v
  | named (s t : Str) (v : Int) (hw : Wrapped s t) (h1 : parseCIntLiteral t = none)
      (h2 : macros t = some v) : Denotes macros defines s v
  | macro_ (s t text : Str) (v : Int) (hw : Wrapped s t) (h1 : parseCIntLiteral t = none)
      (h2 : macros t = none) (h3 : definition defines t = some text)
      (h : Denotes macros defines text v) : Denotes macros defines s v

/-- `s` is an optional sign followed by something that starts like a number, between blanks. -/
def StartsLikeANumber (s : Str) : Prop :=
  ∃ a sign c r, s = a ++ sign ++ c :: r ∧ (∀ x ∈ a, isSpace x = true) ∧ sign ∈ [[], ['+'], ['-']] ∧
    (c = '.' ∨ ∃ d, digitVal c = some d ∧ d < 10)

end Verif.Num.Spec
