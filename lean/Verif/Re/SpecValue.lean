import Verif.Re.Spec
import Verif.Inst.Spec

/-! Specification: the values of C++ as sequences of words, numbers and other characters, and what they are in Python. -/

namespace Verif.Re.Spec
open Verif.Py Verif.Re
open Verif.Inst.Spec (Ident)
open Verif.Scope (isWordChar)

def Digits (s : Str) : Prop := ∀ c ∈ s, isDigit c = true

/-- An ASCII letter or digit. -/
def Alnum (c : Char) : Prop := (97 ≤ c.toNat ∧ c.toNat ≤ 122) ∨ (65 ≤ c.toNat ∧ c.toNat ≤ 90) ∨ (48 ≤ c.toNat ∧ c.toNat ≤ 57)

def IsSign (s : Str) : Prop := s = [] ∨ s = ['+'] ∨ s = ['-']
def IsFrac (s : Str) : Prop := s = [] ∨ ∃ d, Digits d ∧ s = '.' :: d
def IsExp (s : Str) : Prop := s = [] ∨ ∃ e g d, (e = 'e' ∨ e = 'E') ∧ IsSign g ∧ d ≠ [] ∧ Digits d ∧ s = e :: (g ++ d)

/-- A number without sign and without suffix: `1`, `1.`, `1.5`, `1e-3`. -/
def Body (s : Str) : Prop := ∃ i f e, i ≠ [] ∧ Digits i ∧ IsFrac f ∧ IsExp e ∧ s = i ++ (f ++ e)

/-- A piece of a value: an identifier, a number with its suffix, `::`, and any other character. -/
inductive VTok where
  | word (w : Str)
  | num (body suffix : Str)
  | scope
  | sep (c : Char)
deriving DecidableEq

def VTok.text : VTok → Str
  | .word w => w
  | .num b s => b ++ s
  | .scope => "::".toList
  | .sep c => [c]

def vtext (l : List VTok) : Str := l.flatMap VTok.text

/-- Each digit of the word comes after an ASCII letter or another digit: `x2`, `Vec3f`, but not `x_2`. -/
def Plain (w : Str) : Prop := ∀ x c y, w = x ++ c :: y → isDigit c = true → ∃ p, x.getLast? = some p ∧ Alnum p

/-- No word and no number comes first. -/
def Apart (l : List VTok) : Prop := (∀ w m, l ≠ .word w :: m) ∧ ∀ b s m, l ≠ .num b s :: m

/-- The value is cut in its longest pieces. -/
def Lexed (u : Char → Bool) : List VTok → Prop
  | [] => True
  | .word w :: l => Ident u w ∧ Plain w ∧ Apart l ∧ Lexed u l
  | .num b s :: l => Body b ∧ (∀ c ∈ s, c ∈ "uUlLzZfFdD".toList) ∧ Apart l ∧ (∀ m, l ≠ .sep '.' :: m) ∧ (∀ m, l ≠ .scope :: m) ∧ Lexed u l
  | .scope :: l => Lexed u l
  | .sep c :: l => isWordChar u c = false ∧ (c = ':' → ∀ m, l ≠ .sep ':' :: m ∧ l ≠ .scope :: m) ∧ Lexed u l

/-- A number loses its suffix if it is one of the given letters. -/
def VTok.drop (fs : List Char) : VTok → VTok
  | .num b [c] => if c ∈ fs then .num b [] else .num b [c]
  | t => t

/-- The names of Python: `sys.float_info.min` -/
def sysMin : List VTok := [.word "sys".toList, .sep '.', .word "float_info".toList, .sep '.', .word "min".toList]
/-- `sys.float_info.max` -/
def sysMax : List VTok := [.word "sys".toList, .sep '.', .word "float_info".toList, .sep '.', .word "max".toList]

/-- The words of C++ that are other words in Python. -/
def pyWords : List (Str × List VTok) :=
  [("true".toList, [.word "True".toList]), ("false".toList, [.word "False".toList]), ("NULL".toList, [.word "None".toList]),
   ("nullptr".toList, [.word "None".toList]), ("FLT_MIN".toList, sysMin), ("FLT_MAX".toList, sysMax), ("DBL_MIN".toList, sysMin),
   ("DBL_MAX".toList, sysMax), ("LDBL_MIN".toList, sysMin), ("LDBL_MAX".toList, sysMax)]

/-- A piece of a value, in Python: words by the table, numbers without `f`, `F`, `d`, `D`, and `.` for `::`. -/
def VTok.py : VTok → List VTok
  | .word w => ((pyWords.find? (fun q => q.1 = w)).map (·.2)).getD [.word w]
  | .scope => [.sep '.']
  | t => [t.drop "fFdD".toList]

/-- A value in Python. -/
def pyValue (l : List VTok) : List VTok := l.flatMap VTok.py

/-- The words of C++ that are other words in the comments of Python. -/
def comWords : List (Str × List VTok) :=
  [("true".toList, [.word "True".toList]), ("false".toList, [.word "False".toList]), ("void".toList, [.word "None".toList]),
   ("NULL".toList, [.word "None".toList]), ("nullptr".toList, [.word "None".toList])]

/-- A piece of a comment, in Python: words by the table, and numbers without `f`, `d`. -/
def VTok.com : VTok → List VTok
  | .word w => ((comWords.find? (fun q => q.1 = w)).map (·.2)).getD [.word w]
  | t => [t.drop "fd".toList]

/-- A comment in Python. -/
def pyComment (l : List VTok) : List VTok := l.flatMap VTok.com

/-- The word is none of those that the standard replacements change in another way: `void`, and `std`, a character and `nullopt` or `string`. -/
def CalmWord (w : Str) : Prop :=
  w ≠ "void".toList ∧ (∀ c, w ≠ "std".toList ++ c :: "nullopt".toList) ∧ ∀ c, w ≠ "std".toList ++ c :: "string".toList

/-- There is no `void`, no `std::nullopt`, no `std::string`, and no `'`. -/
def Calm : List VTok → Prop
  | [] => True
  | .word w :: l => CalmWord w ∧
      (w = "std".toList → ∀ t v m, l = t :: .word v :: m → v ≠ "nullopt".toList ∧ v ≠ "string".toList) ∧ Calm l
  | .sep c :: l => c ≠ '\'' ∧ Calm l
  | _ :: l => Calm l

end Verif.Re.Spec
