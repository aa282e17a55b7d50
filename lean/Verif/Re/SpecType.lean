import Verif.Re.Spec
import Verif.Inst.Spec
import Verif.TArgs.Spec
import Verif.Py.Split

/-! Specification: the types of C++ as sequences of words, names of several words and other characters, with templates, and what they are in Python. -/

namespace Verif.Re.Spec
open Verif Verif.Py Verif.Re
open Verif.Inst.Spec (Ident)
open Verif.Scope (isWordChar)

/-- A piece of a type: a word, a name of several words (or `long`), any other character. -/
inductive TTok where
  | word (w : Str)
  | known (p : Str)
  | sep (c : Char)
deriving DecidableEq

def TTok.text : TTok → Str
  | .word w => w
  | .known p => p
  | .sep c => [c]

def ttext (l : List TTok) : Str := l.flatMap TTok.text

/-- The types whose name has several words, and `long`. -/
def knownTypes : List (Str × Str) :=
  [("unsigned int".toList, "int".toList), ("unsigned short".toList, "int".toList), ("unsigned long long".toList, "int".toList),
   ("unsigned long".toList, "int".toList), ("long long".toList, "int".toList), ("long double".toList, "float".toList), ("long".toList, "int".toList),
   ("std::string_view".toList, "str".toList), ("std::string".toList, "str".toList)]

/-- The types of one word. -/
def wordTypes : List (Str × Str) :=
  [("uint8_t".toList, "int".toList), ("int8_t".toList, "int".toList), ("uint16_t".toList, "int".toList), ("int16_t".toList, "int".toList),
   ("uint32_t".toList, "int".toList), ("int32_t".toList, "int".toList), ("uint64_t".toList, "int".toList), ("int64_t".toList, "int".toList),
   ("short".toList, "int".toList), ("double".toList, "float".toList), ("size_t".toList, "int".toList), ("void".toList, "None".toList)]

/-- The templates of the standard library that have a name in Python. -/
def stdHeads : List Str :=
  ["function".toList, "unique_ptr".toList, "shared_ptr".toList, "vector".toList, "array".toList, "tuple".toList, "pair".toList, "variant".toList,
   "optional".toList, "map".toList]

def headNames : List Str := stdHeads.map (fun k => "std::".toList ++ k)

/-- The names that are one piece. -/
def knownNames : List Str := knownTypes.map Prod.fst ++ headNames

/-- The value of a key, or the key itself. -/
def lookupOr (tbl : List (Str × Str)) (w : Str) : Str := ((tbl.find? (fun q => q.1 = w)).map (·.2)).getD w

/-- A piece in Python: types by the tables; `const`, `mutable`, `&` and `*` vanish. -/
def TTok.py : TTok → Str
  | .word w => if w = "const".toList ∨ w = "mutable".toList then [] else lookupOr wordTypes w
  | .known p => lookupOr knownTypes p
  | .sep c => if c = '&' ∨ c = '*' then [] else [c]

def pyFlat (l : List TTok) : Str := l.flatMap TTok.py

/-- Words that are not alone: they only occur in the types of several words, or are not treated here. -/
def reserved : List Str := ["unsigned".toList, "long".toList, "std".toList, "py".toList, "nb".toList]

/-- No word comes first. -/
def TApart (l : List TTok) : Prop := (∀ w m, l ≠ .word w :: m) ∧ ∀ p m, l ≠ .known p :: m

/-- `cha`, `char`, `charr`, ... -/
def CharWord (w : Str) : Prop := ∃ n, w = "cha".toList ++ List.replicate n 'r'

/-- The type is cut in its longest pieces: a name of several words is one piece. There is one blank at a time, no template, no `char`, no `void *`,
no `std::string()`, and no word just after `&` or `*`. -/
def TLexed (u : Char → Bool) : List TTok → Prop
  | [] => True
  | .word w :: l => Ident u w ∧ w ∉ reserved ∧ ¬ CharWord w ∧ TApart l ∧
      (w = "void".toList → ∀ m, l ≠ .sep '*' :: m ∧ l ≠ .sep ' ' :: .sep '*' :: m) ∧ TLexed u l
  | .known p :: l => p ∈ knownNames ∧ TApart l ∧ (p = "std::string".toList → ∀ m, l ≠ .sep '(' :: .sep ')' :: m) ∧
      (∀ m, l ≠ .sep ' ' :: .word "double".toList :: m) ∧ (∀ q m, l ≠ .sep ' ' :: .known q :: m) ∧ TLexed u l
  | .sep c :: l => isWordChar u c = false ∧ (isSpace c = true → c = ' ') ∧ c ≠ '<' ∧ c ≠ '>' ∧
      (c = ' ' → ∀ m, l ≠ .sep ' ' :: m) ∧ (c = '&' ∨ c = '*' → TApart l) ∧ TLexed u l

/-! ### Templates -/

/-- No template of the standard library among the pieces. -/
def NoHead (l : List TTok) : Prop := ∀ p, .known p ∈ l → p ∉ headNames

/-- What `std::K<x>` is in Python, where `x` is already in Python. -/
inductive Wraps : Str → Str → Str → Prop
  | unique (x) : Wraps "unique_ptr".toList x x
  | shared (x) : Wraps "shared_ptr".toList x x
  | vector (x) : Wraps "vector".toList x ("List[".toList ++ strip x ++ "]".toList)
  | array (x n) : ',' ∉ x → ',' ∉ n → Wraps "array".toList (x ++ ',' :: n) ("List[".toList ++ strip x ++ "]".toList)
  | tuple (x) : Wraps "tuple".toList x ("Tuple[".toList ++ x ++ "]".toList)
  | pair (x) : Wraps "pair".toList x ("Tuple[".toList ++ x ++ "]".toList)
  | variant (x) : Wraps "variant".toList x ("Union[".toList ++ x ++ "]".toList)
  | optional (x) : Wraps "optional".toList x ("Optional[".toList ++ x ++ "]".toList)
  | map (k v) : ',' ∉ k → Wraps "map".toList (k ++ ',' :: v) ("Dict[".toList ++ strip k ++ ", ".toList ++ strip v ++ "]".toList)
  | function (r ps) : '(' ∉ r → '(' ∉ ps → Wraps "function".toList (r ++ '(' :: ps ++ ")".toList) ("Callable[[".toList ++ ps ++ "], ".toList ++ r ++ "]".toList)

/-- White space becomes one blank, and none at the ends. -/
def tidy (s : Str) : Str := join [' '] (fields s)

/-- The type `s` is `r` in Python. A type without template: piece by piece. A template: what is around it piece by piece, its arguments first, without the
white space around; a template of the standard library has its name in Python, another one has square brackets. What follows the first template of a text
has no template. -/
inductive Translates (u : Char → Bool) : Str → Str → Prop
  | flat (l) : TLexed u l → NoHead l → Translates u (ttext l) (pyFlat l)
  | std (s before a after x y K pre post) : TArgs.Spec.CutAt s before a after → K ∈ stdHeads → strip before = ttext (pre ++ [.known ("std::".toList ++ K)]) →
      TLexed u (pre ++ [.known ("std::".toList ++ K)]) → NoHead pre → strip after = ttext post → TLexed u post → NoHead post →
      ¬ BeginsWithWord u (pyFlat post) → Translates u (strip a) x → Wraps K x y → Translates u s (tidy (pyFlat pre ++ y ++ pyFlat post))
  | other (s before a after x pre post) : TArgs.Spec.CutAt s before a after → strip before = ttext pre → TLexed u pre → NoHead pre →
      strip after = ttext post → TLexed u post → NoHead post → Translates u (strip a) x →
      Translates u s (tidy (pyFlat pre ++ '[' :: x ++ ']' :: pyFlat post))

end Verif.Re.Spec
