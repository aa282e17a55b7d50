import Verif.Py.Str

/-! Specification of the names of sizes and of the types of buffers, without regular expressions. -/

namespace Verif.Find.Spec
open Verif.Py

abbrev Upper (c : Char) : Prop := 'A'.toNat ≤ c.toNat ∧ c.toNat ≤ 'Z'.toNat
abbrev Lower (c : Char) : Prop := 'a'.toNat ≤ c.toNat ∧ c.toNat ≤ 'z'.toNat
abbrev Digit (c : Char) : Prop := '0'.toNat ≤ c.toNat ∧ c.toNat ≤ '9'.toNat

/-- The five forms of a name that is made with a word. -/
def Made (w name : Str) : Prop :=
  name = w ∨ (∃ x, name = w ++ '_' :: x) ∨ (∃ x, name = x ++ '_' :: w) ∨ (∃ c d x, name = w ++ c :: d :: x ∧ Upper c ∧ (Lower d ∨ d = '_')) ∨
    ∃ x d, name = x ++ w ++ [d] ∧ Digit d

/-- The words of a name: `itemCount_2` has the words `item`, `count` and `2`. -/
def wordsOf : Str → List Str
  | [] => [[]]
  | c :: s =>
    if c = '_' then [] :: wordsOf s
    else
      let l := wordsOf s
      let first := l.headD []
      if s.head?.any (fun d => decide (Upper d)) && !decide (Upper c) then [c] :: l
      else ((if Upper c then Char.ofNat (c.toNat + 32) else c) :: first) :: l.tail

/-- The text has the type before a star, with at most two blanks between them, and the type is not the end of a longer name. -/
def PointerIn (isWord : Char → Bool) (t text : Str) : Prop :=
  ∃ a n b, n ≤ 2 ∧ text = a ++ t ++ List.replicate n ' ' ++ '*' :: b ∧ ∀ c, a.getLast? = some c → isWord c = false

/-- Every `[` of the expression has its `]`, and its last character is not a backslash that escapes nothing. -/
def closed : Bool → Str → Bool
  | inSet, [] => !inSet
  | inSet, '\\' :: s =>
    match s with
    | [] => false
    | _ :: s => closed inSet s
  | true, c :: s => closed (c != ']') s
  | false, c :: s => closed (c == '[') s

end Verif.Find.Spec
