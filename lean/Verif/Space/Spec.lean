import Verif.Py.Str

/-! Specification of space normalisation. -/

namespace Verif.Space.Spec
open Verif.Py

/-- The characters treated as separators of words. -/
def isSep (c : Char) : Bool := c == ' ' || c == '\n' || c == '\t'

/-- The words of a text: `cur` is the word being read. -/
def wordsFrom (cur : Str) : Str → List Str
  | [] => if cur = [] then [] else [cur]
  | c :: cs =>
    if isSep c then (if cur = [] then wordsFrom [] cs else cur :: wordsFrom [] cs)
    else wordsFrom (cur ++ [c]) cs

/-- The maximal sequences of characters other than space, newline and tab. -/
def words (s : Str) : List Str := wordsFrom [] s

/-- The text without the spaces that stand beside a character satisfying `P`; `prev` is the character
before the text. -/
def trimBeside (P : Char → Bool) (prev : Option Char) : Str → Str
  | [] => []
  | c :: cs =>
    if c = ' ' ∧ (prev.any P ∨ cs.head?.any P) then trimBeside P (some c) cs
    else c :: trimBeside P (some c) cs

end Verif.Space.Spec
