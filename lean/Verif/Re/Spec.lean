import Verif.Re.Model

/-! Specification of regular expressions: which texts an expression matches, by the text before and the text after. -/

namespace Verif.Re.Spec
open Verif.Py Verif.Re
open Verif.Scope (isWordChar)

/-- The text ends with a word character. -/
def EndsInWord (u : Char → Bool) (a : Str) : Prop := ∃ c, a.getLast? = some c ∧ isWordChar u c = true

/-- The text begins with a word character. -/
def BeginsWithWord (u : Char → Bool) (b : Str) : Prop := ∃ c, b.head? = some c ∧ isWordChar u c = true

/-- The character is in the set. -/
def InSet (u : Char → Bool) (items : List Item) (c : Char) : Prop := ∃ i ∈ items, i.has u c = true

/-- `Matches u r a m b k k'`: the expression matches the text `m` between `a` and `b`, and the groups, `k` before, are `k'` after. -/
inductive Matches (u : Char → Bool) : Re → Str → Str → Str → List (Nat × Str) → List (Nat × Str) → Prop
  | eps (a b k) : Matches u .eps a [] b k k
  | chr (c a b k) : Matches u (.chr c) a [c] b k k
  | any (c a b k) : c ≠ '\n' → Matches u .any a [c] b k k
  | set (items c a b k) : InSet u items c → Matches u (.set false items) a [c] b k k
  | notSet (items c a b k) : ¬ InSet u items c → Matches u (.set true items) a [c] b k k
  | wordB (a b k) : ¬ (EndsInWord u a ↔ BeginsWithWord u b) → Matches u .wordB a [] b k k
  | atEnd (a b k) : b = [] ∨ b = ['\n'] → Matches u .atEnd a [] b k k
  | notBehind (items a b k) : (∀ c, a.getLast? = some c → ¬ InSet u items c) → Matches u (.notBehind items) a [] b k k
  | ahead (r a m b k k') : Matches u r a m b k k' → Matches u (.ahead r) a [] (m ++ b) k k'
  | group (n r a m b k k') : Matches u r a m b k k' → Matches u (.group n r) a m b k ((n, m) :: k')
  | seq (r q a m m' b k k' k'') : Matches u r a m (m' ++ b) k k' → Matches u q (a ++ m) m' b k' k'' → Matches u (.seq r q) a (m ++ m') b k k''
  | altL (r q a m b k k') : Matches u r a m b k k' → Matches u (.alt r q) a m b k k'
  | altR (r q a m b k k') : Matches u q a m b k k' → Matches u (.alt r q) a m b k k'
  | starNil (g r a b k) : Matches u (.star g r) a [] b k k
  | starCons (g r a m m' b k k' k'') : m ≠ [] → Matches u r a m (m' ++ b) k k' → Matches u (.star g r) (a ++ m) m' b k' k'' →
      Matches u (.star g r) a (m ++ m') b k k''

/-- The expression matches the text `m` between `a` and `b`. -/
def Fits (u : Char → Bool) (r : Re) (a m b : Str) : Prop := ∃ k, Matches u r a m b [] k

/-- The text `s`, after `a`, and what it becomes by the replacement: from left to right, a character where no match begins is kept, a match is
replaced. -/
inductive Replaced (u : Char → Bool) (r : Re) (tmpl : List Tok) : Str → Str → Str → Prop
  | done (a) : Replaced u r tmpl a [] []
  | keep (a c s t) : (∀ m b, c :: s = m ++ b → ¬ Fits u r a m b) → Replaced u r tmpl (a ++ [c]) s t → Replaced u r tmpl a (c :: s) (c :: t)
  | hit (a m b k t) : m ≠ [] → Matches u r a m b [] k → Replaced u r tmpl (a ++ m) b t →
      Replaced u r tmpl a (m ++ b) (expand k tmpl ++ t)

end Verif.Re.Spec
