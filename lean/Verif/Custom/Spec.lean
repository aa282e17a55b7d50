import Verif.Custom.Model

/-! Specification of the custom codes. -/

namespace Verif.Custom.Spec
open Verif.Py

/-- One call of a function `add_custom_bindings_to_…`. -/
structure Addition where
  scope : Str
  stub : Option Str
  pydef : Option Str

def Addition.code (a : Addition) (isPydef : Bool) : Option Str := if isPydef then a.pydef else a.stub

/-- The codes added for a scope, in the order of the calls, once cleaned. -/
def added (hist : List Addition) (scope : Str) (isPydef : Bool) : List Str :=
  hist.filterMap (fun a => if a.scope = scope then (a.code isPydef).map clean else none)

/-- The state after the calls. -/
def after (hist : List Addition) : Bindings := hist.foldl (fun b a => add b a.scope a.stub a.pydef) Bindings.empty

/-- `new` is `old` in which every occurrence of the placeholder is replaced by the text: the same pieces, which do not contain the
placeholder, are joined by the text instead of the placeholder. -/
def Substituted (placeholder text old new : Str) : Prop :=
  ∃ pieces, (∀ p ∈ pieces, ¬ placeholder <:+: p) ∧ old = join placeholder pieces ∧ new = join text pieces

/-- `text` surrounded by at most one line end at each side, so that it starts and ends with a line end. -/
def Padded (text padded : Str) : Prop :=
  ∃ a b, padded = a ++ text ++ b ∧ (a = [] ∨ a = ['\n']) ∧ (b = [] ∨ b = ['\n']) ∧
    padded.head? = some '\n' ∧ padded.getLast? = some '\n'

/-- The emissions for the main module. -/
def mainEmissions (l : List Emission) : List Emission := l.filter (fun e => e.target = none)

end Verif.Custom.Spec
