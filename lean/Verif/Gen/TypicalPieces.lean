import Verif.Gen.Typical
import Verif.Gen.Props

/-! The pieces of the files proposed by the help messages. -/

namespace Verif.Gen.Props
open Verif.Py Verif.Gen Verif.Gen.Spec
variable {C : Type}

/-- The lines from `i` to `j`, outside the regions. -/
def plain (ls : List Str) (i j : Nat) : List Piece := ((ls.drop i).take (j - i)).map .outside

/-- The region with its markers in the lines `i` and `j`. -/
def marked (tok : Str) (ls : List Str) (i j : Nat) : Piece := .region tok (ls.getD i []) ((ls.drop (i + 1)).take (j - i - 1)) (ls.getD j [])

/-- The pieces of the file of the bindings. -/
def pybindPieces : Bool → List Piece
  | false => plain pybindLines 0 11 ++ marked "litgen_glue_code".toList pybindLines 11 18 :: (plain pybindLines 19 31 ++
      marked "litgen_pydef".toList pybindLines 31 36 :: plain pybindLines 37 40)
  | true => plain nanobindLines 0 18 ++ marked "litgen_glue_code".toList nanobindLines 18 25 :: (plain nanobindLines 26 38 ++
      marked "litgen_pydef".toList nanobindLines 38 43 :: plain nanobindLines 44 47)

/-- The pieces of the stub. -/
def stubPieces : List Piece := plain stubLines 0 9 ++ marked "litgen_stub".toList stubLines 9 11 :: plain stubLines 12 13

/-- The pieces of the file of the glue code. -/
def gluePieces : List Piece := plain glueLines 0 4 ++ marked "litgen_glue_code".toList glueLines 4 11 :: plain glueLines 12 15

theorem atMostOne_plain {tok : Str} (ls : List Str) : ∀ ps : List Piece, AtMostOne tok ps → AtMostOne tok (ls.map .outside ++ ps) := by
  induction ls with
  | nil => intro ps h; exact h
  | cons l ls ih => intro ps h; exact .outside l _ (ih ps h)

theorem atMostOne_nil_plain {tok : Str} (ls : List Str) : AtMostOne tok (ls.map .outside) := by
  have := atMostOne_plain (tok := tok) ls [] .nil
  rwa [List.append_nil] at this

theorem not_region_plain (tok o : Str) (b : List Str) (c : Str) (ls : List Str) : Piece.region tok o b c ∉ ls.map Piece.outside := by
  intro h
  obtain ⟨x, _, e⟩ := List.mem_map.1 h
  cases e

theorem pybind_text (nb : Bool) : text (pybindPieces nb) = typicalPybind nb := by cases nb <;> decide +kernel
theorem stub_text : text stubPieces = typicalStub := by decide +kernel
theorem glue_text : text gluePieces = typicalGlue := by decide +kernel

theorem pybind_wf (nb : Bool) : (∀ p ∈ pybindPieces nb, p.WF) ∧ ∀ l ∈ (pybindPieces nb).flatMap Piece.lines, '\n' ∉ l := by
  cases nb <;> decide +kernel
theorem stub_wf : (∀ p ∈ stubPieces, p.WF) ∧ ∀ l ∈ stubPieces.flatMap Piece.lines, '\n' ∉ l := by decide +kernel
theorem glue_wf : (∀ p ∈ gluePieces, p.WF) ∧ ∀ l ∈ gluePieces.flatMap Piece.lines, '\n' ∉ l := by decide +kernel

end Verif.Gen.Props
