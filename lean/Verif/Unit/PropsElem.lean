import Verif.Unit.PropsFill

/-! C78: what the empty lines, the comments and the conditional macros print, and the spaces around elements without code. -/

namespace Verif.Unit.Props
open Verif.Py Spec Verif.Unit

/-- C78: an empty line is an empty line of the stub if the layout is reproduced, and nothing otherwise. It is nothing in the binding. -/
theorem C78_empty_line (o : Options) : ∃ s, fillChild o .emptyLine = some [.leaf .other [] ⟨none, s⟩ []] ∧
    (o.reproduceLayout = true → s = [[]]) ∧ (o.reproduceLayout = false → s = []) := by
  refine ⟨if o.reproduceLayout then [[]] else [], by rw [fillChild]; rfl, fun h => if_pos h, fun h => ?_⟩
  rw [h]
  rfl

/-- C78: a comment has the same lines in the stub, after a `#`, aligned if the layout is not reproduced. It is nothing in the binding. -/
theorem C78_comment (o : Options) (text : Str) : ∃ s, fillChild o (.comment text) = some [.leaf .other [] ⟨none, s⟩ []] ∧
    (o.reproduceLayout = true → s = (lines (o.comment text)).map ('#' :: ·)) ∧
    (o.reproduceLayout = false → s = (lines (o.comment text)).map (fun l => '#' :: ' ' :: lstrip l)) := by
  refine ⟨(lines (o.comment text)).map (addHash o), by rw [fillChild]; rfl, fun h => ?_, fun h => ?_⟩
  · exact List.map_congr_left (fun l _ => if_pos h)
  · refine List.map_congr_left (fun l _ => ?_)
    unfold addHash
    rw [h]
    rfl

/-- C78: a conditional macro (`#ifdef`) is a comment in the stub, after its own comment lines, and a comment in the binding. -/
theorem C78_macro (o : Options) (previous : List Str) (code eol : Str) : ∃ s p, fillChild o (.conditionMacro previous code eol) = some [.leaf .other [] ⟨none, s⟩ p] ∧
    s = previous ++ (lines (code ++ eol)).map (fun l => '#' :: ' ' :: l) ∧ p = (lines code).map (fun l => '/' :: '/' :: ' ' :: l) :=
  ⟨_, _, by rw [fillChild]; rfl, rfl, rfl⟩

/-- C78: an element without code changes nothing in the binding of its block, wherever it is. -/
theorem C78_silent_binding (o : Options) (scope : List Str) (k : Kind) (key : Str) (s : Overload.Elem) (es' : List El) : ∀ (es : List El) (last : Option Kind) (c : Ctx),
    blockPydef o scope last (es ++ .leaf k key s [] :: es') c = blockPydef o scope last (es ++ es') c
  | [], last, c => by
    show blockPydef o scope last (.leaf k key s [] :: es') c = blockPydef o scope last es' c
    rw [blockPydef, elPydef]
    show (blockPydef o scope last es' c).map (fun r' => ([] ++ [] ++ r'.1, r'.2)) = _
    cases blockPydef o scope last es' c <;> rfl
  | e :: es, last, c => by
    rw [List.cons_append, List.cons_append, blockPydef, blockPydef]
    congr 1
    funext r
    rw [C78_silent_binding o scope k key s es' es]

/-- C78: nor does it in the stub. -/
theorem C78_silent_stub (o : Options) (k : Kind) (es' : List (Kind × List Str)) : ∀ (es : List (Kind × List Str)) (last : Option Kind),
    spacedLines o last (es ++ (k, []) :: es') = spacedLines o last (es ++ es')
  | [], last => by
    show (if o.reproduceLayout then [] else spacing last k []) ++ [] ++ spacedLines o (lastKind last k []) es' = spacedLines o last es'
    have h : (if o.reproduceLayout then [] else spacing last k []) = ([] : List Str) := by cases o.reproduceLayout <;> rfl
    rw [h]
    rfl
  | (k', ls) :: es, last => by
    rw [List.cons_append, List.cons_append, spacedLines, spacedLines, C78_silent_stub o k es' es]

example : (fillBlock o1 [.emptyLine, .comment "  c".toList, .conditionMacro [] "#ifdef A".toList []]).bind (unitStub o1) = some "# c\n# #ifdef A".toList := by
  decide +kernel

end Verif.Unit.Props
