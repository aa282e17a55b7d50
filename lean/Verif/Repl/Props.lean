import Verif.Repl.Lemmas

/-! Property C14: lists of replacements, for every regular expression engine. -/

namespace Verif.Repl
open Verif.Py

/-- C14: the result is what one, two or three passes over the list, in list order, give; fewer than
three passes only if the last one changed nothing. -/
theorem C14_bounded_passes (sub : Engine) (rs : List Replacement) (s : Str) :
    let onePass := Spec.inOrder (rs.map (fun r => sub r.what r.byWhat))
    ∃ n, 1 ≤ n ∧ n ≤ 3 ∧ apply sub rs s = Spec.times onePass n s ∧
      (n < 3 → Spec.times onePass n s = Spec.times onePass (n - 1) s) := by
  intro onePass
  have hp : pass sub rs = onePass := funext (pass_eq sub rs)
  rw [apply_eq, hp]
  simp only
  by_cases h1 : onePass s = s
  · exact ⟨1, by omega, by omega, by rw [if_pos h1]; rfl, fun _ => h1⟩
  · by_cases h2 : onePass (onePass s) = onePass s
    · exact ⟨2, by omega, by omega, by rw [if_neg h1, if_pos h2]; rfl, fun _ => h2⟩
    · exact ⟨3, by omega, by omega, by rw [if_neg h1, if_neg h2]; rfl, fun h => absurd h (by omega)⟩

/-- C14: if two passes reach a fixed point, `apply` returns it and a further `apply` changes nothing. -/
theorem C14_stable (sub : Engine) (rs : List Replacement) (s : Str)
    (h : Spec.times (Spec.inOrder (rs.map (fun r => sub r.what r.byWhat))) 3 s =
      Spec.times (Spec.inOrder (rs.map (fun r => sub r.what r.byWhat))) 2 s) :
    apply sub rs s = Spec.times (Spec.inOrder (rs.map (fun r => sub r.what r.byWhat))) 2 s ∧
    apply sub rs (apply sub rs s) = apply sub rs s := by
  have hp : pass sub rs = Spec.inOrder (rs.map (fun r => sub r.what r.byWhat)) := funext (pass_eq sub rs)
  rw [← hp] at h ⊢
  simp only [Spec.times] at h ⊢
  have e : apply sub rs s = pass sub rs (pass sub rs s) := by
    rw [apply_eq]
    simp only
    by_cases h1 : pass sub rs s = s
    · rw [if_pos h1, h1, h1]
    · rw [if_neg h1]
      by_cases h2 : pass sub rs (pass sub rs s) = pass sub rs s
      · rw [if_pos h2]
      · rw [if_neg h2]; exact h
  refine ⟨e, ?_⟩
  rw [e, apply_eq]
  simp only
  rw [h, if_pos rfl]

/-- An engine that replaces all occurrences of a plain text. -/
def plainEngine : Engine := fun what byWhat s => if what = [] then s else replace s what byWhat

/-- The hypothesis of `C14_stable` is met by a list whose second pass still changes the text. -/
example : Spec.times (Spec.inOrder ([Replacement.mk ['b'] ['c'], ⟨['a'], ['b']⟩].map
      (fun r => plainEngine r.what r.byWhat))) 3 ['a'] =
    Spec.times (Spec.inOrder ([Replacement.mk ['b'] ['c'], ⟨['a'], ['b']⟩].map
      (fun r => plainEngine r.what r.byWhat))) 2 ['a'] := by decide

/-- C14, stability without condition: a second `apply` never changes anything. -/
def C14_always_stable_statement : Prop :=
  ∀ (sub : Engine) (rs : List Replacement) (s : Str), apply sub rs (apply sub rs s) = apply sub rs s

/-- C14: stability needs a condition: after three passes the result may still not be a fixed point. -/
theorem C14_always_stable_fails : ¬ C14_always_stable_statement := by
  intro h
  have := h plainEngine [⟨['x', 'x'], ['x']⟩] (List.replicate 16 'x')
  revert this
  decide

/-- C14: an empty list changes nothing. -/
theorem C14_empty (sub : Engine) (s : Str) : apply sub [] s = s := by
  rw [apply_eq]; simp [pass]

/-- C14: a replacement added first (last) is applied before (after) the others in each pass, and merging
applies the other list after. -/
theorem C14_add (sub : Engine) (rs other : List Replacement) (r : Replacement) (s : Str) :
    pass sub (addFirst rs r) s = pass sub rs (sub r.what r.byWhat s) ∧
    pass sub (addLast rs r) s = sub r.what r.byWhat (pass sub rs s) ∧
    pass sub (addReplacements rs other) s = pass sub other (pass sub rs s) ∧
    pass sub (merge rs other) s = pass sub other (pass sub rs s) := by
  refine ⟨rfl, by rw [addLast, pass_append]; rfl, ?_, pass_append _ _ _ _⟩
  have : addReplacements rs other = rs ++ other := by
    unfold addReplacements
    induction other generalizing rs with
    | nil => simp
    | cons x xs ih => rw [List.foldl_cons, ih]; simp [addLast]
  rw [this, pass_append]

/-- C14: reading a list from a text: one replacement per non-blank line, in order; reading fails
exactly if some non-blank line has no ` -> ` (once stripped). -/
theorem C14_from_string (text : Str) :
    (∀ rs, fromString text = some rs →
      ((lines text).filter (fun l => !isBlank l)).map (fun l => fromLine (strip l)) = rs.map some) ∧
    (fromString text = none ↔
      ∃ l ∈ lines text, isBlank l = false ∧ contains (strip l) " -> ".toList = false) := by
  have hf : ((lines text).map strip).filter (fun s => decide (s.length > 0)) =
      ((lines text).filter (fun l => !isBlank l)).map strip := by
    rw [List.filter_map]
    congr 2
    funext l
    simp [isBlank, List.length_pos_iff]
    cases strip l <;> simp
  constructor
  · intro rs h
    unfold fromString at h
    rw [hf, mapM_option_map, List.map_map] at h
    exact h
  · unfold fromString
    rw [hf, mapM_option_none]
    have key : ∀ s : Str, fromLine s = none ↔ contains s arrow = false := by
      intro s
      cases h : contains s arrow with
      | true =>
        obtain ⟨a, b, r, e⟩ := splitAux_two arrow s [] (by decide) h
        simp only [fromLine, split, e]
        simp
      | false =>
        simp only [fromLine, split, splitAux_none arrow s [] h]
    constructor
    · rintro ⟨x, hx, hn⟩
      obtain ⟨l, hl, rfl⟩ := List.mem_map.1 hx
      have := List.mem_filter.1 hl
      exact ⟨l, this.1, by simpa using this.2, (key _).1 hn⟩
    · rintro ⟨l, hl, hb, hn⟩
      exact ⟨strip l, List.mem_map.2 ⟨l, List.mem_filter.2 ⟨hl, by simp [hb]⟩, rfl⟩, (key _).2 hn⟩

/-- C14: a line `what -> by` gives the replacement of `what` by `by`, `REMOVE` standing for nothing.
`what` contains no arrow, `by` neither (what follows a second arrow is ignored). -/
theorem C14_from_line (what byWhat : Str) (hb : contains byWhat " -> ".toList = false)
    (hw : ∀ x y, what = x ++ y → y ≠ [] → ¬ " -> ".toList <+: (y ++ " -> ".toList ++ byWhat)) :
    fromLine (what ++ " -> ".toList ++ byWhat) =
      some ⟨strip what, if strip byWhat = "REMOVE".toList then [] else strip byWhat⟩ := by
  have e : split (what ++ " -> ".toList ++ byWhat) arrow = [what, byWhat] := by
    unfold split
    rw [show arrow = " -> ".toList from rfl, splitAux_first _ _ _ _ (by decide) hw, splitAux_none _ _ _ hb]
    simp
  unfold fromLine
  rw [e]

example : fromLine "double -> REMOVE".toList = some ⟨"double".toList, []⟩ := by decide

end Verif.Repl
