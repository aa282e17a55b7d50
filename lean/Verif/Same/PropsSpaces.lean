import Verif.Same.Model
import Verif.Space.Props

/-! Property C127: which codes the tests of the project take for the same up to blanks. -/

namespace Verif.Same.Props
open Verif.Py

/-- C127. For every two codes: they are taken for the same exactly if their words, joined by one blank, are the same once the blanks beside the
separators `,()[];` are taken away. -/
theorem C127_same (generated expected : Str) :
    equalIgnoreSpaces generated expected = true ↔
      Space.Spec.trimBeside (fun c => decide (c ∈ ",()[];".toList)) none (join [' '] (Space.Spec.words (strip generated))) =
        Space.Spec.trimBeside (fun c => decide (c ∈ ",()[];".toList)) none (join [' '] (Space.Spec.words (strip expected))) := by
  unfold equalIgnoreSpaces
  rw [beq_iff_eq, Space.C12_redundant_exact, Space.C12_redundant_exact]

/-- C127. Codes that are taken for the same have the same characters other than white space, in the same order. -/
theorem C127_characters (generated expected : Str) (h : equalIgnoreSpaces generated expected = true) :
    generated.filter (fun c => !isSpace c) = expected.filter (fun c => !isSpace c) := by
  unfold equalIgnoreSpaces at h
  rw [beq_iff_eq] at h
  have hs : ',' ∈ ",()[];".toList := by
    rw [String.toList_ofList]
    decide
  rw [← (Space.C12_redundant generated ',' hs).2.2, h, (Space.C12_redundant expected ',' hs).2.2]

/-- C127. Codes with the same words are taken for the same. -/
theorem C127_words (generated expected : Str) (h : Space.Spec.words (strip generated) = Space.Spec.words (strip expected)) :
    equalIgnoreSpaces generated expected = true := by
  rw [C127_same, h]

/-- The words are the same, on other lines. -/
example : Space.Spec.words (strip "int  a;\n\tint b;\n".toList) = Space.Spec.words (strip "int a; int b;".toList) := by
  repeat rw [String.toList_ofList]
  decide +kernel

/-- Blanks beside a comma do not count, those beside an equal sign do. -/
example : equalIgnoreSpaces "f(a, b)".toList "f( a,b )".toList = true ∧ equalIgnoreSpaces "a = b".toList "a=b".toList = false := by
  repeat rw [String.toList_ofList]
  unfold equalIgnoreSpaces
  constructor
  · rw [beq_iff_eq, Space.C12_redundant_exact, Space.C12_redundant_exact, String.toList_ofList]
    decide +kernel
  · rw [beq_eq_false_iff_ne, Space.C12_redundant_exact, Space.C12_redundant_exact, String.toList_ofList]
    decide +kernel

/-- C127, full: texts between quotes that are taken for the same are the same. -/
def C127_literal_statement : Prop :=
  ∀ x y : Str, '"' ∉ x → '"' ∉ y → equalIgnoreSpaces ('"' :: x ++ ['"']) ('"' :: y ++ ['"']) = true → x = y

/-- Blanks in a text between quotes are ignored, too. -/
theorem C127_literal_fails : ¬ C127_literal_statement := by
  intro h
  have e : equalIgnoreSpaces ('"' :: ['a', ' ', ' ', 'b'] ++ ['"']) ('"' :: ['a', ' ', 'b'] ++ ['"']) = true := by
    apply C127_words
    decide +kernel
  have := h _ _ (by decide) (by decide) e
  revert this
  decide

theorem trim_plain {P : Char → Bool} (s : Str) (h : ∀ c ∈ s, P c = false) (prev : Option Char) (hp : prev.any P = false) :
    Space.Spec.trimBeside P prev s = s := by
  induction s generalizing prev with
  | nil => rfl
  | cons c cs ih =>
    have hh : cs.head?.any P = false := by
      cases cs with
      | nil => rfl
      | cons d cs => exact h d (List.mem_cons_of_mem _ (List.mem_cons_self ..))
    unfold Space.Spec.trimBeside
    rw [if_neg (by rw [hp, hh]; simp), ih (fun x hx => h x (List.mem_cons_of_mem _ hx)) (some c) (h c (List.mem_cons_self ..))]

theorem redundant_literal {x : Str} (hd : contains x [' ', ' '] = false) (hp : ∀ c ∈ x, c ≠ '\n' ∧ c ≠ '\t' ∧ c ∉ [',', '(', ')', '[', ']', ';']) :
    Space.removeRedundantSpaces ('"' :: x ++ ['"']) = '"' :: x ++ ['"'] := by
  have mem : ∀ c ∈ '"' :: x ++ ['"'], c = '"' ∨ c ∈ x := by
    intro c hc
    rcases List.mem_append.1 hc with hc | hc
    · exact List.mem_cons.1 hc
    · exact Or.inl (List.mem_singleton.1 hc)
  have nd : ∀ s : Str, Space.NoDbl s → Space.NoDbl (s ++ ['"']) := by
    intro s
    induction s with
    | nil => intro _; trivial
    | cons a r ih =>
      intro hs
      cases r with
      | nil => exact ⟨fun e => absurd e.2 (by decide), trivial⟩
      | cons b r => exact ⟨hs.1, ih hs.2⟩
  have hf : Space.forceOneSpace ('"' :: x ++ ['"']) = '"' :: x ++ ['"'] := by
    apply Space.force_of_normal
    · apply nd
      cases x with
      | nil => trivial
      | cons a r => exact ⟨fun e => absurd e.1 (by decide), (Space.noDbl_iff _).2 hd⟩
    · constructor
      · intro c hc
        have : '"' = c := Option.some.inj hc
        rw [← this]; decide
      · intro c hc
        rw [List.getLast?_append, List.getLast?_singleton, Option.some_or] at hc
        have : '"' = c := Option.some.inj hc
        rw [← this]; decide
    · intro c hc
      rcases mem c hc with rfl | hc
      · decide
      · exact ⟨(hp c hc).1, (hp c hc).2.1⟩
  rw [Space.redundant_eq, hf]
  apply trim_plain _ _ _ rfl
  intro c hc
  unfold Space.isSeparator
  rw [String.toList_ofList]
  apply decide_eq_false
  rcases mem c hc with rfl | hc
  · decide
  · exact (hp c hc).2.2

/-- C127, partial: texts between quotes that are taken for the same are the same, if they have no two blanks in a row, no line ends and tabulators and
no separators. Missing: the others, for which it is false (`C127_literal_fails`). -/
theorem C127_literal_partial (x y : Str) (hx : contains x [' ', ' '] = false) (hy : contains y [' ', ' '] = false)
    (px : ∀ c ∈ x, c ≠ '\n' ∧ c ≠ '\t' ∧ c ∉ [',', '(', ')', '[', ']', ';']) (py : ∀ c ∈ y, c ≠ '\n' ∧ c ≠ '\t' ∧ c ∉ [',', '(', ')', '[', ']', ';'])
    (h : equalIgnoreSpaces ('"' :: x ++ ['"']) ('"' :: y ++ ['"']) = true) : x = y := by
  unfold equalIgnoreSpaces at h
  rw [beq_iff_eq, redundant_literal hx px, redundant_literal hy py] at h
  exact List.append_cancel_right (List.cons.inj h).2

/-- Texts that meet the hypotheses. -/
example : contains ['a', ' ', 'b'] [' ', ' '] = false ∧ (∀ c ∈ ['a', ' ', 'b'], c ≠ '\n' ∧ c ≠ '\t' ∧ c ∉ [',', '(', ')', '[', ']', ';']) ∧
    equalIgnoreSpaces ('"' :: ['a', ' ', 'b'] ++ ['"']) ('"' :: ['a', ' ', 'b'] ++ ['"']) = true := by
  refine ⟨by decide, by decide, ?_⟩
  unfold equalIgnoreSpaces
  exact beq_self_eq_true _

end Verif.Same.Props
