import Verif.Cls.Spec
import Verif.Indent.Lemmas

/-! Lemmas on blocks of code. -/

namespace Verif.Cls
open Verif.Py

/-- A line of code: it has no line break and ends with ink. -/
def Inked (l : Str) : Prop := '\n' ∉ l ∧ ∃ a c, l = a ++ [c] ∧ isSpace c = false

theorem inked_append (a : Str) {b : Str} (ha : '\n' ∉ a) (hb : Inked b) : Inked (a ++ b) := by
  obtain ⟨h1, x, c, rfl, h2⟩ := hb
  exact ⟨by simp only [List.mem_append, not_or] at *; exact ⟨ha, h1⟩, a ++ x, c, by simp, h2⟩

theorem nl_append {a b : Str} (ha : '\n' ∉ a) (hb : '\n' ∉ b) : '\n' ∉ a ++ b := by
  rw [List.mem_append, not_or]
  exact ⟨ha, hb⟩

/-- A literal at the end of a line. -/
theorem inked_literal (l : Str) (h : '\n' ∉ l) (hl : ∃ c ∈ l.getLast?, isSpace c = false) : Inked l := by
  obtain ⟨c, hc, hs⟩ := hl
  refine ⟨h, l.dropLast, c, ?_, hs⟩
  obtain ⟨x, rfl⟩ := List.getLast?_eq_some_iff.1 hc
  rw [List.dropLast_concat]

theorem nl_toString (n : Nat) : '\n' ∉ (toString n).toList := by
  rw [show (toString n).toList = Nat.toDigits 10 n from Nat.toList_repr]
  intro hm
  have := Nat.isDigit_of_mem_toDigits (b := 10) (n := n) (c := '\n') (by decide) (by decide) hm
  revert this; decide

theorem inked_not_blank {l : Str} (h : Inked l) : isBlank l = false := by
  obtain ⟨_, a, c, rfl, hc⟩ := h
  rw [Bool.eq_false_iff]
  intro hb
  have := (isBlank_iff _).1 hb c (by simp)
  rw [hc] at this
  cases this

theorem inked_last {l : Str} (h : Inked l) : l.getLast? ≠ some ' ' := by
  obtain ⟨_, a, c, rfl, hc⟩ := h
  rw [List.getLast?_concat, ne_eq, Option.some.injEq]
  rintro rfl
  revert hc; decide

theorem inked_rstrip {l : Str} (h : Inked l) : rstrip l = l := by
  obtain ⟨_, a, c, rfl, hc⟩ := h
  exact rstrip_append_of_not hc

theorem unindentLine_inked (n : Nat) {l : Str} (h : Inked l) : Indent.unindentLine n (spaces n ++ l) = l := by
  unfold Indent.unindentLine
  rw [if_pos ((Indent.startsWith_spaces_iff _ _).2 (List.prefix_append _ _)), List.drop_left' (Indent.length_spaces n),
    Indent.removeTrailing_eq_self (inked_last h)]

theorem unindentLine_spaces (n m : Nat) : Indent.unindentLine n (spaces m) = [] := by
  unfold Indent.unindentLine
  apply Indent.removeTrailing_eq_nil
  intro c hc
  split at hc
  · exact Indent.mem_spaces ((List.drop_sublist _ _).subset hc)
  · exact Indent.mem_spaces hc

/-- A block of code in a multi-line string of the generator: the margin disappears. -/
theorem unindent_block (n m : Nat) (first : Str) (rest : List Str) (hh : first.head? ≠ some ' ') (hb : ∀ l ∈ first :: rest, Inked l) :
    Indent.unindentCode (unlines ([[]] ++ (first :: rest).map (spaces n ++ ·) ++ [spaces m])) true = unlines (first :: rest) := by
  have hl : lines (unlines ([[]] ++ (first :: rest).map (spaces n ++ ·) ++ [spaces m])) = [[]] ++ (first :: rest).map (spaces n ++ ·) ++ [spaces m] := by
    refine lines_unlines (by simp) ?_
    intro l hl
    rw [List.mem_append, List.mem_append] at hl
    rcases hl with (hl | hl) | hl
    · rw [List.mem_singleton] at hl; subst hl; simp
    · obtain ⟨x, hx, rfl⟩ := List.mem_map.1 hl
      rw [List.mem_append, not_or]
      exact ⟨Indent.nl_not_mem_spaces n, (hb x hx).1⟩
    · rw [List.mem_singleton] at hl; subst hl; exact Indent.nl_not_mem_spaces m
  have hs : Indent.computeCodeIndentSize (unlines ([[]] ++ (first :: rest).map (spaces n ++ ·) ++ [spaces m])) = n := by
    unfold Indent.computeCodeIndentSize
    rw [hl]
    show Indent.indentSizeOfLines ([] :: (spaces n ++ first) :: (rest.map (spaces n ++ ·) ++ [spaces m])) = n
    rw [Indent.indentSizeOfLines, if_pos (by decide), Indent.indentSizeOfLines, if_neg, Indent.count_append_spaces n first hh]
    rw [Indent.replace_space_length]
    intro hall
    obtain ⟨_, a, c, rfl, hc⟩ := hb first (by simp)
    have := hall c (by simp)
    subst this
    revert hc; decide
  unfold Indent.unindentCode
  dsimp only
  rw [hs, hl, if_pos rfl]
  have hm : ([[]] ++ (first :: rest).map (spaces n ++ ·) ++ [spaces m]).map (Indent.unindentLine n) = [[]] ++ (first :: rest) ++ [[]] := by
    rw [List.map_append, List.map_append, List.map_map]
    have e0 : [([] : Str)].map (Indent.unindentLine n) = [[]] := by
      have := unindentLine_spaces n 0
      rw [List.map_singleton]
      exact congrArg (fun x => [x]) this
    have e1 : (first :: rest).map (Indent.unindentLine n ∘ fun x => spaces n ++ x) = first :: rest := by
      conv => rhs; rw [← List.map_id (first :: rest)]
      apply List.map_congr_left
      intro l hl
      exact unindentLine_inked n (hb l hl)
    rw [e0, e1, List.map_singleton, unindentLine_spaces]
  rw [hm]
  unfold Lines.stripEmptyLines Lines.stripEmptyLinesInList
  dsimp only
  rw [lines_unlines (by simp) (by
    intro l hl
    rw [List.mem_append, List.mem_append] at hl
    rcases hl with (hl | hl) | hl
    · rw [List.mem_singleton] at hl; subst hl; simp
    · exact (hb l hl).1
    · rw [List.mem_singleton] at hl; subst hl; simp)]
  have d1 : ([[]] ++ (first :: rest) ++ [[]]).dropWhile isBlank = (first :: rest) ++ [[]] := by
    show ([] :: (first :: rest ++ [[]])).dropWhile isBlank = _
    rw [List.dropWhile_cons_of_pos (by decide), List.cons_append, List.dropWhile_cons_of_neg (by rw [inked_not_blank (hb first (by simp))]; simp)]
  rw [d1, List.reverse_append]
  have d2 : (List.reverse [[]] ++ (first :: rest).reverse).dropWhile isBlank = (first :: rest).reverse := by
    show ([] :: (first :: rest).reverse).dropWhile isBlank = _
    rw [List.dropWhile_cons_of_pos (by decide)]
    cases hr : (first :: rest).reverse with
    | nil => rfl
    | cons x xs =>
      have hx : x ∈ first :: rest := by
        rw [← List.mem_reverse, hr]; simp
      rw [List.dropWhile_cons_of_neg (by rw [inked_not_blank (hb x hx)]; simp)]
  rw [d2, List.reverse_reverse]

end Verif.Cls
