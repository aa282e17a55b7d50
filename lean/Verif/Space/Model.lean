import Verif.Py.StrLemmas

/-! Model of the space normalisation helpers of `/repo/src/codemanip/code_utils.py`. -/

namespace Verif.Space
open Verif.Py

/-- One round of the loop, `/repo/src/codemanip/code_utils.py:529`: `result.replace("  ", " ")`. -/
def round (s : Str) : Str := replace s [' ', ' '] [' ']

/-- A round that changes something shortens the text (this is why the loop terminates). -/
theorem round_length (s : Str) : round s = s ∨ (round s).length < s.length := by
  suffices H : ∀ n (s : Str), s.length ≤ n → round s = s ∨ (round s).length < s.length from
    H _ s (Nat.le_refl _)
  intro n
  induction n with
  | zero => intro s hs; have : s = [] := by simpa using hs
            subst this; exact Or.inl rfl
  | succ n ih =>
    intro s hs
    match s, hs with
    | [], _ => exact Or.inl rfl
    | c :: r, hs =>
      simp at hs
      by_cases h : [' ', ' '] <+: (c :: r)
      · obtain ⟨t, ht⟩ := h
        right
        have : round (c :: r) = ' ' :: round t := by
          rw [← ht]; exact replace_match (by simp)
        have hl : (c :: r).length = t.length + 2 := by rw [← ht]; simp
        simp at hl
        rw [this]
        rcases ih t (by omega) with h | h
        · rw [h]; simp; omega
        · simp; omega
      · have e : round (c :: r) = c :: round r := replace_no_match h
        rw [e]
        rcases ih r hs with h | h
        · left; rw [h]
        · right; simp; omega

/-- The loop of `force_one_space`, `/repo/src/codemanip/code_utils.py:528-532`. -/
def loop (result : Str) : Str :=
  if h : round result = result then result else loop (round result)
termination_by result.length
decreasing_by
  rcases round_length result with e | e
  · exact absurd e h
  · exact e

/-- `/repo/src/codemanip/code_utils.py:524-533` `force_one_space`. -/
def forceOneSpace (code : Str) : Str :=
  loop (replace (replace (strip code) ['\n'] [' ']) ['\t'] [' '])

/-- `/repo/src/codemanip/code_utils.py:538`. -/
def separators : List Char := [',', '(', ')', '[', ']', ',', ';']

/-- `/repo/src/codemanip/code_utils.py:541-542`, the body of the loop over the separators. -/
def removeAround (result : Str) (sep : Char) : Str :=
  replace (replace result [sep, ' '] [sep]) [' ', sep] [sep]

/-- `/repo/src/codemanip/code_utils.py:536-544` `remove_redundant_spaces`. -/
def removeRedundantSpaces (code : Str) : Str := separators.foldl removeAround (forceOneSpace code)

/-- `/repo/src/codemanip/code_utils.py:547-555` `shorten_lines_containing_only_spaces`. -/
def shortenLinesContainingOnlySpaces (code : Str) : Str :=
  unlines ((lines code).map (fun l => if (strip l).length > 0 then l else []))

end Verif.Space
