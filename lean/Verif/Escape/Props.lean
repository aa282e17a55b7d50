import Verif.Escape.Lemmas

/-! Properties C11 (one-line comments inside C string literals) and C51 (multi-line comments). -/

namespace Verif.Escape
open Verif.Py

/-- C11 in full: whatever the comment, the formatted comment can be put between the quotes of a C
string literal: every quote is escaped, there is no line break, no backslash is left dangling. -/
def C11_statement : Prop :=
  ∀ comment : Option Str, Spec.LiteralBody (formatCppCommentOnOneLine comment)

/-- C11 fails: the comment made of one backslash is not escaped, the backslash is dangling and
escapes the closing quote of the literal. -/
theorem C11_fails : ¬ C11_statement := by
  intro h
  obtain ⟨es, hwf, he⟩ := h (some ['\\'])
  have e : formatCppCommentOnOneLine (some ['\\']) = ['\\'] := by decide
  rw [e] at he
  cases es with
  | nil => cases he
  | cons x xs =>
    cases x with
    | ordinary c =>
      have hw := hwf (.ordinary c) (by simp)
      have : '\\' :: [] = c :: Spec.text xs := he
      injection this with h1 h2
      exact hw.2.1 h1.symm
    | escape c =>
      have : ['\\'] = '\\' :: c :: Spec.text xs := he
      simp at this

/-- C11 for every other comment (missing: the comment that is exactly one backslash, for which it is
false by `C11_fails`). -/
theorem C11_literal_partial (comment : Option Str) (h : comment ≠ some ['\\']) :
    Spec.LiteralBody (formatCppCommentOnOneLine comment) := by
  cases comment with
  | none => exact ⟨[], by simp, rfl⟩
  | some s =>
    have hs : s ≠ ['\\'] := fun e => h (by rw [e])
    rw [format_eq s hs]
    have hw := elems_wf s
    split
    · exact ⟨elems s, fun e he => (hw e he).1, rfl⟩
    · obtain ⟨a, b, c, h1, _, h3⟩ := strip_text (elems s) (fun e he => (hw e he).2)
      exact ⟨b, fun e he => (hw e (by rw [h1]; simp [he])).1, h3⟩

example : (some "say \"hi\"\\".toList : Option Str) ≠ some ['\\'] := by decide
example : formatCppCommentOnOneLine (some "say \"hi\" \\ a\nb".toList)
    = "say \\\"hi\\\" \\\\ a\\nb".toList := by decide +kernel

/-- C11: the literal denotes the comment, all its characters: exactly if the comment has several
lines, up to surrounding white space (which is then removed) otherwise. Comments with backslashes are
excluded: for these a backslash followed by `n` is taken as a line break. -/
theorem C11_denotes (s : Str) (h : '\\' ∉ s) :
    ∃ v, Spec.Denotes (formatCppCommentOnOneLine (some s)) v ∧ strip v = strip s ∧
      ('\n' ∈ s → v = s) := by
  have hs : s ≠ ['\\'] := by rintro rfl; simp at h
  rw [format_eq s hs]
  have hw := elems_wf s
  have hv := elems_value s h
  split
  · exact ⟨s, ⟨elems s, fun e he => (hw e he).1, rfl, hv⟩, rfl, fun _ => rfl⟩
  · rename_i hm
    obtain ⟨a, b, c, h1, h2, h3⟩ := strip_text (elems s) (fun e he => (hw e he).2)
    rw [h1] at hv
    obtain ⟨w, hw1, hw2⟩ := denoted_part a b c s hv h2
    exact ⟨w, ⟨b, fun e he => (hw e (by rw [h1]; simp [he])).1, h3, hw1⟩, hw2, fun h => absurd h hm⟩

example : '\\' ∉ " two\n \"lines\"".toList := by decide

/-- C11, escapes: every escape sequence of the literal is one that C defines. -/
def C11_valid_escapes_statement : Prop :=
  ∀ comment : Str, comment ≠ ['\\'] →
    ∃ es, (∀ e ∈ es, Spec.Elem.WF e ∧ ∀ c, e = .escape c → c ∈ "ntrabfv\\'\"?x01234567".toList) ∧
      formatCppCommentOnOneLine (some comment) = Spec.text es

theorem text_cons_escape {es : List Spec.Elem} {c : Char} {r : Str} (hwf : ∀ e ∈ es, e.WF)
    (h : '\\' :: c :: r = Spec.text es) : ∃ es', es = .escape c :: es' ∧ r = Spec.text es' := by
  cases es with
  | nil => cases h
  | cons x xs =>
    cases x with
    | ordinary d =>
      have hw := hwf (.ordinary d) (by simp)
      have : '\\' :: c :: r = d :: Spec.text xs := h
      injection this with h1 h2
      exact absurd h1.symm hw.2.1
    | escape d =>
      have : '\\' :: c :: r = '\\' :: d :: Spec.text xs := h
      injection this with _ h2
      injection h2 with h3 h4
      subst h3
      exact ⟨xs, rfl, h4⟩

/-- C11, escapes, fails: a comment mentioning `\o` is emitted with the escape sequence `\o`, which C
does not define. -/
theorem C11_valid_escapes_fails : ¬ C11_valid_escapes_statement := by
  intro h
  obtain ⟨es, hwf, he⟩ := h ['\\', 'o'] (by decide)
  have e : formatCppCommentOnOneLine (some ['\\', 'o']) = ['\\', 'o'] := by decide
  rw [e] at he
  obtain ⟨es', rfl, _⟩ := text_cons_escape (fun x hx => (hwf x hx).1) he
  exact absurd ((hwf (.escape 'o') (by simp)).2 'o' rfl) (by decide)

/-- The elements without `\o` (and `\x`) in the comment. -/
theorem elems_no_ox (s : Str) (ho : contains s ['\\', 'o'] = false) (hx : contains s ['\\', 'x'] = false) :
    ∀ e ∈ elems s, ∀ c, e = .escape c → c ∈ ['n', 't', '"', '\'', '\\'] := by
  suffices H : ∀ n (s : Str), s.length ≤ n → contains s ['\\', 'o'] = false →
      contains s ['\\', 'x'] = false →
      ∀ e ∈ elems s, ∀ c, e = .escape c → c ∈ ['n', 't', '"', '\'', '\\'] from
    H _ s (Nat.le_refl _) ho hx
  intro n
  induction n with
  | zero => intro s hs _ _ e he; have : s = [] := by simpa using hs
            subst this; simp [elems] at he
  | succ n ih =>
    intro s hs ho hx e he c hc
    cases s with
    | nil => simp [elems] at he
    | cons a as =>
      simp at hs
      simp only [contains, Bool.or_eq_false_iff] at ho hx
      unfold elems at he
      by_cases h1 : a = '\n'
      · rw [if_pos h1] at he
        rcases List.mem_cons.1 he with rfl | he
        · cases hc; decide
        · exact ih as hs ho.2 hx.2 e he c hc
      · rw [if_neg h1] at he
        by_cases h2 : a = '"'
        · rw [if_pos h2] at he
          rcases List.mem_cons.1 he with rfl | he
          · cases hc; decide
          · exact ih as hs ho.2 hx.2 e he c hc
        · rw [if_neg h2] at he
          by_cases h3 : a = '\\'
          · subst h3
            rw [if_pos rfl] at he
            cases as with
            | nil => simp at he; subst he; cases hc; decide
            | cons d ds =>
              simp at hs
              simp only at he
              by_cases h4 : d ∈ ['n', 't', 'o', 'x', '\'']
              · rw [if_pos h4] at he
                rcases List.mem_cons.1 he with rfl | he
                · obtain rfl : d = c := by injection hc
                  have e1 : d ≠ 'o' := by rintro rfl; simp [List.isPrefixOf] at ho
                  have e2 : d ≠ 'x' := by rintro rfl; simp [List.isPrefixOf] at hx
                  simp at h4
                  rcases h4 with h | h | h | h | h
                  · simp [h]
                  · simp [h]
                  · exact absurd h e1
                  · exact absurd h e2
                  · simp [h]
                · have ho' := ho.2; have hx' := hx.2
                  simp only [contains, Bool.or_eq_false_iff] at ho' hx'
                  exact ih ds (by omega) ho'.2 hx'.2 e he c hc
              · rw [if_neg h4] at he
                rcases List.mem_cons.1 he with rfl | he
                · cases hc; decide
                · exact ih (d :: ds) (by simp; omega) ho.2 hx.2 e he c hc
          · rw [if_neg h3] at he
            rcases List.mem_cons.1 he with rfl | he
            · cases hc
            · exact ih as hs ho.2 hx.2 e he c hc

/-- C11, escapes, for comments that mention neither `\o` nor `\x` (missing: those; `\x` is a valid
escape only before hexadecimal digits). -/
theorem C11_valid_escapes_partial (s : Str) (h : s ≠ ['\\'])
    (ho : contains s ['\\', 'o'] = false) (hx : contains s ['\\', 'x'] = false) :
    ∃ es, (∀ e ∈ es, Spec.Elem.WF e ∧ ∀ c, e = .escape c → c ∈ ['n', 't', '"', '\'', '\\']) ∧
      formatCppCommentOnOneLine (some s) = Spec.text es := by
  rw [format_eq s h]
  have hw := elems_wf s
  have hn := elems_no_ox s ho hx
  split
  · exact ⟨elems s, fun e he => ⟨(hw e he).1, hn e he⟩, rfl⟩
  · obtain ⟨a, b, c, h1, _, h3⟩ := strip_text (elems s) (fun e he => (hw e he).2)
    exact ⟨b, fun e he => ⟨(hw e (by rw [h1]; simp [he])).1, hn e (by rw [h1]; simp [he])⟩, h3⟩

example : contains "C:\\temp \\ok".toList ['\\', 'x'] = false := by decide +kernel

/-! ### C51 -/

/-- C51: every line of a comment formatted for Python is the indentation, `# `, and the line of the
comment: nothing escapes the comment, and no line is lost. -/
theorem C51_python_comment (comment : Str) (n : Nat) :
    lines (formatPythonComment comment n) =
      (lines comment).map (fun l => List.replicate n ' ' ++ '#' :: ' ' :: l) := by
  unfold formatPythonComment
  rw [lines_unlines]
  · apply List.map_congr_left
    intro l _
    simp [spaces]
  · simp [lines_ne_nil]
  · intro l hl
    obtain ⟨x, hx, rfl⟩ := List.mem_map.1 hl
    have := not_mem_of_mem_lines hx
    simp [spaces, this, List.mem_replicate]

/-- C51: same for C++, with either an indentation string or an indentation size. -/
theorem C51_cpp_comment (comment : Str) (n : Nat) (ind : Str) (h : '\n' ∉ ind) :
    lines (formatCppCommentMultiline comment n ind) =
      (lines comment).map (fun l =>
        (if ind = [] then List.replicate n ' ' else ind) ++ '/' :: '/' :: ' ' :: l) := by
  unfold formatCppCommentMultiline
  simp only
  rw [lines_unlines]
  · apply List.map_congr_left
    intro l _
    by_cases hi : ind = []
    · simp [hi, spaces]
    · simp [hi]
  · simp [lines_ne_nil]
  · intro l hl
    obtain ⟨x, hx, rfl⟩ := List.mem_map.1 hl
    have := not_mem_of_mem_lines hx
    by_cases hi : ind = []
    · simp [spaces, this, List.mem_replicate, hi]
    · simp [this, hi, h]

example : '\n' ∉ "\t".toList := by decide

/-- C51: removing the markers of a one-line C++ comment gives back its text. -/
theorem C51_remove_markers (text : Str) (a b : Str) (ha : ∀ c ∈ a, isSpace c = true)
    (hb : ∀ c ∈ b, isSpace c = true) :
    cppCommentRemoveCommentMarkers ('/' :: '/' :: (a ++ text ++ b)) = strip text := by
  unfold cppCommentRemoveCommentMarkers
  rw [if_pos (by simp [startsWith, List.isPrefixOf])]
  show strip (a ++ text ++ b) = _
  exact strip_append ha hb

end Verif.Escape
