import Mathlib.Data.List.Forall2
import Verif.Indent.Lemmas
import Verif.Lines.Props

/-! Properties C03 (unindent) and C04 (indent, reindent). -/

namespace Verif.Indent
open Verif.Py

/-! ### C03 -/

/-- C03: `unindent_code` works line by line: the number of lines is kept and each line loses exactly
the margin of the text (when it starts with it) and its trailing spaces, nothing else. -/
theorem C03_unindent (code : Str) :
    ∃ m, Spec.Margin (lines code) m ∧
      List.Forall₂ (Spec.Dedented m) (lines code) (lines (unindentCode code)) := by
  refine ⟨computeCodeIndentSize code, margin_spec _, ?_⟩
  rw [lines_unindent]
  generalize lines code = ls
  induction ls with
  | nil => exact List.Forall₂.nil
  | cons l ls ih => exact List.Forall₂.cons (unindentLine_dedented _ l) ih

/-- C03: the margin is well defined. -/
theorem C03_margin_unique (ls : List Str) (m k : Nat) (h1 : Spec.Margin ls m)
    (h2 : Spec.Margin ls k) : m = k := margin_unique h1 h2

example : Spec.Margin (lines "\n    a\n      b".toList) 4 := by
  right
  exact ⟨[[]], "    a".toList, ["      b".toList], by decide, by simp, ⟨'a', by decide, by decide⟩,
    "a".toList, by decide, by decide⟩

/-- C03: relative indentation is kept: a line with `m + j` leading spaces and some text keeps exactly
`j` of them. -/
theorem C03_relative_indentation (code : Str) (m j : Nat) (l text : Str) (c : Char)
    (hm : Spec.Margin (lines code) m) (hl : l ∈ lines code)
    (he : l = spaces (m + j) ++ c :: text) (hc : c ≠ ' ') :
    ∃ text' k, c :: text = text' ++ spaces k ∧ text'.head? = some c ∧
      spaces j ++ text' ∈ lines (unindentCode code) := by
  have hm' : computeCodeIndentSize code = m := margin_unique (margin_spec _) hm
  rw [lines_unindent, hm']
  obtain ⟨k, h1, h2⟩ := removeTrailing_decomp (c :: text)
  have hne : removeTrailingSpaces (c :: text) ≠ [] := by
    intro h
    rw [h] at h1
    have : c ∈ spaces k := by
      have : c ∈ c :: text := by simp
      rw [h1] at this; simpa using this
    exact hc (mem_spaces this)
  refine ⟨removeTrailingSpaces (c :: text), k, h1, ?_, ?_⟩
  · cases h : removeTrailingSpaces (c :: text) with
    | nil => exact absurd h hne
    | cons x xs => rw [h] at h1; simp at h1; simp [h1.1]
  · rw [List.mem_map]
    refine ⟨l, hl, ?_⟩
    unfold unindentLine
    have hs : startsWith l (spaces m) = true := by
      rw [startsWith_spaces_iff, he, spaces_add, List.append_assoc]
      exact List.prefix_append _ _
    rw [if_pos hs, he, spaces_add, List.append_assoc]
    have hd := List.drop_left (l₁ := spaces m) (l₂ := spaces j ++ c :: text)
    rw [length_spaces] at hd
    rw [hd]
    conv => lhs; rw [h1, ← List.append_assoc]
    apply removeTrailing_append
    rw [List.getLast?_append]
    cases h : (removeTrailingSpaces (c :: text)).getLast? with
    | none => exact absurd (List.getLast?_eq_none_iff.1 h) hne
    | some x => rw [h] at h2; simpa using h2

example : "      b".toList ∈ lines "\n    a\n      b".toList ∧
    "      b".toList = spaces (4 + 2) ++ 'b' :: [] ∧ 'b' ≠ ' ' := by decide

/-- C03: unindenting twice is unindenting once. -/
theorem C03_unindent_idempotent (code : Str) :
    unindentCode (unindentCode code) = unindentCode code := by
  apply lines_injective
  have h0 : computeCodeIndentSize (unindentCode code) = 0 := by
    have h := margin_spec (lines (unindentCode code))
    have h' := margin_after code
    rw [← lines_unindent] at h'
    exact margin_unique h h'
  rw [lines_unindent (unindentCode code), h0]
  conv => rhs; rw [← List.map_id (lines (unindentCode code))]
  apply List.map_congr_left
  intro l hl
  rw [lines_unindent] at hl
  obtain ⟨x, _, rfl⟩ := List.mem_map.1 hl
  rw [unindentLine_zero]
  exact removeTrailing_eq_self (unindentLine_last _ _)

/-- C03: with `flag_strip_empty_lines` the blank lines at both ends of the unindented text are
removed as well, and nothing else. -/
theorem C03_unindent_strip (code : Str) :
    ∃ before kept after, lines (unindentCode code) = before ++ kept ++ after ∧
      unindentCode code true = unlines kept ∧
      (∀ l ∈ before, Lines.Spec.Blank l) ∧ (∀ l ∈ after, Lines.Spec.Blank l) ∧
      (∀ l ∈ kept.head?, ¬ Lines.Spec.Blank l) ∧ (∀ l ∈ kept.getLast?, ¬ Lines.Spec.Blank l) :=
  Lines.C02_strip_empty_lines (unindentCode code)

/-! ### C04 -/

/-- C04: `indent_code` works line by line: empty lines stay empty, every other line is its
right-stripped text behind the indentation (`indent_str` if given, else `indent_size` spaces). -/
theorem C04_indent (code : Str) (k : Nat) (s : Option Str) (hs : '\n' ∉ s.getD (spaces k)) :
    List.Forall₂ (fun l out => (l = [] ∧ out = []) ∨
        (l ≠ [] ∧ ∃ text blanks, l = text ++ blanks ∧ Lines.Spec.Blank blanks ∧
          (∀ c ∈ text.getLast?, isSpace c = false) ∧ out = s.getD (spaces k) ++ text))
      (lines code) (lines (indentCode code k false s)) := by
  have e : indentCode code k false s = indentAll code k s true := rfl
  rw [e, lines_indentAll code k s true hs]
  generalize lines code = ls
  induction ls with
  | nil => exact List.Forall₂.nil
  | cons l ls ih =>
    refine List.Forall₂.cons ?_ ih
    unfold indentLine
    by_cases hl : l = []
    · left; simp [hl]
    · right
      obtain ⟨w, h1, h2⟩ := rstrip_decomp l
      refine ⟨hl, rstrip l, w, h1, h2, ?_, ?_⟩
      · intro c hc
        rcases rstrip_last l with h | ⟨a, d, h, hd⟩
        · rw [h] at hc; simp at hc
        · rw [h] at hc; simp at hc; rw [← hc]; exact hd
      · have : l.length ≠ 0 := by simpa using hl
        simp [this, prefixOf]

example : '\n' ∉ (none : Option Str).getD (spaces 4) := by decide

/-- C04: without right-stripping (`rstrip=False`) the text of the lines is untouched. -/
theorem C04_indent_no_rstrip (code : Str) (k : Nat) (s : Option Str)
    (hs : '\n' ∉ s.getD (spaces k)) :
    List.Forall₂ (fun l out => (l = [] ∧ out = []) ∨ (l ≠ [] ∧ out = s.getD (spaces k) ++ l))
      (lines code) (lines (indentCode code k false s false)) := by
  have e : indentCode code k false s false = indentAll code k s false := rfl
  rw [e, lines_indentAll code k s false hs]
  generalize lines code = ls
  induction ls with
  | nil => exact List.Forall₂.nil
  | cons l ls ih =>
    refine List.Forall₂.cons ?_ ih
    unfold indentLine
    by_cases hl : l = []
    · left; simp [hl]
    · right
      have : l.length ≠ 0 := by simpa using hl
      simp [this, hl, prefixOf]

/-- C04: with `skip_first_line`, the first line is not indented and the others are indented as usual;
a one-line text is returned as it is. -/
theorem C04_indent_skip_first (code : Str) (k : Nat) (s : Option Str)
    (hs : '\n' ∉ s.getD (spaces k)) :
    (∀ l, lines code = [l] → indentCode code k true s = code) ∧
    (∀ l ls, lines code = l :: ls → ls ≠ [] →
      lines (indentCode code k true s) = rstrip l :: lines (indentCode (unlines ls) k false s)) := by
  constructor
  · intro l hl
    simp [indentCode, hl]
  · intro l ls hl hne
    have e : indentCode code k true s =
        rstrip l ++ '\n' :: indentCode (unlines ls) k false s := by
      cases ls with
      | nil => exact absurd rfl hne
      | cons m ms => simp [indentCode, hl]
    rw [e]
    have : '\n' ∉ rstrip l := rstrip_no_nl (not_mem_of_mem_lines (s := code) (by simp [hl]))
    exact splitOn_append_sep this _

example : lines "a\nb".toList = "a".toList :: ["b".toList] ∧ ["b".toList] ≠ [] := by decide

/-- C04: round trip. If the first line that is not blank starts in column 0, unindenting the indented
text gives the original text back, up to the white space at the end of its lines. -/
theorem C04_unindent_indent (code : Str) (k : Nat)
    (h : (∀ l ∈ lines code, Lines.Spec.Blank l) ∨
      ∃ before c text after, lines code = before ++ (c :: text) :: after ∧
        (∀ l ∈ before, Lines.Spec.Blank l) ∧ isSpace c = false) :
    unindentCode (indentCode code k) = unlines ((lines code).map rstrip) := by
  have hi : lines (indentCode code k) = (lines code).map (indentLine (spaces k) true) :=
    lines_indentAll code k none true (nl_not_mem_spaces k)
  have blank_out : ∀ l, Lines.Spec.Blank l → ∀ c ∈ indentLine (spaces k) true l, c = ' ' := by
    intro l hl c hc
    unfold indentLine at hc
    split at hc
    · simp at hc
    · simp [(rstrip_eq_nil_iff l).2 hl] at hc
      exact mem_spaces hc
  have hline : ∀ m, (m = k ∨ ∀ l ∈ lines code, Lines.Spec.Blank l) →
      ∀ l ∈ lines code, unindentLine m (indentLine (spaces k) true l) = rstrip l := by
    intro m hm l hl
    by_cases hb : Lines.Spec.Blank l
    · have h1 := blank_out l hb
      rw [(rstrip_eq_nil_iff l).2 hb]
      unfold unindentLine
      split
      · exact removeTrailing_eq_nil (fun c hc => h1 c (List.mem_of_mem_drop hc))
      · exact removeTrailing_eq_nil h1
    · rcases hm with rfl | hm
      · have hne : l ≠ [] := by rintro rfl; exact hb (fun c hc => by simp at hc)
        have : l.length ≠ 0 := by simpa using hne
        have e : indentLine (spaces m) true l = spaces m ++ rstrip l := by simp [indentLine, this]
        rw [e]
        unfold unindentLine
        rw [if_pos ((startsWith_spaces_iff _ m).2 (List.prefix_append _ _))]
        have hd := List.drop_left (l₁ := spaces m) (l₂ := rstrip l)
        rw [length_spaces] at hd
        rw [hd]
        apply removeTrailing_eq_self
        rcases rstrip_last l with h | ⟨a, d, h, hd⟩
        · rw [h]; simp
        · rw [h]
          simp
          rintro rfl
          exact absurd hd (by decide)
      · exact absurd (hm l hl) hb
  have key : ∀ m, computeCodeIndentSize (indentCode code k) = m →
      (m = k ∨ ∀ l ∈ lines code, Lines.Spec.Blank l) →
      unindentCode (indentCode code k) = unlines ((lines code).map rstrip) := by
    intro m hm hcase
    have : unindentCode (indentCode code k) =
        unlines ((lines (indentCode code k)).map (unindentLine m)) := by
      rw [← hm]; rfl
    rw [this, hi, List.map_map]
    congr 1
    apply List.map_congr_left
    intro l hl
    exact hline m hcase l hl
  rcases h with h | ⟨b, c, t, a, h1, h2, h3⟩
  · exact key _ rfl (Or.inr h)
  · refine key k ?_ (Or.inl rfl)
    apply margin_unique (margin_spec _)
    right
    rw [hi, h1]
    simp only [List.map_append, List.map_cons]
    have hr : rstrip (c :: t) ≠ [] := by
      intro hn
      have := (rstrip_eq_nil_iff _).1 hn c (by simp)
      rw [h3] at this; exact Bool.noConfusion this
    have hhead : ∃ t', rstrip (c :: t) = c :: t' := by
      obtain ⟨w, h5, _⟩ := rstrip_decomp (c :: t)
      cases hx : rstrip (c :: t) with
      | nil => exact absurd hx hr
      | cons x xs => rw [hx] at h5; simp at h5; exact ⟨xs, by rw [h5.1]⟩
    obtain ⟨t', ht'⟩ := hhead
    have hc : c ≠ ' ' := by rintro rfl; exact absurd h3 (by decide)
    have e : indentLine (spaces k) true (c :: t) = spaces k ++ c :: t' := by simp [indentLine, ht']
    refine ⟨_, _, _, rfl, ?_, ?_, ?_⟩
    · intro l hl
      obtain ⟨x, hx, rfl⟩ := List.mem_map.1 hl
      exact blank_out x (h2 x hx)
    · exact ⟨c, by rw [e]; simp, hc⟩
    · exact ⟨c :: t', e, by simpa using hc⟩

example : ∃ before c text after, lines "\nif a:\n    b".toList = before ++ (c :: text) :: after ∧
    (∀ l ∈ before, Lines.Spec.Blank l) ∧ isSpace c = false :=
  ⟨[[]], 'i', "f a:".toList, ["    b".toList], by decide, by decide, by decide⟩

/-- C04: what the signature of `reindent_code(code, indent_size)` promises. -/
def C04_reindent_statement : Prop :=
  ∀ (code : Str) (k : Nat), reindentCode code k = indentCode (unindentCode code) k

/-- It is false of the code: the default `indent_str=""` is passed on instead of `None`, so
`indent_size` is ignored. Witness: `reindent_code("a", 4)` is `"a"`. -/
theorem C04_reindent_fails : ¬ C04_reindent_statement := by
  intro h
  have := h "a".toList 4
  exact absurd this (by decide)

/-- C04 (partial): with an explicit indentation string, `reindent_code` removes the margin and
puts the given one. Missing: the default call, see `C04_reindent_fails`. -/
theorem C04_reindent_partial (code s : Str) (k : Nat) (hs : '\n' ∉ s) :
    List.Forall₂ (fun l out => (l = [] ∧ out = []) ∨
        (l ≠ [] ∧ ∃ text blanks, l = text ++ blanks ∧ Lines.Spec.Blank blanks ∧
          (∀ c ∈ text.getLast?, isSpace c = false) ∧ out = s ++ text))
      (lines (unindentCode code)) (lines (reindentCode code k false s)) :=
  C04_indent (unindentCode code) k (some s) hs

example : '\n' ∉ "\t".toList := by decide

/-- C04: `indent_code_force` gives every line the same indentation and keeps its stripped text. -/
theorem C04_indent_force (code s : Str) (k : Nat) (hs : '\n' ∉ s) :
    lines (indentCodeForce code k s) =
      (lines code).map (fun l => (if s = [] then spaces k else s) ++ strip l) := by
  unfold indentCodeForce
  have hv : (if s.length = 0 then spaces k else s) = if s = [] then spaces k else s := by
    simp
  simp only [hv]
  apply lines_unlines
  · simp [lines_ne_nil]
  · intro l hl
    obtain ⟨x, hx, rfl⟩ := List.mem_map.1 hl
    have hx := not_mem_of_mem_lines hx
    have hstrip : '\n' ∉ strip x := by
      intro hm
      obtain ⟨w, h1, _⟩ := lstrip_decomp x
      obtain ⟨w', h2, _⟩ := rstrip_decomp (lstrip x)
      apply hx; rw [h1, h2]; unfold strip at hm; simp [hm]
    split <;> simp [hs, nl_not_mem_spaces, hstrip]

end Verif.Indent
