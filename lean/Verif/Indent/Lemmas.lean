import Verif.Py.StrLemmas
import Verif.Indent.Model
import Verif.Indent.Spec

namespace Verif.Indent
open Verif.Py

@[simp] theorem spaces_zero : spaces 0 = [] := rfl
theorem spaces_succ (n : Nat) : spaces (n + 1) = ' ' :: spaces n := rfl
@[simp] theorem length_spaces (n : Nat) : (spaces n).length = n := by simp [spaces]
theorem mem_spaces {n : Nat} {c : Char} (h : c ∈ spaces n) : c = ' ' := by
  simp [spaces, List.mem_replicate] at h; exact h.2
theorem nl_not_mem_spaces (n : Nat) : '\n' ∉ spaces n := fun h => absurd (mem_spaces h) (by decide)
theorem isSpace_space : isSpace ' ' = true := by decide
theorem eq_spaces {l : Str} (h : ∀ c ∈ l, c = ' ') : l = spaces l.length := by
  rw [spaces, List.eq_replicate_iff]; exact ⟨rfl, h⟩
theorem spaces_add (a b : Nat) : spaces (a + b) = spaces a ++ spaces b := by
  simp [spaces, List.replicate_append_replicate]

theorem count_spec (l : Str) :
    ∃ rest, l = spaces (countSpacesAtStartOfLine l) ++ rest ∧ rest.head? ≠ some ' ' := by
  induction l with
  | nil => exact ⟨[], rfl, by simp⟩
  | cons c cs ih =>
    unfold countSpacesAtStartOfLine
    split
    · rename_i h; subst h
      obtain ⟨rest, h1, h2⟩ := ih
      exact ⟨rest, by rw [spaces_succ, List.cons_append, ← h1], h2⟩
    · rename_i h
      exact ⟨c :: cs, rfl, by simpa using h⟩

theorem count_append_spaces (k : Nat) (rest : Str) (h : rest.head? ≠ some ' ') :
    countSpacesAtStartOfLine (spaces k ++ rest) = k := by
  induction k with
  | zero =>
    cases rest with
    | nil => rfl
    | cons c cs =>
      have : c ≠ ' ' := by simpa using h
      simp [countSpacesAtStartOfLine, this]
  | succ k ih => rw [spaces_succ, List.cons_append, countSpacesAtStartOfLine, if_pos rfl, ih]

theorem replace_space_length (l : Str) :
    (replace l [' '] []).length = 0 ↔ ∀ c ∈ l, c = ' ' := by
  rw [List.length_eq_zero_iff, replace_char]
  simp only [List.flatMap_eq_nil_iff]
  constructor
  · intro h c hc
    have := h c hc
    by_cases e : c = ' '
    · exact e
    · simp [e] at this
  · intro h c hc; simp [h c hc]

theorem margin_spec (ls : List Str) : Spec.Margin ls (indentSizeOfLines ls) := by
  induction ls with
  | nil => left; simp [indentSizeOfLines]
  | cons l ls ih =>
    unfold indentSizeOfLines
    split
    · rename_i h
      rw [replace_space_length] at h
      rcases ih with ⟨h1, h2⟩ | ⟨b, f, a, h1, h2, h3, h4⟩
      · left
        refine ⟨h1, ?_⟩
        intro m hm
        rcases List.mem_cons.1 hm with rfl | hm
        · exact h
        · exact h2 m hm
      · right
        refine ⟨l :: b, f, a, by simp [h1], ?_, h3, h4⟩
        intro m hm
        rcases List.mem_cons.1 hm with rfl | hm
        · exact h
        · exact h2 m hm
    · rename_i h
      rw [replace_space_length] at h
      right
      refine ⟨[], l, ls, rfl, by simp, ?_, count_spec l⟩
      simpa using h

theorem margin_unique {ls : List Str} {m k : Nat} (h1 : Spec.Margin ls m) (h2 : Spec.Margin ls k) :
    m = k := by
  rcases h1 with ⟨rfl, h1⟩ | ⟨b, f, a, rfl, h12, ⟨c, hc, hcs⟩, r, h14, h15⟩
  · rcases h2 with ⟨rfl, h2⟩ | ⟨b, f, a, rfl, h22, ⟨c, hc, hcs⟩, h24⟩
    · rfl
    · exact absurd (h1 f (by simp) c hc) hcs
  · rcases h2 with ⟨rfl, h2⟩ | ⟨b', f', a', h21, h22, ⟨c', hc', hcs'⟩, r', h24, h25⟩
    · exact absurd (h2 f (by simp) c hc) hcs
    · have hf : f = f' := by
        rcases List.append_eq_append_iff.1 h21 with ⟨z, e1, e2⟩ | ⟨z, e1, e2⟩
        · cases z with
          | nil => simp at e2; exact e2.1
          | cons z0 z =>
            simp at e2
            have : f ∈ b' := by rw [e1, e2.1]; simp
            exact absurd (h22 f this c hc) hcs
        · cases z with
          | nil => simp at e2; exact e2.1.symm
          | cons z0 z =>
            simp at e2
            have : f' ∈ b := by rw [e1, e2.1]; simp
            exact absurd (h12 f' this c' hc') hcs'
      subst hf
      rw [← count_append_spaces m r h15, ← h14, h24, count_append_spaces k r' h25]

theorem removeTrailing_decomp (l : Str) :
    ∃ k, l = removeTrailingSpaces l ++ spaces k ∧ (removeTrailingSpaces l).getLast? ≠ some ' ' := by
  refine ⟨(l.reverse.takeWhile (· == ' ')).length, ?_, ?_⟩
  · have h : (l.reverse.takeWhile (· == ' ')) = spaces (l.reverse.takeWhile (· == ' ')).length := by
      apply eq_spaces
      intro c hc
      have := List.all_takeWhile (p := (· == ' ')) (l := l.reverse)
      rw [List.all_eq_true] at this
      simpa using this c hc
    have h' : (spaces (l.reverse.takeWhile (· == ' ')).length).reverse =
        spaces (l.reverse.takeWhile (· == ' ')).length := by simp [spaces]
    rw [← h', ← h]
    unfold removeTrailingSpaces
    rw [← List.reverse_append, List.takeWhile_append_dropWhile, List.reverse_reverse]
  · unfold removeTrailingSpaces
    rw [List.getLast?_reverse]
    have := List.head?_dropWhile_not (p := (· == ' ')) (l := l.reverse)
    intro h
    rw [h] at this
    simp at this

theorem removeTrailing_append {l : Str} {k : Nat} (h : l.getLast? ≠ some ' ') :
    removeTrailingSpaces (l ++ spaces k) = l := by
  unfold removeTrailingSpaces
  rw [List.reverse_append]
  have h1 : (spaces k).reverse = spaces k := by simp [spaces]
  rw [h1]
  have : List.dropWhile (· == ' ') (spaces k ++ l.reverse) = l.reverse := by
    induction k with
    | zero =>
      cases hl : l.reverse with
      | nil => rfl
      | cons c cs =>
        have : l.getLast? = some c := by rw [← List.head?_reverse, hl]; rfl
        rw [this] at h
        have : c ≠ ' ' := by simpa using h
        simp [this]
    | succ k ih => simpa [spaces_succ] using ih (by simp [spaces])
  rw [this, List.reverse_reverse]

theorem removeTrailing_eq_self {l : Str} (h : l.getLast? ≠ some ' ') : removeTrailingSpaces l = l := by
  have := removeTrailing_append (k := 0) h
  simpa using this

theorem removeTrailing_eq_nil {l : Str} (h : ∀ c ∈ l, c = ' ') : removeTrailingSpaces l = [] := by
  have e : l = [] ++ spaces l.length := by simpa using eq_spaces h
  rw [e]; exact removeTrailing_append (by simp)

theorem startsWith_spaces_iff (l : Str) (m : Nat) :
    startsWith l (spaces m) = true ↔ spaces m <+: l := by
  unfold startsWith; rw [List.isPrefixOf_iff_prefix]

theorem unindentLine_dedented (m : Nat) (l : Str) : Spec.Dedented m l (unindentLine m l) := by
  unfold unindentLine
  split
  · rename_i h
    rw [startsWith_spaces_iff] at h
    obtain ⟨r, rfl⟩ := h
    have e : (spaces m ++ r).drop m = r := by
      have := List.drop_left (l₁ := spaces m) (l₂ := r)
      rwa [length_spaces] at this
    rw [e]
    obtain ⟨k, h1, h2⟩ := removeTrailing_decomp r
    exact ⟨spaces m ++ removeTrailingSpaces r, k, by rw [List.append_assoc, ← h1], h2, Or.inl rfl⟩
  · rename_i h
    rw [startsWith_spaces_iff] at h
    obtain ⟨k, h1, h2⟩ := removeTrailing_decomp l
    exact ⟨removeTrailingSpaces l, k, h1, h2, Or.inr ⟨rfl, h⟩⟩

theorem unindentLine_no_nl {m : Nat} {l : Str} (h : '\n' ∉ l) : '\n' ∉ unindentLine m l := by
  have hsub : ∀ x : Str, '\n' ∉ x → '\n' ∉ removeTrailingSpaces x := by
    intro x hx hm
    obtain ⟨k, h1, _⟩ := removeTrailing_decomp x
    apply hx; rw [h1]; simp [hm]
  unfold unindentLine
  split
  · exact hsub _ (fun hm => h (List.mem_of_mem_drop hm))
  · exact hsub _ h

theorem lines_unindent (code : Str) :
    lines (unindentCode code) = (lines code).map (unindentLine (computeCodeIndentSize code)) := by
  unfold unindentCode
  simp only [Bool.false_eq_true, if_false]
  apply lines_unlines
  · simp [lines_ne_nil]
  · intro l hl
    obtain ⟨x, hx, rfl⟩ := List.mem_map.1 hl
    exact unindentLine_no_nl (not_mem_of_mem_lines hx)

theorem unindentLine_zero (l : Str) : unindentLine 0 l = removeTrailingSpaces l := by
  unfold unindentLine startsWith; simp

theorem lines_injective {a b : Str} (h : lines a = lines b) : a = b := by
  rw [← unlines_lines a, h, unlines_lines]

/-- After unindenting, the margin is 0. -/
theorem margin_after (code : Str) :
    Spec.Margin ((lines code).map (unindentLine (computeCodeIndentSize code))) 0 := by
  have hm := margin_spec (lines code)
  change Spec.Margin (lines code) (computeCodeIndentSize code) at hm
  rcases hm with ⟨h0, h⟩ | ⟨b, f, a, h1, h2, ⟨c, hc, hcs⟩, r, h3, h4⟩
  · left
    refine ⟨rfl, ?_⟩
    intro l hl
    obtain ⟨x, hx, rfl⟩ := List.mem_map.1 hl
    rw [h0, unindentLine_zero, removeTrailing_eq_nil (h x hx)]
    simp
  · right
    rw [h1]
    simp only [List.map_append, List.map_cons]
    refine ⟨_, _, _, rfl, ?_, ?_, ?_⟩
    · intro l hl
      obtain ⟨x, hx, rfl⟩ := List.mem_map.1 hl
      have hx' := h2 x hx
      unfold unindentLine
      split
      · rw [removeTrailing_eq_nil (fun c hc => hx' c (List.mem_of_mem_drop hc))]; simp
      · rw [removeTrailing_eq_nil hx']; simp
    all_goals
      have e : unindentLine (computeCodeIndentSize code) f = removeTrailingSpaces r := by
        generalize computeCodeIndentSize code = m at *
        unfold unindentLine
        rw [if_pos ((startsWith_spaces_iff f m).2 ⟨r, h3.symm⟩), h3]
        have := List.drop_left (l₁ := spaces m) (l₂ := r)
        rw [length_spaces] at this
        rw [this]
      rw [e]
      obtain ⟨k, h5, h6⟩ := removeTrailing_decomp r
    · have hcr : c ∈ r := by
        rw [h3] at hc
        rcases List.mem_append.1 hc with hc | hc
        · exact absurd (mem_spaces hc) hcs
        · exact hc
      rw [h5] at hcr
      rcases List.mem_append.1 hcr with hcr | hcr
      · exact ⟨c, hcr, hcs⟩
      · exact absurd (mem_spaces hcr) hcs
    · refine ⟨removeTrailingSpaces r, rfl, ?_⟩
      intro h
      apply h4
      cases hr : removeTrailingSpaces r with
      | nil => rw [hr] at h; simp at h
      | cons x xs => rw [h5, hr]; rw [hr] at h; simpa using h

theorem unindentLine_last (m : Nat) (l : Str) : (unindentLine m l).getLast? ≠ some ' ' := by
  unfold unindentLine
  exact (removeTrailing_decomp _).choose_spec.2

/-! ### indent -/

theorem rstrip_no_nl {l : Str} (h : '\n' ∉ l) : '\n' ∉ rstrip l := by
  obtain ⟨w, h1, _⟩ := rstrip_decomp l
  intro hm; apply h; rw [h1]; simp [hm]

theorem indentLine_no_nl {s l : Str} {b : Bool} (hs : '\n' ∉ s) (h : '\n' ∉ l) :
    '\n' ∉ indentLine s b l := by
  unfold indentLine
  split
  · simp
  · split
    · simp [hs, rstrip_no_nl h]
    · simp [hs, h]

/-- The indentation prefix used. -/
def prefixOf (k : Nat) (s : Option Str) : Str := s.getD (spaces k)

theorem lines_indentAll (code : Str) (k : Nat) (s : Option Str) (b : Bool)
    (hs : '\n' ∉ prefixOf k s) :
    lines (indentAll code k s b) = (lines code).map (indentLine (prefixOf k s) b) := by
  have e : indentAll code k s b = unlines ((lines code).map (indentLine (prefixOf k s) b)) := by
    cases s <;> rfl
  rw [e]
  apply lines_unlines
  · simp [lines_ne_nil]
  · intro l hl
    obtain ⟨x, hx, rfl⟩ := List.mem_map.1 hl
    exact indentLine_no_nl hs (not_mem_of_mem_lines hx)

end Verif.Indent
