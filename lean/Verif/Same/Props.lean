import Verif.Same.Model
import Verif.Same.Spec
import Verif.Indent.Props
import Verif.Lines.Props

/-! Property C125: which codes the tests of the project take for the same. -/

namespace Verif.Same.Props
open Verif.Py

theorem dedented_eq {m : Nat} {l out : Str} (h : Indent.Spec.Dedented m l out) : out = Indent.unindentLine m l := by
  obtain ⟨body, t, h1, h2, h3 | ⟨h3, h4⟩⟩ := h
  · have e : l = spaces m ++ (out ++ spaces t) := by rw [h1, h3, List.append_assoc]
    have hp : startsWith l (spaces m) = true := (Indent.startsWith_spaces_iff l m).2 (e ▸ List.prefix_append _ _)
    unfold Indent.unindentLine
    rw [if_pos hp]
    have hd : l.drop m = out ++ spaces t := by
      rw [e]
      have := List.drop_left (l₁ := spaces m) (l₂ := out ++ spaces t)
      rwa [Indent.length_spaces] at this
    rw [hd, Indent.removeTrailing_append h2]
  · have hp : ¬ startsWith l (spaces m) = true := fun h => h4 ((Indent.startsWith_spaces_iff l m).1 h)
    unfold Indent.unindentLine
    rw [if_neg hp, h1, h3, Indent.removeTrailing_append h2]

theorem forall2_eq {m : Nat} {ls out : List Str} (h : List.Forall₂ (Indent.Spec.Dedented m) ls out) :
    out = ls.map (Indent.unindentLine m) := by
  induction h with
  | nil => rfl
  | cons h _ ih => rw [List.map_cons, ← dedented_eq h, ← ih]

/-- A decidable form of blank lines. -/
def bl (l : Str) : Bool := decide (Lines.Spec.Blank l)

theorem dropWhile_skip {a k : List Str} (ha : ∀ l ∈ a, Lines.Spec.Blank l) (hk : ∀ l ∈ k.head?, ¬ Lines.Spec.Blank l) :
    (a ++ k).dropWhile bl = k := by
  induction a with
  | nil =>
    cases k with
    | nil => rfl
    | cons x k =>
      have : bl x = false := decide_eq_false (hk x rfl)
      rw [List.nil_append, List.dropWhile_cons, this]; rfl
  | cons x a ih =>
    have : bl x = true := decide_eq_true (ha x (List.mem_cons_self ..))
    rw [List.cons_append, List.dropWhile_cons, this, if_pos rfl, ih (fun l hl => ha l (List.mem_cons_of_mem _ hl))]

theorem dropWhile_blank {a : List Str} (ha : ∀ l ∈ a, Lines.Spec.Blank l) : a.dropWhile bl = [] := by
  have := dropWhile_skip (k := []) ha (by intro l hl; cases hl)
  rwa [List.append_nil] at this

theorem kept_eq {b k a : List Str} (hb : ∀ l ∈ b, Lines.Spec.Blank l) (ha : ∀ l ∈ a, Lines.Spec.Blank l)
    (hk : ∀ l ∈ k.head?, ¬ Lines.Spec.Blank l) (hl : ∀ l ∈ k.getLast?, ¬ Lines.Spec.Blank l) :
    k = (((b ++ k ++ a).dropWhile bl).reverse.dropWhile bl).reverse := by
  cases k with
  | nil =>
    have : ∀ l ∈ b ++ [] ++ a, Lines.Spec.Blank l := by
      intro l h
      rcases List.mem_append.1 h with h | h
      · rcases List.mem_append.1 h with h | h
        · exact hb l h
        · cases h
      · exact ha l h
    rw [dropWhile_blank this]; rfl
  | cons x k =>
    rw [List.append_assoc, dropWhile_skip hb (k := x :: k ++ a) (fun l h => hk l h), List.reverse_append,
      dropWhile_skip (fun l h => ha l (List.mem_reverse.1 h)) (by intro l h; rw [List.head?_reverse] at h; exact hl l h),
      List.reverse_reverse]

/-- The lines that are read in a code. -/
theorem reads_processed (code : Str) : ∃ kept, Spec.Reads code kept ∧ processed code = unlines kept ∧ ∀ l ∈ kept, '\n' ∉ l := by
  obtain ⟨m, hm, hf⟩ := Indent.C03_unindent code
  obtain ⟨b, k, a, h1, h2, h3, h4, h5, h6⟩ := Lines.C02_strip_empty_lines (Indent.unindentCode code)
  refine ⟨k, ⟨m, _, b, a, hm, hf, h1, h3, h4, h5, h6⟩, h2, ?_⟩
  intro l hl
  exact not_mem_of_mem_lines (s := Indent.unindentCode code) (by rw [h1]; simp [hl])

theorem reads_unique {code : Str} {k1 k2 : List Str} (h1 : Spec.Reads code k1) (h2 : Spec.Reads code k2) : k1 = k2 := by
  obtain ⟨m, o, b, a, hm, hf, e, hb, ha, hk, hl⟩ := h1
  obtain ⟨m', o', b', a', hm', hf', e', hb', ha', hk', hl'⟩ := h2
  have hmm := Indent.margin_unique hm hm'
  subst hmm
  have ho : o = o' := (forall2_eq hf).trans (forall2_eq hf').symm
  rw [kept_eq hb ha hk hl, kept_eq hb' ha' hk' hl', ← e, ← e', ho]

theorem unlines_inj {k1 k2 : List Str} (h1 : ∀ l ∈ k1, '\n' ∉ l) (h2 : ∀ l ∈ k2, '\n' ∉ l) (b1 : ∀ l ∈ k1.head?, ¬ Lines.Spec.Blank l)
    (b2 : ∀ l ∈ k2.head?, ¬ Lines.Spec.Blank l) (h : unlines k1 = unlines k2) : k1 = k2 := by
  have blank : ¬ ¬ Lines.Spec.Blank [] := fun h => h (by intro c hc; cases hc)
  have single : ∀ k : List Str, k ≠ [] → (∀ l ∈ k, '\n' ∉ l) → (∀ l ∈ k.head?, ¬ Lines.Spec.Blank l) → unlines k ≠ unlines [] := by
    intro k hk hn hb e
    have := lines_unlines hk hn
    rw [e] at this
    have e0 : lines (unlines []) = [[]] := by decide
    rw [e0] at this
    exact blank (hb [] (by rw [← this]; rfl))
  by_cases e1 : k1 = []
  · by_cases e2 : k2 = []
    · rw [e1, e2]
    · exact absurd (by rw [← h, e1]) (single k2 e2 h2 b2)
  · by_cases e2 : k2 = []
    · exact absurd (by rw [h, e2]) (single k1 e1 h1 b1)
    · rw [← lines_unlines e1 h1, h, lines_unlines e2 h2]

/-- C125. For every two codes: they are taken for the same exactly if a reader sees the same lines in them, namely the lines without the margin and
the blanks at the ends, from the first to the last that is not blank. -/
theorem C125_same (generated expected : Str) :
    codesEqual generated expected = true ↔ ∃ kept, Spec.Reads generated kept ∧ Spec.Reads expected kept := by
  obtain ⟨k1, r1, e1, n1⟩ := reads_processed generated
  obtain ⟨k2, r2, e2, n2⟩ := reads_processed expected
  unfold codesEqual
  rw [beq_iff_eq, e1, e2]
  constructor
  · intro h
    have hk : k1 = k2 := by
      obtain ⟨_, _, _, _, _, _, _, _, _, hb1, _⟩ := r1
      obtain ⟨_, _, _, _, _, _, _, _, _, hb2, _⟩ := r2
      exact unlines_inj n1 n2 hb1 hb2 h
    exact ⟨k1, r1, hk ▸ r2⟩
  · rintro ⟨k, s1, s2⟩
    rw [reads_unique r1 s1, reads_unique r2 s2]

/-- Two codes with other margins and other blank lines are the same. -/
example : codesEqual "\n    if a:\n        b\n".toList "if a:  \n    b".toList = true := by
  repeat rw [String.toList_ofList]
  decide +kernel

example : codesEqual "if a:\n    b".toList "if a:\nb".toList = false := by
  repeat rw [String.toList_ofList]
  decide +kernel

/-- C125. Being taken for the same is an equivalence. -/
theorem C125_equivalence : Equivalence (fun a b => codesEqual a b = true) where
  refl a := by unfold codesEqual; exact beq_self_eq_true _
  symm h := by unfold codesEqual at *; rw [beq_iff_eq] at *; exact h.symm
  trans h1 h2 := by unfold codesEqual at *; rw [beq_iff_eq] at *; exact h1.trans h2

/-- C125, full: a code moved to the right is taken for the same. -/
def C125_shift_statement : Prop := ∀ (code : Str) (k : Nat), codesEqual (Spec.shift k code) code = true

/-- The last line of this code is less indented than the first. -/
theorem C125_shift_fails : ¬ C125_shift_statement := by
  intro h
  have := h "  a\nb".toList 1
  revert this
  rw [String.toList_ofList]
  decide +kernel

/-- C125, full: codes that are taken for the same differ by their margins, the blanks at the ends of their lines and the blank lines around
them only. -/
def C125_margin_statement : Prop :=
  ∀ a b : Str, codesEqual a b = true → (∀ l ∈ lines a ++ lines b, ¬ Lines.Spec.Blank l ∧ l.getLast? ≠ some ' ') →
    ∃ k, a = Spec.shift k b ∨ b = Spec.shift k a

/-- Of two lines, the first is moved by two blanks and the second is not. -/
theorem C125_margin_fails : ¬ C125_margin_statement := by
  intro h
  have h1 : codesEqual "  a\n b".toList "a\n b".toList = true := by
    repeat rw [String.toList_ofList]
    decide +kernel
  have h2 : ∀ l ∈ lines "  a\n b".toList ++ lines "a\n b".toList, ¬ Lines.Spec.Blank l ∧ l.getLast? ≠ some ' ' := by
    repeat rw [String.toList_ofList]
    decide +kernel
  have e := h _ _ h1 h2
  repeat rw [String.toList_ofList] at e
  have la : lines [' ', ' ', 'a', '\n', ' ', 'b'] = [[' ', ' ', 'a'], [' ', 'b']] := by decide +kernel
  have lb : lines ['a', '\n', ' ', 'b'] = [['a'], [' ', 'b']] := by decide +kernel
  have nn : ∀ (k : Nat) (x : Str), (∀ l ∈ (lines x).map (spaces k ++ ·), '\n' ∉ l) := by
    intro k x l hl
    obtain ⟨y, hy, rfl⟩ := List.mem_map.1 hl
    intro hm
    rcases List.mem_append.1 hm with hm | hm
    · exact Indent.nl_not_mem_spaces k hm
    · exact not_mem_of_mem_lines hy hm
  obtain ⟨k, e | e⟩ := e
  · have e' := congrArg lines e
    unfold Spec.shift at e'
    rw [lines_unlines (by rw [lb]; simp) (nn k _), la, lb] at e'
    simp only [List.map_cons, List.map_nil, List.cons.injEq, and_true] at e'
    have l1 := congrArg List.length e'.1
    have l2 := congrArg List.length e'.2
    simp only [List.length_append, Indent.length_spaces, List.length_cons, List.length_nil] at l1 l2
    omega
  · have e' := congrArg lines e
    unfold Spec.shift at e'
    rw [lines_unlines (by rw [la]; simp) (nn k _), la, lb] at e'
    simp only [List.map_cons, List.map_nil, List.cons.injEq, and_true] at e'
    have l1 := congrArg List.length e'.1
    simp only [List.length_append, Indent.length_spaces, List.length_cons, List.length_nil] at l1
    omega

theorem margin_shift {ls : List Str} {m : Nat} (k : Nat) (h : Indent.Spec.Margin ls m) (hn : ∃ l ∈ ls, ∃ c ∈ l, c ≠ ' ') :
    Indent.Spec.Margin (ls.map (spaces k ++ ·)) (k + m) := by
  rcases h with ⟨_, h⟩ | ⟨b, f, a, e, h2, ⟨c, hc, hcs⟩, r, h3, h4⟩
  · obtain ⟨l, hl, c, hc, hcs⟩ := hn
    exact absurd (h l hl c hc) hcs
  · right
    refine ⟨b.map (spaces k ++ ·), spaces k ++ f, a.map (spaces k ++ ·), by rw [e, List.map_append, List.map_cons], ?_,
      ⟨c, List.mem_append_right _ hc, hcs⟩, r, by rw [h3, Indent.spaces_add, List.append_assoc], h4⟩
    intro l hl c hc
    obtain ⟨y, hy, rfl⟩ := List.mem_map.1 hl
    rcases List.mem_append.1 hc with hc | hc
    · exact Indent.mem_spaces hc
    · exact h2 y hy c hc

theorem unindentLine_blank {m : Nat} {l : Str} (h : ∀ c ∈ l, c = ' ') : Indent.unindentLine m l = [] := by
  unfold Indent.unindentLine
  apply Indent.removeTrailing_eq_nil
  intro c hc
  split at hc
  · exact h c (List.mem_of_mem_drop hc)
  · exact h c hc

theorem unindentLine_shift {m k : Nat} {l : Str} (h : spaces m <+: l) :
    Indent.unindentLine (k + m) (spaces k ++ l) = Indent.unindentLine m l := by
  have hp := (Indent.startsWith_spaces_iff l m).2 h
  have hq : startsWith (spaces k ++ l) (spaces (k + m)) = true := by
    rw [Indent.startsWith_spaces_iff, Indent.spaces_add]
    exact (List.prefix_append_right_inj _).2 h
  unfold Indent.unindentLine
  rw [if_pos hp, if_pos hq]
  congr 1
  have := List.drop_append (l₁ := spaces k) (l₂ := l) (i := k + m)
  rw [this, Indent.length_spaces, List.drop_eq_nil_of_le (by rw [Indent.length_spaces]; omega), List.nil_append, Nat.add_sub_cancel_left]

/-- C125, partial: for every code whose first line that is not blank is not more indented than the others, the code moved by any number of blanks
to the right is taken for the same. Missing: the other codes, for which it is false (`C125_shift_fails`). -/
theorem C125_shift_partial (code : Str) (k : Nat) (hf : Spec.Flush code) : codesEqual (Spec.shift k code) code = true := by
  have hne : lines code ≠ [] := lines_ne_nil code
  have hl : lines (Spec.shift k code) = (lines code).map (spaces k ++ ·) := by
    unfold Spec.shift
    apply lines_unlines
    · exact fun h => hne (List.map_eq_nil_iff.1 h)
    · intro l hl
      obtain ⟨y, hy, rfl⟩ := List.mem_map.1 hl
      intro hm
      rcases List.mem_append.1 hm with hm | hm
      · exact Indent.nl_not_mem_spaces k hm
      · exact not_mem_of_mem_lines hy hm
  have hs : Indent.unindentCode (Spec.shift k code) = Indent.unindentCode code := by
    apply Indent.lines_injective
    rw [Indent.lines_unindent, Indent.lines_unindent, hl, List.map_map]
    apply List.map_congr_left
    intro l hm
    have hms : Indent.Spec.Margin (lines code) (Indent.computeCodeIndentSize code) := Indent.margin_spec _
    have blank : ∀ l : Str, (∀ c ∈ l, c = ' ') → ∀ c ∈ spaces k ++ l, c = ' ' := by
      intro l h c hc
      rcases List.mem_append.1 hc with hc | hc
      · exact Indent.mem_spaces hc
      · exact h c hc
    by_cases hb : ∃ c ∈ l, c ≠ ' '
    · have h1 := margin_shift k hms ⟨l, hm, hb⟩
      have h2 : Indent.computeCodeIndentSize (Spec.shift k code) = k + Indent.computeCodeIndentSize code :=
        Indent.margin_unique (Indent.margin_spec _) (hl ▸ h1)
      rw [h2]
      exact unindentLine_shift (hf _ hms l hm hb)
    · have hb' : ∀ c ∈ l, c = ' ' := fun c hc => by
        by_contra h
        exact hb ⟨c, hc, h⟩
      exact (unindentLine_blank (blank l hb')).trans (unindentLine_blank hb').symm
  unfold codesEqual processed
  rw [hs, beq_self_eq_true]

/-- A code that meets the hypothesis: all lines have at least the two blanks of the first. -/
example : Spec.Flush "  a\n    b".toList := by
  rw [String.toList_ofList]
  intro m hm l hl _
  have e : m = Indent.computeCodeIndentSize [' ', ' ', 'a', '\n', ' ', ' ', ' ', ' ', 'b'] := Indent.margin_unique hm (Indent.margin_spec _)
  have e2 : Indent.computeCodeIndentSize [' ', ' ', 'a', '\n', ' ', ' ', ' ', ' ', 'b'] = 2 := by decide +kernel
  rw [e, e2]
  have : ∀ l ∈ lines [' ', ' ', 'a', '\n', ' ', ' ', ' ', ' ', 'b'], spaces 2 <+: l := by decide +kernel
  exact this l hl

end Verif.Same.Props
