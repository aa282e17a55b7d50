import Verif.Py.Str

namespace Verif.Py

theorem splitOn_ne_nil (c : Char) (s : Str) : splitOn c s ≠ [] := by
  induction s with
  | nil => simp [splitOn]
  | cons x xs ih =>
    unfold splitOn
    split
    · simp
    · split <;> simp

theorem splitOn_cons_eq (c : Char) (xs : Str) : splitOn c (c :: xs) = [] :: splitOn c xs := by
  simp [splitOn]

theorem splitOn_cons_ne {c x : Char} (h : x ≠ c) (xs : Str) :
    ∃ l ls, splitOn c xs = l :: ls ∧ splitOn c (x :: xs) = (x :: l) :: ls := by
  cases hs : splitOn c xs with
  | nil => exact absurd hs (splitOn_ne_nil c xs)
  | cons l ls => exact ⟨l, ls, rfl, by simp [splitOn, h, hs]⟩

@[simp] theorem join_nil (sep : Str) : join sep [] = [] := rfl
@[simp] theorem join_single (sep l : Str) : join sep [l] = l := rfl

theorem join_cons_cons (sep l m : Str) (ls : List Str) :
    join sep (l :: m :: ls) = l ++ sep ++ join sep (m :: ls) := rfl

theorem join_cons_of_ne_nil (sep l : Str) {ls : List Str} (h : ls ≠ []) :
    join sep (l :: ls) = l ++ sep ++ join sep ls := by
  cases ls with
  | nil => exact absurd rfl h
  | cons m ls => rfl

theorem join_splitOn (c : Char) (s : Str) : join [c] (splitOn c s) = s := by
  induction s with
  | nil => rfl
  | cons x xs ih =>
    by_cases h : x = c
    · subst h
      rw [splitOn_cons_eq, join_cons_of_ne_nil _ _ (splitOn_ne_nil _ _), ih]
      simp
    · obtain ⟨l, ls, h1, h2⟩ := splitOn_cons_ne h xs
      rw [h2]
      rw [h1] at ih
      cases ls with
      | nil => simp at ih ⊢; exact ih
      | cons m ms =>
        rw [join_cons_cons] at ih ⊢
        rw [← ih]; simp

theorem splitOn_of_not_mem {c : Char} {s : Str} (h : c ∉ s) : splitOn c s = [s] := by
  induction s with
  | nil => rfl
  | cons x xs ih =>
    have hx : x ≠ c := fun e => h (by simp [e])
    have hxs : c ∉ xs := fun e => h (by simp [e])
    simp [splitOn, hx, ih hxs]

theorem splitOn_append_sep {c : Char} {l : Str} (h : c ∉ l) (s : Str) :
    splitOn c (l ++ c :: s) = l :: splitOn c s := by
  induction l with
  | nil => simp [splitOn]
  | cons x xs ih =>
    have hx : x ≠ c := fun e => h (by simp [e])
    have hxs : c ∉ xs := fun e => h (by simp [e])
    simp [splitOn, hx, ih hxs]

theorem splitOn_join {c : Char} {ls : List Str} (hne : ls ≠ []) (h : ∀ l ∈ ls, c ∉ l) :
    splitOn c (join [c] ls) = ls := by
  induction ls with
  | nil => exact absurd rfl hne
  | cons l ls ih =>
    cases ls with
    | nil => simpa using splitOn_of_not_mem (h l (by simp))
    | cons m ms =>
      rw [join_cons_cons]
      have : l ++ [c] ++ join [c] (m :: ms) = l ++ c :: join [c] (m :: ms) := by simp
      rw [this, splitOn_append_sep (h l (by simp)), ih (by simp) (fun x hx => h x (by simp [hx]))]

theorem not_mem_of_mem_splitOn {c : Char} {s l : Str} (h : l ∈ splitOn c s) : c ∉ l := by
  induction s generalizing l with
  | nil => simp [splitOn] at h; simp [h]
  | cons x xs ih =>
    by_cases hx : x = c
    · subst hx
      rw [splitOn_cons_eq] at h
      cases h with
      | head => simp
      | tail _ h => exact ih h
    · obtain ⟨m, ms, h1, h2⟩ := splitOn_cons_ne hx xs
      rw [h2] at h
      cases h with
      | head =>
        have := ih (l := m) (by simp [h1])
        simp [this]; exact fun e => hx e.symm
      | tail _ h => exact ih (by rw [h1]; exact List.mem_cons_of_mem _ h)

@[simp] theorem unlines_lines (s : Str) : unlines (lines s) = s := join_splitOn _ s

theorem lines_unlines {ls : List Str} (hne : ls ≠ []) (h : ∀ l ∈ ls, '\n' ∉ l) :
    lines (unlines ls) = ls := splitOn_join hne h

theorem lines_ne_nil (s : Str) : lines s ≠ [] := splitOn_ne_nil _ s

theorem not_mem_of_mem_lines {s l : Str} (h : l ∈ lines s) : '\n' ∉ l := not_mem_of_mem_splitOn h

theorem splitOn_append_of_not_mem {c : Char} (a b : Str) :
    ∃ as l m bs, splitOn c a = as ++ [l] ∧ splitOn c b = m :: bs ∧
      splitOn c (a ++ b) = as ++ (l ++ m) :: bs := by
  induction a with
  | nil =>
    cases hb : splitOn c b with
    | nil => exact absurd hb (splitOn_ne_nil _ _)
    | cons m bs => exact ⟨[], [], m, bs, by simp [splitOn], rfl, by simp [hb]⟩
  | cons x xs ih =>
    obtain ⟨as, l, m, bs, h1, h2, h3⟩ := ih
    by_cases hx : x = c
    · subst hx
      exact ⟨[] :: as, l, m, bs, by simp [splitOn, h1], h2, by simp [splitOn, h3]⟩
    · cases as with
      | nil =>
        exact ⟨[], x :: l, m, bs, by simp [splitOn, hx, h1], h2, by
          simp at h3; simp [splitOn, hx, h3]⟩
      | cons a0 as =>
        exact ⟨(x :: a0) :: as, l, m, bs, by simp [splitOn, hx, h1], h2, by
          simp at h3; simp [splitOn, hx, h3]⟩

/-! ### strip -/

theorem lstrip_append_of_all {a b : Str} (h : ∀ c ∈ a, isSpace c = true) :
    lstrip (a ++ b) = lstrip b := by
  induction a with
  | nil => rfl
  | cons x xs ih =>
    have := h x (by simp)
    simp [lstrip, this]
    exact ih (fun c hc => h c (by simp [hc]))

theorem lstrip_cons_of_not {c : Char} {s : Str} (h : isSpace c = false) :
    lstrip (c :: s) = c :: s := by simp [lstrip, List.dropWhile, h]

theorem rstrip_append_of_all {a b : Str} (h : ∀ c ∈ b, isSpace c = true) :
    rstrip (a ++ b) = rstrip a := by
  unfold rstrip
  rw [List.reverse_append]
  congr 1
  have : ∀ c ∈ b.reverse, isSpace c = true := fun c hc => h c (by simpa using hc)
  exact lstrip_append_of_all this

theorem rstrip_append_of_not {c : Char} {s : Str} (h : isSpace c = false) :
    rstrip (s ++ [c]) = s ++ [c] := by
  unfold rstrip
  rw [List.reverse_append]
  simp [List.dropWhile, h]

/-- Every string is its right-stripped form followed by white space. -/
theorem rstrip_decomp (s : Str) : ∃ w : Str, s = rstrip s ++ w ∧ ∀ c ∈ w, isSpace c = true := by
  refine ⟨(s.reverse.takeWhile isSpace).reverse, ?_, ?_⟩
  · unfold rstrip
    rw [← List.reverse_append, List.takeWhile_append_dropWhile, List.reverse_reverse]
  · intro c hc
    have hc' : c ∈ s.reverse.takeWhile isSpace := by simpa using hc
    revert hc'
    generalize s.reverse = t
    induction t with
    | nil => simp
    | cons x xs ih =>
      by_cases hx : isSpace x = true
      · simp [List.takeWhile, hx]
        rintro (rfl | h)
        · exact hx
        · exact ih h
      · simp [List.takeWhile, hx]

theorem lstrip_decomp (s : Str) : ∃ w : Str, s = w ++ lstrip s ∧ ∀ c ∈ w, isSpace c = true := by
  refine ⟨s.takeWhile isSpace, by simp [lstrip], ?_⟩
  intro c hc
  induction s with
  | nil => simp at hc
  | cons x xs ih =>
    by_cases hx : isSpace x = true
    · simp [List.takeWhile, hx] at hc
      rcases hc with rfl | h
      · exact hx
      · exact ih h
    · simp [List.takeWhile, hx] at hc

/-- A right-stripped string is empty or ends with a non-space character. -/
theorem rstrip_last (s : Str) : rstrip s = [] ∨ ∃ a c, rstrip s = a ++ [c] ∧ isSpace c = false := by
  unfold rstrip
  cases h : s.reverse.dropWhile isSpace with
  | nil => simp
  | cons x xs =>
    right
    refine ⟨xs.reverse, x, by simp, ?_⟩
    have := List.head?_dropWhile_not (p := isSpace) (l := s.reverse)
    rw [h] at this
    simpa using this

theorem lstrip_head (s : Str) : lstrip s = [] ∨ ∃ c a, lstrip s = c :: a ∧ isSpace c = false := by
  unfold lstrip
  cases h : s.dropWhile isSpace with
  | nil => simp
  | cons x xs =>
    right
    refine ⟨x, xs, rfl, ?_⟩
    have := List.head?_dropWhile_not (p := isSpace) (l := s)
    rw [h] at this
    simpa using this

theorem rstrip_eq_nil_iff (s : Str) : rstrip s = [] ↔ ∀ c ∈ s, isSpace c = true := by
  constructor
  · intro h
    obtain ⟨w, h1, h2⟩ := rstrip_decomp s
    rw [h] at h1
    simp at h1
    rw [h1]; exact h2
  · intro h
    have := rstrip_append_of_all (a := []) h
    simpa [rstrip] using this

theorem lstrip_eq_nil_iff (s : Str) : lstrip s = [] ↔ ∀ c ∈ s, isSpace c = true := by
  constructor
  · intro h
    obtain ⟨w, h1, h2⟩ := lstrip_decomp s
    rw [h] at h1
    simp at h1
    rw [h1]; exact h2
  · intro h
    have := lstrip_append_of_all (b := []) h
    simpa [lstrip] using this

theorem isBlank_iff (s : Str) : isBlank s = true ↔ ∀ c ∈ s, isSpace c = true := by
  simp only [isBlank, strip, beq_iff_eq, List.length_eq_zero_iff]
  rw [rstrip_eq_nil_iff]
  constructor
  · intro h
    obtain ⟨w, h1, h2⟩ := lstrip_decomp s
    intro c hc
    rw [h1] at hc
    rcases List.mem_append.1 hc with h' | h'
    · exact h2 c h'
    · exact h c h'
  · intro h c hc
    obtain ⟨w, h1, h2⟩ := lstrip_decomp s
    apply h; rw [h1]; simp [hc]

theorem rstrip_rstrip (s : Str) : rstrip (rstrip s) = rstrip s := by
  rcases rstrip_last s with h | ⟨a, c, h, hc⟩
  · rw [h]; rfl
  · rw [h]; exact rstrip_append_of_not hc

theorem lstrip_lstrip (s : Str) : lstrip (lstrip s) = lstrip s := by
  rcases lstrip_head s with h | ⟨c, a, h, hc⟩
  · rw [h]; rfl
  · rw [h]; exact lstrip_cons_of_not hc

/-! ### contains -/

theorem contains_iff (s p : Str) : contains s p = true ↔ ∃ a b, s = a ++ p ++ b := by
  induction s with
  | nil =>
    unfold contains
    rw [List.isPrefixOf_iff_prefix]
    constructor
    · rintro ⟨t, ht⟩
      exact ⟨[], t, by simpa using ht.symm⟩
    · rintro ⟨a, b, h⟩
      have : p = [] := by
        cases p with
        | nil => rfl
        | cons x xs => simp at h
      subst this; exact List.nil_prefix
  | cons c cs ih =>
    unfold contains
    rw [Bool.or_eq_true, List.isPrefixOf_iff_prefix, ih]
    constructor
    · rintro (⟨t, ht⟩ | ⟨a, b, h⟩)
      · exact ⟨[], t, by simpa using ht.symm⟩
      · exact ⟨c :: a, b, by simp [h]⟩
    · rintro ⟨a, b, h⟩
      cases a with
      | nil => left; exact ⟨b, by simpa using h.symm⟩
      | cons x xs =>
        right
        simp at h
        exact ⟨xs, b, by simp [h.2]⟩

/-! ### replace -/

@[simp] theorem replace_nil (old new : Str) : replace [] old new = [] := rfl

theorem replaceAux_skip (old new : Str) (k : Nat) (a b : Str) (h : a.length = k) :
    replaceAux old new k (a ++ b) = replaceAux old new 0 b := by
  induction a generalizing k with
  | nil => simp at h; subst h; rfl
  | cons x xs ih =>
    cases k with
    | zero => simp at h
    | succ k => simp at h; simpa [replaceAux] using ih k h

theorem replace_match {old new s : Str} (hne : old ≠ []) :
    replace (old ++ s) old new = new ++ replace s old new := by
  cases old with
  | nil => exact absurd rfl hne
  | cons c cs =>
    unfold replace
    show replaceAux (c :: cs) new 0 (c :: (cs ++ s)) = _
    conv => lhs; unfold replaceAux
    have : (c :: cs).isPrefixOf (c :: (cs ++ s)) = true := by
      rw [List.isPrefixOf_iff_prefix]; exact ⟨s, by simp⟩
    rw [if_pos this]
    congr 1
    exact replaceAux_skip _ _ cs.length cs s rfl

theorem replace_no_match {old new s : Str} {c : Char} (h : ¬ old <+: (c :: s)) :
    replace (c :: s) old new = c :: replace s old new := by
  unfold replace
  conv => lhs; unfold replaceAux
  have : old.isPrefixOf (c :: s) = false := by
    rw [Bool.eq_false_iff]; intro h'; exact h (List.isPrefixOf_iff_prefix.1 h')
  rw [this]; simp

theorem replace_of_not_contains {old new s : Str} (h : contains s old = false) :
    replace s old new = s := by
  induction s with
  | nil => rfl
  | cons c cs ih =>
    unfold contains at h
    rw [Bool.or_eq_false_iff] at h
    rw [replace_no_match, ih h.2]
    intro h'
    rw [List.isPrefixOf_iff_prefix.2 h'] at h
    exact Bool.noConfusion h.1

/-- Replacing a single character is a character-wise substitution. -/
theorem replace_char (s : Str) (c : Char) (new : Str) :
    replace s [c] new = s.flatMap (fun x => if x = c then new else [x]) := by
  induction s with
  | nil => rfl
  | cons x xs ih =>
    by_cases h : x = c
    · subst h
      have := replace_match (old := [x]) (new := new) (s := xs) (by simp)
      simp at this
      simp [this, ih]
    · have : ¬ [c] <+: (x :: xs) := by
        intro h'; rcases h' with ⟨t, ht⟩; simp at ht; exact h ht.1.symm
      rw [replace_no_match this, ih]; simp [h]

end Verif.Py
