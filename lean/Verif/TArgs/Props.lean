import Verif.TArgs.Lemmas

/-! C41: splitting and translating template types. -/

namespace Verif.TArgs.Props
open Verif.Py Verif.TArgs Spec

/-- **C41.** A type is cut in three exactly at its first `<` and the `>` that matches it: reassembling the three texts
gives the type, the arguments are balanced, and nothing else is cut. -/
theorem C41_split (s before inside after : Str) :
    splitArgs s = [before, inside, after] ↔ CutAt s before inside after := splitArgs_cut s before inside after

example : CutAt "AAA <BBB<CC>DD> EE".toList "AAA ".toList "BBB<CC>DD".toList " EE".toList :=
  (C41_split _ _ _ _).1 (by decide +kernel)

/-- **C41.** The place of the cut is unique. -/
theorem C41_unique (s a b c a' b' c' : Str) (h : CutAt s a b c) (h' : CutAt s a' b' c') : a = a' ∧ b = b' ∧ c = c' := by
  rw [← C41_split] at h h'
  rw [h] at h'
  simpa using h'

/-- **C41.** A type that cannot be cut is returned as it is. -/
theorem C41_whole (s : Str) (h : ¬ ∃ a b c, CutAt s a b c) : splitArgs s = [s] := by
  rcases splitArgs_cases s with h' | ⟨a, b, c, h'⟩
  · exact h'
  · exact absurd ⟨a, b, c, (C41_split s a b c).1 h'⟩ h

example : splitArgs "Foo<(N < 3)>".toList = ["Foo<(N < 3)>".toList] := by decide +kernel

/-- **C41.** A type with balanced brackets and at least one `<` is always cut, and the text that follows is balanced. -/
theorem C41_balanced (s : Str) (h : Balanced s) (hm : '<' ∈ s) :
    ∃ a b c, splitArgs s = [a, b, c] ∧ CutAt s a b c ∧ Balanced c := by
  obtain ⟨a, b, c, hc, h2⟩ := balanced_cut h hm
  exact ⟨a, b, c, (C41_split s a b c).2 hc, hc, h2⟩

/-- The translation of a type returns, whatever the type. -/
def C41_returns_statement : Prop := ∀ (repl : Str → Str) (s : Str), ∃ r, translate repl s = .ok r

/-- **C41, refuted part.** A template argument that contains a comparison stops the generation: `Foo<(N < 3)>`. -/
theorem C41_returns_fails : ¬ C41_returns_statement := by
  intro h
  obtain ⟨r, hr⟩ := h id "Foo<(N < 3)>".toList
  have : translate id "Foo<(N < 3)>".toList = .error .index := by rfl
  rw [this] at hr
  cases hr

/-- **C41.** With balanced brackets the translation always returns, whatever the replacements and the nesting. -/
theorem C41_returns_partial (repl : Str → Str) (s : Str) (h : Balanced s) : ∃ r, translate repl s = .ok r :=
  translate_balanced repl _ s (Nat.lt_succ_self _) h

example : Balanced "std::map<int, std::vector<int>>".toList := by
  have h1 : Balanced "<int>".toList :=
    .nest "int".toList [] (.char _ _ (by decide) (by decide) (.char _ _ (by decide) (by decide)
      (.char _ _ (by decide) (by decide) .nil))) .nil
  have plain : ∀ t : Str, '<' ∉ t → '>' ∉ t → Balanced t := by
    intro t
    induction t with
    | nil => intros; exact .nil
    | cons c t ih =>
      intro a b
      simp only [List.mem_cons, not_or] at a b
      exact .char c t (Ne.symm a.1) (Ne.symm b.1) (ih a.2 b.2)
  have h2 : Balanced "int, std::vector<int>".toList :=
    balanced_append (plain "int, std::vector".toList (by decide) (by decide)) h1
  exact balanced_append (plain "std::map".toList (by decide) (by decide)) (.nest _ [] h2 .nil)

/-- **C41.** The translation fails exactly when the first `<` has no matching `>`, and then by an `IndexError`. -/
theorem C41_raises (repl : Str → Str) (s : Str) :
    (translate repl s = .error .index ↔ '<' ∈ s ∧ ¬ ∃ a b c, CutAt s a b c) ∧ translate repl s ≠ .error .fuel := by
  unfold translate translateLoop
  by_cases hm : '<' ∈ s
  · rw [if_neg (by simpa using hm)]
    rcases splitArgs_cases s with h | ⟨a, b, c, h⟩
    · rw [h]
      simp only [ne_eq, Except.error.injEq, reduceCtorEq, not_false_eq_true, and_true, true_iff]
      refine ⟨hm, ?_⟩
      rintro ⟨a, b, c, hc⟩
      rw [(C41_split s a b c).2 hc] at h
      simp at h
    · have hc := (C41_split s a b c).1 h
      rw [h]
      simp only
      have hlen : b.length < s.length := by
        have := congrArg List.length hc.1
        simp at this; omega
      obtain ⟨r, hr⟩ := translate_balanced repl s.length (strip b) (by have := strip_length b; omega)
        (balanced_strip hc.2.2)
      rw [hr]
      simp only [reduceCtorEq, false_iff, ne_eq, not_false_eq_true, and_true]
      rintro ⟨_, h2⟩
      exact h2 ⟨a, b, c, hc⟩
  · rw [if_pos hm]
    simp [hm]

/-- **C41.** The arguments are translated before the type that holds them, at every depth. -/
theorem C41_inside_out (repl : Str → Str) (s a b c : Str) (h : CutAt s a b c) :
    ∃ x, translate repl (strip b) = .ok x ∧
      translate repl s = .ok (finish (repl (repl (strip a) ++ ['<'] ++ x ++ ['>'] ++ repl (strip c)))) := by
  have hm : '<' ∈ s := by rw [h.1]; simp
  obtain ⟨x, hx⟩ := C41_returns_partial repl (strip b) (balanced_strip h.2.2)
  refine ⟨x, hx, ?_⟩
  unfold translate at hx ⊢
  rw [translateLoop, if_neg (by simpa using hm), (C41_split s a b c).2 h]
  simp only
  have hlen : b.length < s.length := by
    have := congrArg List.length h.1
    simp at this; omega
  rw [translate_fuel repl _ s.length (strip b) x (by have := strip_length b; omega) hx]

/-- **C41.** A type without template arguments gets the replacements once. -/
theorem C41_plain (repl : Str → Str) (s : Str) (h : '<' ∉ s) : translate repl s = .ok (repl s) := by
  unfold translate translateLoop
  rw [if_pos h]

/-- **C41.** No angle bracket is left in the translation of a template type. -/
theorem C41_no_angle (repl : Str → Str) (s r : Str) (hm : '<' ∈ s) (h : translate repl s = .ok r) :
    '<' ∉ r ∧ '>' ∉ r := by
  unfold translate translateLoop at h
  rw [if_neg (by simpa using hm)] at h
  split at h
  · split at h
    · simp only [Except.ok.injEq] at h
      rw [← h]
      exact finish_no_angle _
    · cases h
  · cases h

/-- **C41.** Without replacements, nothing is lost or reordered: up to blanks, the translation is the type with square
brackets. -/
theorem C41_text (s r : Str) (hm : '<' ∈ s) (h : translate id s = .ok r) :
    r.filter (fun c => !isSpace c) = squareNoBlanks s :=
  translate_text _ s r hm h

example : translate id "std::map< int,  std::vector<int> > const".toList =
    .ok "std::map[int, std::vector[int]]const".toList := by rfl

end Verif.TArgs.Props
