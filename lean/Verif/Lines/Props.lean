import Verif.Lines.Lemmas

/-! Properties C01 (blank-line compaction) and C02 (stripping empty lines). -/

namespace Verif.Lines
open Verif.Py

/-! ### C01 -/

/-- C01: a negative bound leaves the code unchanged. -/
theorem C01_negative_is_identity (code : Str) (n : Int) (h : n < 0) :
    codeSetMaxConsecutiveEmptyLines code n = code := by
  simp [codeSetMaxConsecutiveEmptyLines, h]

example : (-1 : Int) < 0 := by decide

/-- The lines that `codeSetMaxConsecutiveEmptyLines` joins. -/
theorem lines_out (code : Str) (n : Nat) :
    codeSetMaxConsecutiveEmptyLines code n =
      unlines ((runLengthEncode (lines code)).flatMap (emitRun n)) := by
  simp [codeSetMaxConsecutiveEmptyLines]

/-- C01: whatever the bound, the non-blank lines are kept, all of them, in order. -/
theorem C01_nonblank_lines_kept (code : Str) (n : Int) :
    (lines (codeSetMaxConsecutiveEmptyLines code n)).filter (fun l => !isBlank l) =
      (lines code).filter (fun l => !isBlank l) := by
  by_cases h : n < 0
  · rw [C01_negative_is_identity code n h]
  · obtain ⟨k, rfl⟩ : ∃ k : Nat, n = k := ⟨n.toNat, by omega⟩
    rw [lines_out]
    have hs := flatMap_emit_sublist k (runLengthEncode (lines code))
    rw [rle_decode] at hs
    have hf := filter_emit k (runLengthEncode (lines code))
    rw [rle_decode] at hf
    by_cases hnil : (runLengthEncode (lines code)).flatMap (emitRun k) = []
    · rw [hnil] at hf ⊢
      rw [← hf]
      rfl
    · rw [lines_unlines hnil (fun l hl => not_mem_of_mem_lines (hs.subset hl)), hf]

/-- C01: only whole lines are removed, nothing is added or reordered (when something is left). -/
theorem C01_lines_sublist (code : Str) (n : Int)
    (h : codeSetMaxConsecutiveEmptyLines code n ≠ []) :
    List.Sublist (lines (codeSetMaxConsecutiveEmptyLines code n)) (lines code) := by
  by_cases hn : n < 0
  · rw [C01_negative_is_identity code n hn]
  · obtain ⟨k, rfl⟩ : ∃ k : Nat, n = k := ⟨n.toNat, by omega⟩
    rw [lines_out] at h ⊢
    have hs := flatMap_emit_sublist k (runLengthEncode (lines code))
    rw [rle_decode] at hs
    rw [lines_unlines (by intro e; rw [e] at h; exact h rfl)
      (fun l hl => not_mem_of_mem_lines (hs.subset hl))]
    exact hs

example : codeSetMaxConsecutiveEmptyLines "a\n\n\nb".toList 1 ≠ [] := by decide

/-- C01, full statement of the bound (what the option name promises). -/
def C01_bound_statement : Prop :=
  ∀ (code : Str) (n : Nat), (∃ l ∈ lines code, ¬ Spec.Blank l) →
    Spec.BlankRunsAtMost n (lines (codeSetMaxConsecutiveEmptyLines code n))

/-- The full bound is false of the code: `run_length_encode` compares the blank lines themselves, so
blank lines that differ in white space are counted apart. Witness: `a`, empty line, one-space line,
`b`, with a maximum of 1. -/
theorem C01_bound_fails : ¬ C01_bound_statement := by
  intro h
  have := h "a\n\n \nb".toList 1 ⟨"a".toList, by decide, by decide⟩
  have := this ["a".toList] [[], " ".toList] ["b".toList] (by decide) (by decide)
  exact absurd this (by decide)

/-- C01 (partial): on texts whose blank lines are all spelled the same way, the result is exactly
the text in which a blank line is dropped if and only if `n` blank lines already precede it.
Missing from the full property: texts mixing different blank lines (where the property is false,
see `C01_bound_fails`). -/
theorem C01_exact_partial (code : Str) (n : Nat) (hu : Spec.UniformBlanks (lines code)) :
    codeSetMaxConsecutiveEmptyLines code n = unlines (Spec.cap n 0 (lines code)) := by
  rw [lines_out, emit_eq_cap n _ (rle_pos _)
    (chain_of_uniform _ (rle_pos _) (rle_chain _) (by rw [rle_decode]; exact hu)), rle_decode]

example : Spec.UniformBlanks (lines "a\n\n\n\nb\n\nc".toList) := by unfold Spec.UniformBlanks; decide

/-- C01 (partial): on texts whose blank lines are all spelled the same way, at most `n` blank lines
follow each other in the result. -/
theorem C01_bound_partial (code : Str) (n : Nat) (hu : Spec.UniformBlanks (lines code))
    (hne : ∃ l ∈ lines code, ¬ Spec.Blank l) :
    Spec.BlankRunsAtMost n (lines (codeSetMaxConsecutiveEmptyLines code n)) := by
  have e := C01_exact_partial code n hu
  have hk := C01_nonblank_lines_kept code n
  have hs := flatMap_emit_sublist n (runLengthEncode (lines code))
  rw [rle_decode, emit_eq_cap n _ (rle_pos _)
    (chain_of_uniform _ (rle_pos _) (rle_chain _) (by rw [rle_decode]; exact hu)), rle_decode] at hs
  rw [e] at hk ⊢
  have hnil : Spec.cap n 0 (lines code) ≠ [] := by
    intro h0
    obtain ⟨l, hl, hb⟩ := hne
    rw [h0] at hk
    have : l ∈ (lines code).filter (fun l => !isBlank l) := by
      rw [List.mem_filter]
      refine ⟨hl, ?_⟩
      rw [← blank_iff] at hb
      simpa using hb
    rw [← hk] at this
    revert this
    have : (lines (unlines [])).filter (fun l => !isBlank l) = [] := by decide
    rw [this]; simp
  rw [lines_unlines hnil (fun l hl => not_mem_of_mem_lines (hs.subset hl))]
  exact (cap_runs n 0 (lines code)).2

example : ∃ l ∈ lines "a\n\n\n\nb".toList, ¬ Spec.Blank l := ⟨"a".toList, by decide, by decide⟩

/-! The auxiliary run-length encoding, a round trip. -/

/-- C01: run-length encoding is a faithful encoding: expanding the runs gives back the list, runs are
non-empty and maximal (neighbouring runs have different keys). -/
theorem C01_run_length_encode {α : Type} [DecidableEq α] (l : List α) :
    (runLengthEncode l).flatMap (fun p => List.replicate p.2 p.1) = l ∧
    (∀ p ∈ runLengthEncode l, 1 ≤ p.2) ∧
    List.IsChain (fun p q : α × Nat => p.1 ≠ q.1) (runLengthEncode l) :=
  ⟨rle_decode l, rle_pos l, rle_chain l⟩

/-! ### C02 -/

/-- C02: `strip_empty_lines` keeps a contiguous block of the lines, drops only blank lines around it,
and neither end of the block is blank. -/
theorem C02_strip_empty_lines (code : Str) :
    ∃ before kept after, lines code = before ++ kept ++ after ∧
      stripEmptyLines code = unlines kept ∧
      (∀ l ∈ before, Spec.Blank l) ∧ (∀ l ∈ after, Spec.Blank l) ∧
      (∀ l ∈ kept.head?, ¬ Spec.Blank l) ∧ (∀ l ∈ kept.getLast?, ¬ Spec.Blank l) := by
  obtain ⟨a, b, h1, h2, h3⟩ := strip_list_decomp (lines code)
  refine ⟨a, stripEmptyLinesInList (lines code), b, h1, rfl, fun l hl => (blank_iff l).1 (h2 l hl),
    fun l hl => (blank_iff l).1 (h3 l hl), ?_, ?_⟩
  · intro l hl hb
    have := strip_list_head _ l hl
    rw [(blank_iff l).2 hb] at this; exact Bool.noConfusion this
  · intro l hl hb
    have := strip_list_last _ l hl
    rw [(blank_iff l).2 hb] at this; exact Bool.noConfusion this

/-- C02: stripping twice is stripping once. -/
theorem C02_strip_empty_lines_idempotent (code : Str) :
    stripEmptyLines (stripEmptyLines code) = stripEmptyLines code := by
  obtain ⟨a, b, h1, _, _⟩ := strip_list_decomp (lines code)
  unfold stripEmptyLines
  by_cases hnil : stripEmptyLinesInList (lines code) = []
  · rw [hnil]; decide
  · rw [lines_unlines hnil (fun l hl => not_mem_of_mem_lines (s := code) (by rw [h1]; simp [hl])),
      strip_list_eq_self (strip_list_head _) (strip_list_last _)]

/-- C02: `strip_first_and_last_lines_if_empty` removes at most one line at each end, and only a blank
one; a text that consists of one blank line is returned as it is. -/
theorem C02_strip_first_and_last (code : Str) :
    (∃ l, lines code = [l] ∧ Spec.Blank l ∧ stripFirstAndLastLinesIfEmpty code = code) ∨
    ∃ before kept after, lines code = before ++ kept ++ after ∧
      stripFirstAndLastLinesIfEmpty code = unlines kept ∧
      ((before = [] ∧ ∀ l ∈ (lines code).head?, ¬ Spec.Blank l) ∨
        ∃ l, before = [l] ∧ Spec.Blank l) ∧
      ((after = [] ∧ ∀ l ∈ kept.getLast?, ¬ Spec.Blank l) ∨ ∃ l, after = [l] ∧ Spec.Blank l) := by
  unfold stripFirstAndLastLinesIfEmpty
  cases hl : lines code with
  | nil => exact absurd hl (lines_ne_nil code)
  | cons l ls =>
    simp only
    have step : ∀ (before ls' : List Str),
        l :: ls = before ++ ls' →
        ((before = [] ∧ ∀ m ∈ (l :: ls).head?, ¬ Spec.Blank m) ∨ ∃ m, before = [m] ∧ Spec.Blank m) →
        ls' ≠ [] →
        ∃ before kept after, l :: ls = before ++ kept ++ after ∧
          dropLastIfBlank code ls' = unlines kept ∧
          ((before = [] ∧ ∀ m ∈ (l :: ls).head?, ¬ Spec.Blank m) ∨
            ∃ m, before = [m] ∧ Spec.Blank m) ∧
          ((after = [] ∧ ∀ l ∈ kept.getLast?, ¬ Spec.Blank l) ∨ ∃ l, after = [l] ∧ Spec.Blank l) := by
      intro before ls' h hb hne
      obtain ⟨init, last, rfl⟩ : ∃ init last, ls' = init ++ [last] :=
        ⟨ls'.dropLast, ls'.getLast hne, (List.dropLast_append_getLast hne).symm⟩
      have e : dropLastIfBlank code (init ++ [last]) =
          unlines (if isBlank last then init else init ++ [last]) := by
        simp [dropLastIfBlank]
      rw [e]
      cases hlast : isBlank last with
      | true =>
        exact ⟨before, init, [last], by simp [h], by simp, hb,
          Or.inr ⟨last, rfl, (blank_iff last).1 hlast⟩⟩
      | false =>
        refine ⟨before, init ++ [last], [], by simp [h], by simp, hb, Or.inl ⟨rfl, ?_⟩⟩
        intro m hm hbm
        simp at hm
        subst hm
        rw [(blank_iff last).2 hbm] at hlast; exact Bool.noConfusion hlast
    cases hbl : isBlank l with
    | true =>
      cases ls with
      | nil =>
        left
        exact ⟨l, rfl, (blank_iff l).1 hbl, by simp [dropLastIfBlank]⟩
      | cons m ms =>
        right
        exact step [l] (m :: ms) rfl (Or.inr ⟨l, rfl, (blank_iff l).1 hbl⟩) (by simp)
    | false =>
      right
      have hnb : ¬ Spec.Blank l := by
        intro h; rw [(blank_iff l).2 h] at hbl; exact Bool.noConfusion hbl
      exact step [] (l :: ls) rfl (Or.inl ⟨rfl, by simpa using hnb⟩) (by simp)

end Verif.Lines
