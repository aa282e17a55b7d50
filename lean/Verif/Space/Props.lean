import Verif.Space.Lemmas

/-! Property C12: space normalisation. -/

namespace Verif.Space
open Verif.Py

/-- C12: the loop stops after finitely many rounds, on a text that a round does not change. -/
theorem C12_terminates (code : Str) :
    ∃ n : Nat, forceOneSpace code =
        Nat.rec ((strip code).map (fun c => if c = '\n' ∨ c = '\t' then ' ' else c))
          (fun _ t => replace t [' ', ' '] [' ']) n ∧
      replace (forceOneSpace code) [' ', ' '] [' '] = forceOneSpace code := by
  rw [force_eq]
  obtain ⟨n, hn⟩ := loop_iter ((strip code).map flat)
  exact ⟨n, hn, loop_fix _⟩

/-- C12: the result is exactly the words of the stripped text separated by one space. -/
theorem C12_words (code : Str) :
    forceOneSpace code = join [' '] (Spec.words (strip code)) := by
  have hnd := force_noDbl code
  have hend := force_ends code
  have hw : SameWords (forceOneSpace code) ((strip code).map flat) := by
    rw [force_eq]
    exact loop_inv (fun t => SameWords t ((strip code).map flat))
      (fun s h => sameWords_trans (round_words s) h) _ (sameWords_refl _)
  obtain ⟨h, t, e1, e2⟩ := wordsFrom_eq [] (strip code)
  obtain ⟨h', t', t'', f1, f2, f3⟩ := hw
  rw [e1] at f2
  injection f2 with g1 g2
  subst g1 g2
  unfold Spec.words
  rw [e2, List.nil_append]
  have hlast : (forceOneSpace code).getLast? ≠ some ' ' := by
    intro e; exact absurd (hend.2 ' ' (by rw [e]; simp)) (by decide)
  have hne : [] ∉ t' := by
    intro hm
    exact hlast (empty_piece _ (by rw [f1]; exact hm) hnd)
  have hfilt : t'.filter (· ≠ []) = t' := by
    apply List.filter_eq_self.2
    intro x hx
    have : x ≠ [] := fun e => hne (e ▸ hx)
    simpa using this
  rw [hfilt] at f3
  have hj := join_splitOn ' ' (forceOneSpace code)
  rw [f1] at hj
  by_cases hh : h = []
  · subst hh
    have : t' = [] := by
      cases t' with
      | nil => rfl
      | cons a b =>
        exfalso
        have : (forceOneSpace code).head? = some ' ' := by
          rw [← hj]; simp [join]
        exact absurd (hend.1 ' ' (by rw [this]; simp)) (by decide)
    subst this
    rw [← hj]
    have e : List.filter (fun x => decide (x ≠ [])) ([] :: t) = [] := by
      rw [List.filter_cons]
      simp only [ne_eq, not_true, decide_false]
      exact f3.symm
    rw [e]; rfl
  · have e : List.filter (fun x => decide (x ≠ [])) (h :: t) = h :: t' := by
      rw [List.filter_cons, if_pos (by simpa using hh), f3]
    rw [e, hj]

example : forceOneSpace " a \t b\nc ".toList = "a b c".toList := by
  rw [C12_words]; decide

/-- C12: the result has no newline, no tab and no two consecutive spaces, and begins and ends with a
character that is not white space. -/
theorem C12_normal (code : Str) :
    '\n' ∉ forceOneSpace code ∧ '\t' ∉ forceOneSpace code ∧
    contains (forceOneSpace code) [' ', ' '] = false ∧ strip (forceOneSpace code) = forceOneSpace code :=
  ⟨fun h => (force_flat code _ h).1 rfl, fun h => (force_flat code _ h).2 rfl,
    (noDbl_iff _).1 (force_noDbl code), strip_of_ends (force_ends code)⟩

/-- C12: the non-space characters are kept, all of them, in order. -/
theorem C12_same_characters (code : Str) :
    (forceOneSpace code).filter (fun c => !isSpace c) = code.filter (fun c => !isSpace c) := by
  have key : ∀ s t : Str, s.filter (· ≠ ' ') = t.filter (· ≠ ' ') →
      s.filter (fun c => !isSpace c) = t.filter (fun c => !isSpace c) := by
    intro s t h
    have e : ∀ u : Str, u.filter (fun c => !isSpace c) =
        (u.filter (· ≠ ' ')).filter (fun c => !isSpace c) := by
      intro u
      rw [List.filter_filter]
      congr 1
      funext c
      by_cases hc : c = ' '
      · subst hc; decide
      · simp [hc]
    rw [e s, e t, h]
  rw [force_eq]
  have h1 : (loop ((strip code).map flat)).filter (· ≠ ' ') = ((strip code).map flat).filter (· ≠ ' ') :=
    loop_inv (fun t => t.filter (· ≠ ' ') = ((strip code).map flat).filter (· ≠ ' '))
      (fun s h => (round_filter s).trans h) _ rfl
  rw [key _ _ h1]
  have h2 : ∀ s : Str, (s.map flat).filter (fun c => !isSpace c) = s.filter (fun c => !isSpace c) := by
    intro s
    induction s with
    | nil => rfl
    | cons c cs ih =>
      cases hc : isSpace c with
      | false =>
        rw [List.map_cons, flat_not_space hc, List.filter_cons, List.filter_cons, ih]
      | true =>
        have : isSpace (flat c) = true := by
          unfold flat; split
          · decide
          · exact hc
        rw [List.map_cons, List.filter_cons, List.filter_cons, ih]
        simp [this, hc]
  rw [h2]
  unfold strip
  obtain ⟨w, hw, hw'⟩ := lstrip_decomp code
  obtain ⟨v, hv, hv'⟩ := rstrip_decomp (lstrip code)
  have nil : ∀ u : Str, (∀ c ∈ u, isSpace c = true) → u.filter (fun c => !isSpace c) = [] := by
    intro u hu
    rw [List.filter_eq_nil_iff]
    intro c hc
    simp [hu c hc]
  conv => rhs; rw [hw, List.filter_append, nil w hw', List.nil_append, hv, List.filter_append,
    nil v hv', List.append_nil]

/-- C12: normalising twice changes nothing. -/
theorem C12_idempotent (code : Str) : forceOneSpace (forceOneSpace code) = forceOneSpace code :=
  force_of_normal (force_noDbl code) (force_ends code) (force_flat code)

/-- The separators around which spaces are removed. -/
def isSeparator (c : Char) : Bool := decide (c ∈ ",()[];".toList)

theorem redundant_eq (code : Str) :
    removeRedundantSpaces code = Spec.trimBeside isSeparator none (forceOneSpace code) := by
  unfold removeRedundantSpaces
  conv => lhs; rw [← trim_false (forceOneSpace code) none]
  rw [foldl_removeAround _ (by decide) _ _ (force_noDbl code)]
  congr 1
  funext c
  simp only [isSeparator, Bool.false_or]
  congr 1
  simp [separators]
  constructor
  · rintro (h | h | h | h | h | h | h) <;> simp [h]
  · rintro (h | h | h | h | h | h) <;> simp [h]

/-- C12: `remove_redundant_spaces` removes, from the normalised text, exactly the spaces that stand
beside one of the separators `, ( ) [ ] ;`. -/
theorem C12_redundant_exact (code : Str) :
    removeRedundantSpaces code =
      Spec.trimBeside (fun c => decide (c ∈ ",()[];".toList)) none
        (join [' '] (Spec.words (strip code))) := by
  rw [redundant_eq, C12_words]; rfl

/-- C12: no separator has a space beside it, no other character is touched. -/
theorem C12_redundant (code : Str) (sep : Char) (h : sep ∈ ",()[];".toList) :
    contains (removeRedundantSpaces code) [sep, ' '] = false ∧
    contains (removeRedundantSpaces code) [' ', sep] = false ∧
    (removeRedundantSpaces code).filter (fun c => !isSpace c) = code.filter (fun c => !isSpace c) := by
  rw [redundant_eq]
  have hb := trim_beside isSeparator (by decide) _ (force_noDbl code) none
  have hs : isSeparator sep = true := by simpa [isSeparator] using h
  refine ⟨?_, ?_, ?_⟩
  · rw [Bool.eq_false_iff]
    intro hc
    obtain ⟨a, b, e⟩ := (contains_iff _ _).1 hc
    exact (hb sep ' ' a b (by rw [e]; simp)).2 ⟨hs, rfl⟩
  · rw [Bool.eq_false_iff]
    intro hc
    obtain ⟨a, b, e⟩ := (contains_iff _ _).1 hc
    exact (hb ' ' sep a b (by rw [e]; simp)).1 ⟨rfl, hs⟩
  · rw [← C12_same_characters code]
    have e : ∀ u : Str, u.filter (fun c => !isSpace c) =
        (u.filter (· ≠ ' ')).filter (fun c => !isSpace c) := by
      intro u
      rw [List.filter_filter]
      congr 1
      funext c
      by_cases hc : c = ' '
      · subst hc; decide
      · simp [hc]
    rw [e, trim_filter, ← e]

example : removeRedundantSpaces "f ( int a ,  int b )".toList = "f(int a,int b)".toList := by
  rw [C12_redundant_exact]; decide

/-- C12: removing redundant spaces twice changes nothing. -/
theorem C12_redundant_idempotent (code : Str) :
    removeRedundantSpaces (removeRedundantSpaces code) = removeRedundantSpaces code := by
  have hd := force_noDbl code
  have he := force_ends code
  have hh : (forceOneSpace code).head? ≠ some ' ' := by
    intro e; exact absurd (he.1 ' ' (by rw [e]; simp)) (by decide)
  have hl : (forceOneSpace code).getLast? ≠ some ' ' := by
    intro e; exact absurd (he.2 ' ' (by rw [e]; simp)) (by decide)
  have hout : removeRedundantSpaces code = Spec.trimBeside isSeparator none (forceOneSpace code) :=
    redundant_eq code
  rw [redundant_eq (removeRedundantSpaces code), hout]
  rw [force_of_normal (trim_noDbl _ _ hd _)]
  · rw [trim_trim _ _ _ hd]
    congr 1
    funext c
    simp
  · exact ⟨by rw [trim_head hh]; exact he.1, by rw [trim_last _ _ _ hl]; exact he.2⟩
  · exact fun c hc => force_flat code c ((trim_sublist _ _ _).subset hc)

/-- C12: shortening blank lines keeps the number of lines, keeps the non-blank lines and empties the
others. -/
theorem C12_shorten_blank_lines (code : Str) :
    lines (shortenLinesContainingOnlySpaces code) =
      (lines code).map (fun l => if ∀ c ∈ l, isSpace c = true then [] else l) := by
  unfold shortenLinesContainingOnlySpaces
  rw [lines_unlines]
  · apply List.map_congr_left
    intro l _
    have hb := isBlank_iff l
    unfold isBlank at hb
    by_cases h : ∀ c ∈ l, isSpace c = true
    · rw [if_pos h, if_neg]
      have := hb.2 h
      simp at this
      simp [this]
    · rw [if_neg h, if_pos]
      apply Nat.pos_of_ne_zero
      intro e
      exact h (hb.1 (by simp [e]))
  · simp [lines_ne_nil]
  · intro l hl
    obtain ⟨x, hx, rfl⟩ := List.mem_map.1 hl
    split
    · exact not_mem_of_mem_lines hx
    · simp

end Verif.Space
