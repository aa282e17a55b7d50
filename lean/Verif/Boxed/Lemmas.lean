import Verif.Boxed.Model
import Verif.Boxed.Spec
import Verif.Indent.Lemmas
import Verif.Lines.Lemmas
import Verif.Py.StrLemmas

/-! Lemmas on boxed types. -/

namespace Verif.Boxed
open Verif.Py Spec

theorem dropWhile_head {α : Type} (p : α → Bool) (a : α) (l : List α) (h : p a = false) : (a :: l).dropWhile p = a :: l := by
  rw [List.dropWhile_cons, h]; rfl

/-- A text block of the Python source, as the triple-quoted strings that start and end with a line of their own: unindenting it gives its
lines. -/
theorem unindent_block (k j : Nat) (first : Str) (mid : List Str) (last : Str) (hkj : j < k)
    (hf : ∃ c r, first = c :: r ∧ isSpace c = false) (hl : ∃ c ∈ last, isSpace c = false)
    (hend : ∀ l ∈ first :: (mid ++ [last]), l.getLast? ≠ some ' ') (hnl : ∀ l ∈ first :: (mid ++ [last]), '\n' ∉ l) :
    Indent.unindentCode (unlines ([] :: ((first :: (mid ++ [last])).map (spaces k ++ ·) ++ [spaces j]))) true =
      unlines (first :: (mid ++ [last])) := by
  have hlines : lines (unlines ([] :: ((first :: (mid ++ [last])).map (spaces k ++ ·) ++ [spaces j]))) =
      [] :: ((first :: (mid ++ [last])).map (spaces k ++ ·) ++ [spaces j]) := by
    apply lines_unlines
    · simp
    · intro l hm
      rcases List.mem_cons.1 hm with rfl | hm
      · simp
      · rcases List.mem_append.1 hm with hm | hm
        · obtain ⟨l', hl', rfl⟩ := List.mem_map.1 hm
          rw [List.mem_append]
          rintro (h | h)
          · exact Indent.nl_not_mem_spaces _ h
          · exact hnl l' hl' h
        · rw [List.mem_singleton.1 hm]
          exact Indent.nl_not_mem_spaces _
  obtain ⟨c, r, rfl, hc⟩ := hf
  have hcs : c ≠ ' ' := by rintro rfl; revert hc; decide
  have hsize : Indent.indentSizeOfLines ([] :: (((c :: r) :: (mid ++ [last])).map (spaces k ++ ·) ++ [spaces j])) = k := by
    unfold Indent.indentSizeOfLines
    rw [if_pos (by decide)]
    rw [List.map_cons, List.cons_append]
    unfold Indent.indentSizeOfLines
    rw [if_neg]
    · exact Indent.count_append_spaces k (c :: r) (by simpa using hcs)
    · rw [Indent.replace_space_length]
      intro h
      exact hcs (h c (by simp))
  unfold Indent.unindentCode Indent.computeCodeIndentSize
  simp only [if_true]
  rw [hlines, hsize]
  have hun : ∀ l ∈ (c :: r) :: (mid ++ [last]), Indent.unindentLine k (spaces k ++ l) = l := by
    intro l hm
    unfold Indent.unindentLine
    rw [if_pos ((Indent.startsWith_spaces_iff _ _).2 ⟨l, rfl⟩)]
    have : (spaces k ++ l).drop k = l := by
      rw [List.drop_append_of_le_length (by simp)]
      simp [List.drop_eq_nil_of_le]
    rw [this, Indent.removeTrailing_eq_self (hend l hm)]
  have hlast : Indent.unindentLine k (spaces j) = [] := by
    unfold Indent.unindentLine
    rw [if_neg]
    · exact Indent.removeTrailing_eq_nil (fun c h => Indent.mem_spaces h)
    · intro h
      rw [Indent.startsWith_spaces_iff] at h
      have := h.length_le
      simp at this
      omega
  have hfirst : Indent.unindentLine k [] = [] := by
    unfold Indent.unindentLine
    split
    · rw [List.drop_nil]; rfl
    · rfl
  have hmap : ([] :: (((c :: r) :: (mid ++ [last])).map (spaces k ++ ·) ++ [spaces j])).map (Indent.unindentLine k) =
      [] :: (((c :: r) :: (mid ++ [last])) ++ [[]]) := by
    rw [List.map_cons, hfirst, List.map_append, List.map_map, List.map_cons (l := []), hlast, List.map_nil]
    congr 2
    conv_rhs => rw [← List.map_id ((c :: r) :: (mid ++ [last]))]
    exact List.map_congr_left (fun l hm => by simpa using hun l hm)
  rw [hmap]
  unfold Lines.stripEmptyLines
  have hl2 : lines (unlines ([] :: (((c :: r) :: (mid ++ [last])) ++ [[]]))) = [] :: (((c :: r) :: (mid ++ [last])) ++ [[]]) := by
    apply lines_unlines
    · simp
    · intro l hm
      rcases List.mem_cons.1 hm with rfl | hm
      · simp
      · rcases List.mem_append.1 hm with hm | hm
        · exact hnl l hm
        · rw [List.mem_singleton.1 hm]; simp
  rw [hl2]
  congr 1
  unfold Lines.stripEmptyLinesInList
  simp only
  have hb1 : isBlank (c :: r) = false := Bool.eq_false_iff.2 fun h => by
    have := (isBlank_iff _).1 h c (by simp)
    rw [hc] at this; simp at this
  have hb2 : isBlank last = false := Bool.eq_false_iff.2 fun h => by
    obtain ⟨d, hd, hds⟩ := hl
    have := (isBlank_iff _).1 h d hd
    rw [hds] at this; simp at this
  rw [List.dropWhile_cons, if_pos (by decide), List.cons_append, dropWhile_head _ _ _ hb1]
  rw [← List.cons_append, List.reverse_append]
  simp only [List.reverse_cons, List.reverse_nil, List.nil_append, List.reverse_append, List.cons_append]
  rw [List.dropWhile_cons, if_pos (by decide), dropWhile_head _ _ _ hb2]
  simp

/-! ### Sorting -/

theorem strLe_refl (a : Str) : strLe a a = true := by
  induction a with
  | nil => rfl
  | cons c a ih => simp [strLe, ih]

theorem strLe_iff (a b : Str) : strLe a b = true ↔ a = b ∨ Before a b := by
  induction a generalizing b with
  | nil =>
    cases b with
    | nil => simp [strLe]
    | cons d b => simp [strLe]; exact .nil d b
  | cons c a ih =>
    cases b with
    | nil =>
      simp only [strLe, Bool.false_eq_true, false_iff, not_or]
      exact ⟨by simp, fun h => nomatch h⟩
    | cons d b =>
      unfold strLe
      by_cases h : c = d
      · subst h
        rw [if_pos rfl, ih]
        constructor
        · rintro (rfl | h)
          · exact .inl rfl
          · exact .inr (.tail c a b h)
        · rintro (h | h)
          · exact .inl (by simpa using h)
          · cases h with
            | head _ _ _ _ h => exact absurd h (Nat.lt_irrefl _)
            | tail _ _ _ h => exact .inr h
      · rw [if_neg h, decide_eq_true_eq]
        constructor
        · exact fun h' => .inr (.head c d a b h')
        · rintro (h' | h')
          · simp [h] at h'
          · cases h' with
            | head _ _ _ _ h => exact h
            | tail _ _ _ _ => exact absurd rfl h

theorem before_total (a b : Str) : a = b ∨ Before a b ∨ Before b a := by
  induction a generalizing b with
  | nil =>
    cases b with
    | nil => exact .inl rfl
    | cons d b => exact .inr (.inl (.nil d b))
  | cons c a ih =>
    cases b with
    | nil => exact .inr (.inr (.nil c a))
    | cons d b =>
      rcases Nat.lt_trichotomy c.toNat d.toNat with h | h | h
      · exact .inr (.inl (.head c d a b h))
      · have : c = d := by
          apply Char.ext
          exact UInt32.toNat_inj.1 h
        subst this
        rcases ih b with rfl | h | h
        · exact .inl rfl
        · exact .inr (.inl (.tail c a b h))
        · exact .inr (.inr (.tail c b a h))
      · exact .inr (.inr (.head d c b a h))

theorem before_trans {a b c : Str} (h1 : Before a b) (h2 : Before b c) : Before a c := by
  induction h1 generalizing c with
  | nil b bs =>
    cases h2 with
    | head _ d _ ds _ => exact .nil d ds
    | tail _ _ ds _ => exact .nil b ds
  | head x y xs ys h =>
    cases h2 with
    | head _ d _ ds h' => exact .head x d xs ds (Nat.lt_trans h h')
    | tail _ _ ds _ => exact .head x y xs ds h
  | tail x xs ys h ih =>
    cases h2 with
    | head _ d _ ds h' => exact .head x d xs ds h'
    | tail _ _ ds h' => exact .tail x xs ds (ih h')

theorem before_irrefl (a : Str) : ¬ Before a a := by
  induction a with
  | nil => intro h; cases h
  | cons c a ih =>
    intro h
    cases h with
    | head _ _ _ _ h => exact Nat.lt_irrefl _ h
    | tail _ _ _ h => exact ih h

theorem insert_perm (t : Str) (l : List Str) : (insertSorted t l).Perm (t :: l) := by
  induction l with
  | nil => exact .refl _
  | cons u us ih =>
    unfold insertSorted
    split
    · exact .refl _
    · exact (List.Perm.cons u ih).trans (.swap t u us)

theorem sorted_perm (l : List Str) : (sorted l).Perm l := by
  induction l with
  | nil => exact .refl _
  | cons t l ih => exact (insert_perm t _).trans (.cons t ih)

theorem insert_before (t : Str) (l : List Str) (hl : l.Pairwise Before) (ht : t ∉ l) : (insertSorted t l).Pairwise Before := by
  induction l with
  | nil => simp [insertSorted]
  | cons u us ih =>
    rw [List.pairwise_cons] at hl
    unfold insertSorted
    split
    · rename_i h
      rw [List.pairwise_cons]
      have hb : Before t u := by
        rcases (strLe_iff t u).1 h with rfl | h
        · exact absurd (by simp) ht
        · exact h
      refine ⟨fun x hx => ?_, List.pairwise_cons.2 hl⟩
      rcases List.mem_cons.1 hx with rfl | hx
      · exact hb
      · exact before_trans hb (hl.1 x hx)
    · rename_i h
      rw [List.pairwise_cons]
      refine ⟨fun x hx => ?_, ih hl.2 (fun h => ht (List.mem_cons_of_mem _ h))⟩
      rcases List.mem_cons.1 ((insert_perm t us).mem_iff.1 hx) with rfl | hx
      · rcases before_total x u with rfl | h' | h'
        · exact absurd (strLe_refl x) h
        · exact absurd ((strLe_iff x u).2 (.inr h')) h
        · exact h'
      · exact hl.1 x hx

theorem sorted_before (l : List Str) (h : l.Nodup) : (sorted l).Pairwise Before := by
  induction l with
  | nil => exact List.Pairwise.nil
  | cons t l ih =>
    rw [List.nodup_cons] at h
    exact insert_before t _ (ih h.2) (fun hm => h.1 ((sorted_perm l).mem_iff.1 hm))

theorem before_unique : ∀ (l m : List Str), l.Pairwise Before → m.Pairwise Before → (∀ t, t ∈ l ↔ t ∈ m) → l = m := by
  intro l
  induction l with
  | nil =>
    intro m _ _ h
    cases m with
    | nil => rfl
    | cons u us => exact absurd ((h u).2 (by simp)) (by simp)
  | cons t l ih =>
    intro m hl hm h
    cases m with
    | nil => exact absurd ((h t).1 (by simp)) (by simp)
    | cons u m =>
      rw [List.pairwise_cons] at hl hm
      have htu : t = u := by
        rcases List.mem_cons.1 ((h t).1 (by simp)) with rfl | h1
        · rfl
        · rcases List.mem_cons.1 ((h u).2 (by simp)) with rfl | h2
          · rfl
          · exact absurd (before_trans (hl.1 u h2) (hm.1 t h1)) (before_irrefl t)
      subst htu
      congr 1
      apply ih m hl.2 hm.2
      intro x
      constructor
      · intro hx
        rcases List.mem_cons.1 ((h x).1 (List.mem_cons_of_mem _ hx)) with rfl | h'
        · exact absurd (hl.1 x hx) (before_irrefl x)
        · exact h'
      · intro hx
        rcases List.mem_cons.1 ((h x).2 (List.mem_cons_of_mem _ hx)) with rfl | h'
        · exact absurd (hm.1 x hx) (before_irrefl x)
        · exact h'

/-! ### Registrations -/

theorem setAdd_mem (s : List Str) (t x : Str) : x ∈ setAdd s t ↔ x ∈ s ∨ x = t := by
  unfold setAdd
  split
  · rename_i h
    constructor
    · exact .inl
    · rintro (h' | rfl)
      · exact h'
      · exact h
  · simp

theorem setAdd_nodup (s : List Str) (t : Str) (h : s.Nodup) : (setAdd s t).Nodup := by
  unfold setAdd
  split
  · exact h
  · rename_i hn
    rw [List.nodup_append]
    refine ⟨h, by simp, fun a ha b hb => ?_⟩
    rw [List.mem_singleton.1 hb]
    rintro rfl
    exact hn ha

theorem registrations_spec (ts s : List Str) (h : s.Nodup) :
    (ts.foldl (fun s t => (registered s t).2) s).Nodup ∧ ∀ x, x ∈ ts.foldl (fun s t => (registered s t).2) s ↔ x ∈ s ∨ x ∈ ts := by
  induction ts generalizing s with
  | nil => exact ⟨h, by simp⟩
  | cons t ts ih =>
    obtain ⟨h1, h2⟩ := ih (setAdd s t) (setAdd_nodup s t h)
    refine ⟨h1, fun x => ?_⟩
    rw [List.foldl_cons]
    have := h2 x
    rw [setAdd_mem] at this
    simp only [registered] at this ⊢
    rw [this, List.mem_cons]
    constructor
    · rintro ((h | h) | h)
      · exact .inl h
      · exact .inr (.inl h)
      · exact .inr (.inr h)
    · rintro (h | h | h)
      · exact .inl (.inl h)
      · exact .inl (.inr h)
      · exact .inr h

end Verif.Boxed
