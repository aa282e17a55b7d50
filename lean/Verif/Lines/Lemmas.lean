import Mathlib.Data.List.Chain
import Verif.Py.StrLemmas
import Verif.Lines.Model
import Verif.Lines.Spec

namespace Verif.Lines
open Verif.Py

theorem blank_iff (l : Str) : isBlank l = true ↔ Spec.Blank l := isBlank_iff l

/-! ### run-length encoding -/

section RLE
variable {α : Type} [DecidableEq α]

/-- Decoding. -/
def decode (r : List (α × Nat)) : List α := r.flatMap (fun p => List.replicate p.2 p.1)

theorem decode_append (a b : List (α × Nat)) : decode (a ++ b) = decode a ++ decode b := by
  simp [decode]

theorem rle_invariant (l : List α) (acc : List (α × Nat))
    (hpos : ∀ p ∈ acc, 1 ≤ p.2) (hch : List.IsChain (fun p q => p.1 ≠ q.1) acc) :
    (∀ p ∈ l.foldl rleStep acc, 1 ≤ p.2) ∧
    List.IsChain (fun p q => p.1 ≠ q.1) (l.foldl rleStep acc) ∧
    decode (l.foldl rleStep acc).reverse = decode acc.reverse ++ l := by
  induction l generalizing acc with
  | nil => exact ⟨hpos, hch, by simp⟩
  | cons x xs ih =>
    simp only [List.foldl_cons]
    cases acc with
    | nil =>
      have h := ih [(x, 1)] (by simp) (by simp)
      exact ⟨h.1, h.2.1, by
        have h3 := h.2.2
        simp [rleStep] at h3 ⊢
        rw [h3]; simp [decode]⟩
    | cons p rest =>
      obtain ⟨y, n⟩ := p
      by_cases hxy : x = y
      · subst hxy
        have h := ih ((x, n + 1) :: rest)
          (by
            intro p hp
            rcases List.mem_cons.1 hp with rfl | hp
            · simp
            · exact hpos p (by simp [hp]))
          (by
            cases rest with
            | nil => simp
            | cons q rest =>
              rw [List.isChain_cons_cons] at hch ⊢
              exact ⟨hch.1, hch.2⟩)
        simp only [rleStep, if_true]
        refine ⟨h.1, h.2.1, ?_⟩
        rw [h.2.2]
        simp [decode, List.replicate_succ']
      · have h := ih ((x, 1) :: (y, n) :: rest)
          (by
            intro p hp
            rcases List.mem_cons.1 hp with rfl | hp
            · simp
            · exact hpos p hp)
          (by
            rw [List.isChain_cons_cons]
            exact ⟨hxy, hch⟩)
        simp only [rleStep, if_neg hxy]
        refine ⟨h.1, h.2.1, ?_⟩
        rw [h.2.2]
        simp [decode]

theorem rle_pos (l : List α) : ∀ p ∈ runLengthEncode l, 1 ≤ p.2 := by
  intro p hp
  have := (rle_invariant l [] (by simp) (by simp)).1
  exact this p (by simpa [runLengthEncode] using hp)

theorem rle_chain (l : List α) :
    List.IsChain (fun p q : α × Nat => p.1 ≠ q.1) (runLengthEncode l) := by
  have := (rle_invariant l [] (by simp) (by simp)).2.1
  unfold runLengthEncode
  rw [List.isChain_reverse]
  exact this.imp (fun _ _ h => h.symm)

theorem rle_decode (l : List α) : decode (runLengthEncode l) = l := by
  have := (rle_invariant l [] (by simp) (by simp)).2.2
  simpa [runLengthEncode, decode] using this

end RLE

/-! ### blank-line compaction -/

theorem emitRun_sublist (n : Nat) (p : Str × Nat) :
    List.Sublist (emitRun n p) (List.replicate p.2 p.1) := by
  unfold emitRun
  simp only
  apply List.replicate_sublist_replicate _ |>.2
  split
  · rename_i h; simp at h; exact h.2
  · exact Nat.le_refl _

theorem emitRun_not_blank {n : Nat} {p : Str × Nat} (h : isBlank p.1 = false) :
    emitRun n p = List.replicate p.2 p.1 := by
  simp [emitRun, h]

theorem flatMap_emit_sublist (n : Nat) (r : List (Str × Nat)) :
    List.Sublist (r.flatMap (emitRun n)) (decode r) := by
  induction r with
  | nil => simp [decode]
  | cons p r ih =>
    simp only [decode, List.flatMap_cons] at ih ⊢
    exact List.Sublist.append (emitRun_sublist n p) ih

theorem filter_emit (n : Nat) (r : List (Str × Nat)) :
    (r.flatMap (emitRun n)).filter (fun l => !isBlank l) = (decode r).filter (fun l => !isBlank l) := by
  induction r with
  | nil => simp [decode]
  | cons p r ih =>
    simp only [decode, List.flatMap_cons, List.filter_append] at ih ⊢
    rw [ih]
    congr 1
    cases h : isBlank p.1 with
    | false => rw [emitRun_not_blank h]
    | true => simp [emitRun, List.filter_replicate, h]

theorem cap_replicate_blank (n k seen : Nat) (l : Str) (hl : Spec.Blank l) (rest : List Str) :
    Spec.cap n seen (List.replicate k l ++ rest) =
      List.replicate (min k (n - seen)) l ++ Spec.cap n (seen + k) rest := by
  induction k generalizing seen with
  | zero => simp
  | succ k ih =>
    rw [List.replicate_succ, List.cons_append, Spec.cap, if_pos hl]
    split
    · rename_i h
      rw [ih, show min (k + 1) (n - seen) = min k (n - (seen + 1)) + 1 by omega,
        List.replicate_succ, List.cons_append, show seen + 1 + k = seen + (k + 1) by omega]
    · rename_i h
      rw [ih, show min (k + 1) (n - seen) = min k (n - (seen + 1)) by omega,
        show seen + 1 + k = seen + (k + 1) by omega]

theorem cap_replicate_not_blank (n k seen : Nat) (l : Str) (hl : ¬ Spec.Blank l) (hk : 1 ≤ k)
    (rest : List Str) :
    Spec.cap n seen (List.replicate k l ++ rest) = List.replicate k l ++ Spec.cap n 0 rest := by
  induction k generalizing seen with
  | zero => omega
  | succ k ih =>
    rw [List.replicate_succ, List.cons_append, Spec.cap, if_neg hl]
    cases k with
    | zero => simp
    | succ k => rw [ih 0 (by omega)]; simp [List.replicate_succ]

/-- `cap` does not look at the counter if the text does not start with a blank line. -/
theorem cap_head_not_blank (n s1 s2 : Nat) (ls : List Str) (h : ∀ l ∈ ls.head?, ¬ Spec.Blank l) :
    Spec.cap n s1 ls = Spec.cap n s2 ls := by
  cases ls with
  | nil => simp [Spec.cap]
  | cons l ls =>
    have : ¬ Spec.Blank l := h l (by simp)
    simp [Spec.cap, this]

theorem emit_eq_cap (n : Nat) (r : List (Str × Nat)) (hpos : ∀ p ∈ r, 1 ≤ p.2)
    (hch : List.IsChain (fun p q : Str × Nat => ¬ (Spec.Blank p.1 ∧ Spec.Blank q.1)) r) :
    r.flatMap (emitRun n) = Spec.cap n 0 (decode r) := by
  induction r with
  | nil => simp [decode, Spec.cap]
  | cons p r ih =>
    have hch' : List.IsChain (fun p q : Str × Nat => ¬ (Spec.Blank p.1 ∧ Spec.Blank q.1)) r := by
      cases r with
      | nil => simp
      | cons q r => exact (List.isChain_cons_cons.1 hch).2
    have ih := ih (fun q hq => hpos q (by simp [hq])) hch'
    show emitRun n p ++ r.flatMap (emitRun n) = Spec.cap n 0 (List.replicate p.2 p.1 ++ decode r)
    by_cases hb : Spec.Blank p.1
    · rw [cap_replicate_blank n p.2 0 p.1 hb]
      have e : emitRun n p = List.replicate (min p.2 (n - 0)) p.1 := by
        simp only [emitRun, (blank_iff p.1).2 hb, Bool.true_and, decide_eq_true_eq]
        congr 1
        split <;> omega
      rw [e, ih]
      congr 1
      apply cap_head_not_blank
      intro l hl
      cases r with
      | nil => simp [decode] at hl
      | cons q r =>
        have hq := (List.isChain_cons_cons.1 hch).1
        have hq1 : 1 ≤ q.2 := hpos q (by simp)
        obtain ⟨k, hk⟩ : ∃ k, q.2 = k + 1 := ⟨q.2 - 1, by omega⟩
        have : l = q.1 := by
          simp [decode, hk, List.replicate_succ] at hl; exact hl.symm
        subst this
        exact fun h => hq ⟨hb, h⟩
    · rw [cap_replicate_not_blank n p.2 0 p.1 hb (hpos p (by simp)), ← ih,
        emitRun_not_blank (by rw [Bool.eq_false_iff, Ne, blank_iff]; exact hb)]

theorem mem_decode_of_mem {r : List (Str × Nat)} (hpos : ∀ p ∈ r, 1 ≤ p.2) {p : Str × Nat}
    (hp : p ∈ r) : p.1 ∈ decode r := by
  simp only [decode, List.mem_flatMap]
  exact ⟨p, hp, by simp [List.mem_replicate]; have := hpos p hp; omega⟩

theorem chain_of_uniform (r : List (Str × Nat)) (hpos : ∀ p ∈ r, 1 ≤ p.2)
    (hch : List.IsChain (fun p q : Str × Nat => p.1 ≠ q.1) r)
    (hu : Spec.UniformBlanks (decode r)) :
    List.IsChain (fun p q : Str × Nat => ¬ (Spec.Blank p.1 ∧ Spec.Blank q.1)) r := by
  have key : ∀ p ∈ r, ∀ q ∈ r, Spec.Blank p.1 → Spec.Blank q.1 → p.1 = q.1 :=
    fun p hp q hq h1 h2 => hu _ (mem_decode_of_mem hpos hp) _ (mem_decode_of_mem hpos hq) h1 h2
  clear hu hpos
  induction r with
  | nil => simp
  | cons p r ih =>
    cases r with
    | nil => simp
    | cons q r =>
      rw [List.isChain_cons_cons] at hch ⊢
      exact ⟨fun h => hch.1 (key p (by simp) q (by simp) h.1 h.2),
        ih hch.2 (fun a ha b hb => key a (List.mem_cons_of_mem _ ha) b (List.mem_cons_of_mem _ hb))⟩

/-- In `cap n seen ls`, a leading run of blank lines has length at most `n - seen`,
and any run at most `n`. -/
theorem cap_runs (n seen : Nat) (ls : List Str) :
    (∀ run b, Spec.cap n seen ls = run ++ b → (∀ l ∈ run, Spec.Blank l) → run.length ≤ n - seen) ∧
    Spec.BlankRunsAtMost n (Spec.cap n seen ls) := by
  induction ls generalizing seen with
  | nil =>
    refine ⟨?_, ?_⟩
    · intro run b h _
      have : run = [] := by
        cases run with
        | nil => rfl
        | cons x xs => simp [Spec.cap] at h
      simp [this]
    · intro a run b h _
      have : run = [] := by
        cases run with
        | nil => rfl
        | cons x xs => simp [Spec.cap] at h
      simp [this]
  | cons l ls ih =>
    by_cases hb : Spec.Blank l
    · by_cases hs : seen < n
      · obtain ⟨h1, h2⟩ := ih (seen + 1)
        rw [Spec.cap, if_pos hb, if_pos hs]
        have first : ∀ run b, l :: Spec.cap n (seen + 1) ls = run ++ b →
            (∀ l ∈ run, Spec.Blank l) → run.length ≤ n - seen := by
          intro run b h hr
          cases run with
          | nil => simp
          | cons x xs =>
            simp at h
            have := h1 xs b h.2 (fun y hy => hr y (by simp [hy]))
            simp; omega
        refine ⟨first, ?_⟩
        intro a run b h hr
        cases a with
        | nil => have := first run b (by simpa using h) hr; omega
        | cons x xs =>
          simp at h
          exact h2 xs run b (by simp [h.2]) hr
      · obtain ⟨h1, h2⟩ := ih (seen + 1)
        rw [Spec.cap, if_pos hb, if_neg hs]
        refine ⟨?_, h2⟩
        intro run b h hr
        have := h1 run b h hr
        omega
    · obtain ⟨h1, h2⟩ := ih 0
      rw [Spec.cap, if_neg hb]
      refine ⟨?_, ?_⟩
      · intro run b h hr
        cases run with
        | nil => simp
        | cons x xs =>
          simp at h
          exact absurd (h.1 ▸ hr x (by simp)) hb
      · intro a run b h hr
        cases a with
        | nil =>
          cases run with
          | nil => simp
          | cons x xs =>
            simp at h
            exact absurd (h.1 ▸ hr x (by simp)) hb
        | cons x xs =>
          simp at h
          exact h2 xs run b (by simp [h.2]) hr

/-! ### stripping -/

theorem dropWhile_decomp (p : Str → Bool) (ls : List Str) :
    ∃ a, ls = a ++ ls.dropWhile p ∧ ∀ l ∈ a, p l = true := by
  refine ⟨ls.takeWhile p, by simp, ?_⟩
  intro l hl
  have := List.all_takeWhile (p := p) (l := ls)
  rw [List.all_eq_true] at this
  exact this l hl

theorem strip_list_decomp (ls : List Str) :
    ∃ a b, ls = a ++ stripEmptyLinesInList ls ++ b ∧ (∀ l ∈ a, isBlank l = true) ∧
      (∀ l ∈ b, isBlank l = true) := by
  obtain ⟨a, h1, h2⟩ := dropWhile_decomp isBlank ls
  obtain ⟨b, h3, h4⟩ := dropWhile_decomp isBlank (ls.dropWhile isBlank).reverse
  refine ⟨a, b.reverse, ?_, h2, fun l hl => h4 l (by simpa using hl)⟩
  have : ls.dropWhile isBlank = stripEmptyLinesInList ls ++ b.reverse := by
    have := congrArg List.reverse h3
    rw [List.reverse_reverse, List.reverse_append] at this
    exact this
  rw [List.append_assoc, ← this]
  exact h1

theorem strip_list_last (ls : List Str) :
    ∀ l ∈ (stripEmptyLinesInList ls).getLast?, isBlank l = false := by
  intro l hl
  unfold stripEmptyLinesInList at hl
  simp only [List.getLast?_reverse] at hl
  have := List.head?_dropWhile_not (p := isBlank) (l := (ls.dropWhile isBlank).reverse)
  rw [Option.mem_def] at hl
  rw [hl] at this
  simpa using this

theorem strip_list_head (ls : List Str) :
    ∀ l ∈ (stripEmptyLinesInList ls).head?, isBlank l = false := by
  intro l hl
  have hd : ∀ m ∈ (ls.dropWhile isBlank).head?, isBlank m = false := by
    intro m hm
    have := List.head?_dropWhile_not (p := isBlank) (l := ls)
    rw [Option.mem_def] at hm
    rw [hm] at this
    simpa using this
  obtain ⟨b, h3, _⟩ := dropWhile_decomp isBlank (ls.dropWhile isBlank).reverse
  have h5 : ls.dropWhile isBlank = stripEmptyLinesInList ls ++ b.reverse := by
    have := congrArg List.reverse h3
    rw [List.reverse_reverse, List.reverse_append] at this
    exact this
  apply hd
  rw [h5]
  cases h6 : stripEmptyLinesInList ls with
  | nil => rw [h6] at hl; simp at hl
  | cons x xs => rw [h6] at hl; simpa using hl

theorem strip_list_eq_self {ls : List Str} (h1 : ∀ l ∈ ls.head?, isBlank l = false)
    (h2 : ∀ l ∈ ls.getLast?, isBlank l = false) : stripEmptyLinesInList ls = ls := by
  have e1 : ls.dropWhile isBlank = ls := by
    cases ls with
    | nil => rfl
    | cons x xs => have := h1 x (by simp); simp [this]
  unfold stripEmptyLinesInList
  simp only [e1]
  have e2 : ls.reverse.dropWhile isBlank = ls.reverse := by
    cases h : ls.reverse with
    | nil => rfl
    | cons x xs =>
      have : ls.getLast? = some x := by rw [← List.head?_reverse, h]; rfl
      have := h2 x (by simp [this])
      simp [this]
  rw [e2, List.reverse_reverse]

end Verif.Lines
