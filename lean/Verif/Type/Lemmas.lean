import Verif.Type.Spec

namespace Verif.Type
open Verif.Py Spec

theorem join_append {sep : Str} : ∀ {a b : List Str}, a ≠ [] → b ≠ [] → join sep (a ++ b) = join sep a ++ sep ++ join sep b
  | [], _, h, _ => absurd rfl h
  | [x], b, _, h => by
    cases b with
    | nil => exact absurd rfl h
    | cons y ys => show join sep (x :: y :: ys) = _; rw [join_cons_cons]; simp [join]
  | x :: y :: a, b, _, h => by
    show join sep (x :: y :: (a ++ b)) = _
    rw [join_cons_cons, join_cons_cons]
    have := join_append (sep := sep) (a := y :: a) (b := b) (by simp) h
    rw [List.cons_append] at this
    rw [this]; simp

theorem join_eq_nil {sep : Str} (hsep : sep ≠ []) : ∀ {l : List Str}, (∀ w ∈ l, w ≠ []) → join sep l = [] → l = []
  | [], _, _ => rfl
  | [x], h, hj => absurd hj (h x (by simp))
  | x :: y :: l, _, hj => by
    rw [join_cons_cons] at hj
    simp at hj
    exact absurd hj.2.1 hsep

theorem joinRemoveEmpty_of {l : List Str} (h : ∀ w ∈ l, w ≠ []) (sep : Str) : joinRemoveEmpty sep l = join sep l := by
  unfold joinRemoveEmpty
  rw [List.filter_eq_self.2]
  intro w hw
  simp only [decide_eq_true_eq]
  exact List.length_pos_iff.2 (h w hw)

theorem jre_cons_nil (sep : Str) (l : List Str) : joinRemoveEmpty sep ([] :: l) = joinRemoveEmpty sep l := rfl

theorem jre_cons (sep x : Str) (l : List Str) (h : x ≠ []) : joinRemoveEmpty sep (x :: l) =
    join sep (x :: l.filter (fun s => s.length > 0)) := by
  unfold joinRemoveEmpty
  rw [List.filter_cons, if_pos (by simpa using List.length_pos_iff.2 h)]

/-- Joining the three groups is joining all the words. -/
theorem join_three (a b c : List Str) (ha : ∀ w ∈ a, w ≠ []) (hb : ∀ w ∈ b, w ≠ []) (hc : ∀ w ∈ c, w ≠ []) :
    joinRemoveEmpty blank [join blank a, join blank b, join blank c] = join blank (a ++ b ++ c) := by
  have hbl : blank ≠ [] := by simp [blank]
  have e : ∀ l : List Str, (∀ w ∈ l, w ≠ []) → l ≠ [] → join blank l ≠ [] := by
    intro l hl hne hj
    exact hne (join_eq_nil hbl hl hj)
  have e0 : join blank [] = [] := rfl
  by_cases h1 : a = []
  · subst h1
    rw [e0, jre_cons_nil, List.nil_append]
    by_cases h2 : b = []
    · subst h2
      rw [e0, jre_cons_nil, List.nil_append]
      by_cases h3 : c = []
      · subst h3; rfl
      · rw [jre_cons _ _ _ (e c hc h3)]; rfl
    · rw [jre_cons _ _ _ (e b hb h2)]
      by_cases h3 : c = []
      · subst h3; simp [e0, join]
      · have : ([join blank c].filter fun s => decide (s.length > 0)) = [join blank c] := by
          rw [List.filter_cons, if_pos (by simpa using List.length_pos_iff.2 (e c hc h3))]; rfl
        rw [this, join_append h2 h3, join_cons_cons]; simp [join]
  · rw [jre_cons _ _ _ (e a ha h1)]
    by_cases h2 : b = []
    · subst h2
      by_cases h3 : c = []
      · subst h3; simp [e0, join]
      · have : ([join blank [], join blank c].filter fun s => decide (s.length > 0)) = [join blank c] := by
          rw [e0, List.filter_cons, if_neg (by simp), List.filter_cons, if_pos (by simpa using List.length_pos_iff.2 (e c hc h3))]; rfl
        rw [this, List.append_nil, join_append h1 h3, join_cons_cons]; simp [join]
    · by_cases h3 : c = []
      · subst h3
        have : ([join blank b, join blank []].filter fun s => decide (s.length > 0)) = [join blank b] := by
          rw [List.filter_cons, if_pos (by simpa using List.length_pos_iff.2 (e b hb h2)), e0]; rfl
        rw [this, List.append_nil, join_append h1 h2, join_cons_cons]; simp [join]
      · have : ([join blank b, join blank c].filter fun s => decide (s.length > 0)) = [join blank b, join blank c] := by
          rw [List.filter_cons, if_pos (by simpa using List.length_pos_iff.2 (e b hb h2)), List.filter_cons,
            if_pos (by simpa using List.length_pos_iff.2 (e c hc h3))]; rfl
        rw [this, join_append (by simp [h1]) h3, join_append h1 h2, join_cons_cons, join_cons_cons]; simp [join]

theorem erase_last (a b : List Str) (x : Str) (hb : x ∉ b) : ((a ++ x :: b).reverse.erase x).reverse = a ++ b := by
  rw [List.reverse_append, List.reverse_cons, List.append_assoc,
    List.erase_append_right _ (by simpa using hb), List.singleton_append, List.erase_cons_head]
  simp

theorem wanted_filter : ∀ (us s0 r : List Str), us.Nodup → (∀ u ∈ us, r.count u ≤ 1) → (∀ u ∈ us, u ∈ s0 ↔ u ∈ r) →
    us.foldl (fun r u => if u ∈ s0 then r.erase u else r) r = r.filter (fun w => ¬ w ∈ us)
  | [], s0, r, _, _, _ => by symm; apply List.filter_eq_self.2; simp
  | u :: us, s0, r, hn, hc, hm => by
    rw [List.foldl_cons]
    obtain ⟨hu, hn'⟩ := List.nodup_cons.1 hn
    have hfil : (if u ∈ s0 then r.erase u else r) = r.filter (fun w => ¬ w = u) := by
      by_cases h : u ∈ s0
      · rw [if_pos h]
        have h1 := hc u (by simp)
        clear hm hc
        induction r with
        | nil => rfl
        | cons x r ih =>
          by_cases hx : x = u
          · subst hx
            rw [List.erase_cons_head, List.filter_cons, if_neg (by simp)]
            rw [List.count_cons_self] at h1
            symm
            apply List.filter_eq_self.2
            intro w hw
            simp only [decide_eq_true_eq]
            rintro rfl
            have := List.count_pos_iff.2 hw
            omega
          · rw [List.erase_cons_tail (by simpa using hx), List.filter_cons, if_pos (by simpa using hx)]
            rw [ih (by rw [List.count_cons_of_ne (fun e => hx e)] at h1; exact h1)]
      · rw [if_neg h]
        symm
        apply List.filter_eq_self.2
        intro w hw
        simp only [decide_eq_true_eq]
        rintro rfl
        exact h ((hm w (by simp)).2 hw)
    rw [hfil, wanted_filter us s0 _ hn']
    · rw [List.filter_filter]
      apply List.filter_congr
      intro w _
      simp only [List.mem_cons, not_or]
      by_cases h1 : w = u <;> simp [h1]
    · intro v hv
      have := hc v (by simp [hv])
      exact Nat.le_trans (List.Sublist.count_le _ List.filter_sublist) this
    · intro v hv
      rw [hm v (by simp [hv]), List.mem_filter]
      simp only [decide_eq_true_eq]
      constructor
      · intro h; exact ⟨h, by rintro rfl; exact hu hv⟩
      · exact fun h => h.1

end Verif.Type
