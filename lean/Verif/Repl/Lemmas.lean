import Verif.Py.StrLemmas
import Verif.Repl.Model
import Verif.Repl.Spec

namespace Verif.Repl
open Verif.Py

theorem pass_eq (sub : Engine) (rs : List Replacement) (s : Str) :
    pass sub rs s = Spec.inOrder (rs.map (fun r => sub r.what r.byWhat)) s := by
  induction rs generalizing s with
  | nil => rfl
  | cons r rs ih => exact ih _

theorem pass_append (sub : Engine) (a b : List Replacement) (s : Str) :
    pass sub (a ++ b) s = pass sub b (pass sub a s) := by
  simp [pass, List.foldl_append]

/-- Unfolding the loop: three passes, stopping at a fixed point. -/
theorem apply_eq (sub : Engine) (rs : List Replacement) (s : Str) :
    apply sub rs s =
      let p := pass sub rs
      if p s = s then p s else if p (p s) = p s then p (p s) else p (p (p s)) := by
  unfold apply
  simp only [applyLoop]
  by_cases h1 : pass sub rs s = s
  · simp [h1]
  · by_cases h2 : pass sub rs (pass sub rs s) = pass sub rs s
    · simp [h1, h2]
    · have h1' : s ≠ pass sub rs s := fun e => h1 e.symm
      have h2' : pass sub rs s ≠ pass sub rs (pass sub rs s) := fun e => h2 e.symm
      simp [h1, h2, h1', h2']

theorem mapM_option_map {α β : Type} (f : α → Option β) (l : List α) (r : List β) :
    l.mapM f = some r ↔ l.map f = r.map some := by
  induction l generalizing r with
  | nil =>
    cases r with
    | nil => simp
    | cons a b => simp
  | cons a l ih =>
    rw [List.mapM_cons]
    cases h : f a with
    | none => cases r <;> simp [h]
    | some b =>
      cases hl : l.mapM f with
      | none =>
        cases r with
        | nil => simp [h, hl]
        | cons c d =>
          simp [h, hl]
          intro _ e
          rw [(ih d).2 e] at hl
          cases hl
      | some t =>
        have := (ih t).1 hl
        cases r with
        | nil => simp [h, hl]
        | cons c d =>
          simp [h, hl, this]
          intro _
          constructor
          · rintro rfl; rfl
          · intro e
            exact (List.map_inj_right (fun _ _ h => Option.some.inj h)).1 e

theorem mapM_option_none {α β : Type} (f : α → Option β) (l : List α) :
    l.mapM f = none ↔ ∃ x ∈ l, f x = none := by
  induction l with
  | nil => simp
  | cons a l ih =>
    rw [List.mapM_cons]
    cases h : f a with
    | none => simp [h]
    | some b =>
      cases hl : l.mapM f with
      | none => simpa [h, hl] using ih.1 hl
      | some t =>
        simp [h, hl]
        intro x hx he
        have := ih.2 ⟨x, hx, he⟩
        rw [hl] at this; cases this

/-! ### `split` on a multi character separator -/

theorem splitAux_skip (sep cur : Str) (k : Nat) (a b : Str) (h : a.length = k) :
    splitAux sep k cur (a ++ b) = splitAux sep 0 cur b := by
  induction a generalizing k with
  | nil => simp at h; subst h; rfl
  | cons x xs ih =>
    cases k with
    | zero => simp at h
    | succ k => simp at h; simpa [splitAux] using ih k h

/-- A text where the separator first appears after `a`. -/
theorem splitAux_first (sep a b cur : Str) (hne : sep ≠ [])
    (h : ∀ x y, a = x ++ y → y ≠ [] → ¬ sep <+: (y ++ sep ++ b)) :
    splitAux sep 0 cur (a ++ sep ++ b) = (cur.reverse ++ a) :: splitAux sep 0 [] b := by
  induction a generalizing cur with
  | nil =>
    cases sep with
    | nil => exact absurd rfl hne
    | cons c cs =>
      show splitAux (c :: cs) 0 cur (c :: (cs ++ b)) = _
      conv => lhs; unfold splitAux
      have : (c :: cs).isPrefixOf (c :: (cs ++ b)) = true := by
        rw [List.isPrefixOf_iff_prefix]; exact ⟨b, by simp⟩
      rw [if_pos this]
      simp
      exact splitAux_skip _ _ cs.length cs b rfl
  | cons x xs ih =>
    show splitAux sep 0 cur (x :: (xs ++ sep ++ b)) = _
    conv => lhs; unfold splitAux
    have : sep.isPrefixOf (x :: (xs ++ sep ++ b)) = false := by
      rw [Bool.eq_false_iff]
      intro h'
      exact h [] (x :: xs) rfl (by simp) (List.isPrefixOf_iff_prefix.1 h')
    rw [this]
    simp only [Bool.false_eq_true, if_false]
    rw [ih (x :: cur)]
    · simp
    · intro u v huv hv
      exact h (x :: u) v (by simp [huv]) hv

theorem splitAux_none (sep s cur : Str) (h : contains s sep = false) :
    splitAux sep 0 cur s = [cur.reverse ++ s] := by
  induction s generalizing cur with
  | nil => simp [splitAux]
  | cons c cs ih =>
    unfold contains at h
    rw [Bool.or_eq_false_iff] at h
    unfold splitAux
    rw [h.1]
    simp [ih (c :: cur) h.2]

theorem splitAux_ne_nil (sep : Str) (k : Nat) (cur s : Str) : splitAux sep k cur s ≠ [] := by
  induction s generalizing k cur with
  | nil => simp [splitAux]
  | cons c cs ih =>
    cases k with
    | zero => unfold splitAux; split
              · simp
              · exact ih _ _
    | succ k => exact ih _ _

/-- A non trivial split when the separator is present. -/
theorem splitAux_two (sep s cur : Str) (hne : sep ≠ []) (h : contains s sep = true) :
    ∃ a b r, splitAux sep 0 cur s = a :: b :: r := by
  induction s generalizing cur with
  | nil =>
    cases sep with
    | nil => exact absurd rfl hne
    | cons c cs => simp [contains] at h
  | cons c cs ih =>
    unfold splitAux
    by_cases hp : sep.isPrefixOf (c :: cs) = true
    · rw [if_pos hp]
      cases hs : splitAux sep (sep.length - 1) [] cs with
      | nil => exact absurd hs (splitAux_ne_nil _ _ _ _)
      | cons x y => exact ⟨_, _, _, rfl⟩
    · rw [if_neg hp]
      apply ih
      unfold contains at h
      rw [Bool.or_eq_true] at h
      exact h.resolve_left hp

end Verif.Repl
