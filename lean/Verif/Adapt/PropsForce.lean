import Verif.Adapt.PropsInterface

/-! C55: the functions that are asked to be bound through a lambda (`fn_force_lambda__regex`). -/

namespace Verif.Adapt.Props
open Verif.Py Verif.Adapt

theorem applyOne_name {g : Fn → Except Err (Option Adapter)} {f f' : Fn} (h : applyOne g f = .ok f') : f'.name = f.name := by
  unfold applyOne at h
  split at h
  · cases h
  · cases h; rfl
  · cases h; rfl

theorem applyList_name : ∀ {gs : List (Fn → Except Err (Option Adapter))} {f f' : Fn}, applyList gs f = .ok f' → f'.name = f.name
  | [], f, f', h => by cases h; rfl
  | g :: gs, f, f', h => by
    rw [applyList] at h
    split at h
    · cases h
    · rename_i f'' e
      rw [applyList_name h, applyOne_name e]

theorem applyAll_split {o : Options} {f g : Fn} (h : applyAll o f = .ok g) :
    ∃ f', applyList (adapters o) f = .ok f' ∧ g = maybeForceLambda o f' := by
  unfold applyAll at h
  split at h
  · cases h
  · rename_i f' e
    cases h
    exact ⟨f', e, rfl⟩

/-- C55: a function that is asked to be bound through a lambda is. -/
theorem C55_forced (o : Options) (f g : Fn) (h : applyAll o f = .ok g) (hf : o.forceLambda f.name = true) :
    g.lambdaToCall ≠ none := by
  obtain ⟨f', e, rfl⟩ := applyAll_split h
  rw [← applyList_name e] at hf
  unfold maybeForceLambda
  rw [hf, Bool.true_and]
  cases hl : f'.lambdaToCall with
  | none =>
    rw [if_pos (by rfl)]
    exact fun e => nomatch e
  | some l =>
    rw [if_neg (by simp)]
    rw [hl]
    exact fun e => nomatch e

/-- C55: the request adds one lambda, whose name tells it, to the functions that no adapter changed, and nothing to the others. -/
theorem C55_forced_only (o : Options) (f g : Fn) (h : applyAll o f = .ok g) :
    (∃ f', applyList (adapters o) f = .ok f' ∧ f'.lambdaToCall ≠ none ∧ g = f') ∨
      (o.forceLambda f.name = false ∧ applyList (adapters o) f = .ok g) ∨
      (o.forceLambda f.name = true ∧ ∃ f', applyList (adapters o) f = .ok f' ∧ f'.lambdaToCall = none ∧
        g.lambdas.length = f'.lambdas.length + 1 ∧ g.lambdaToCall = some (f.name ++ "_adapt_force_lambda".toList)) := by
  obtain ⟨f', e, rfl⟩ := applyAll_split h
  have hname := applyList_name e
  unfold maybeForceLambda
  cases hc : f'.lambdaToCall with
  | some l =>
    left
    refine ⟨f', e, (fun e' => by first | cases e' | (rw [hc] at e'; cases e')), ?_⟩
    rw [if_neg (by simp)]
  | none =>
    right
    cases hf : o.forceLambda f'.name with
    | false =>
      left
      rw [← hname]
      exact ⟨hf, by rw [if_neg (by simp)]; exact e⟩
    | true =>
      right
      rw [← hname]
      refine ⟨hf, f', e, hc, ?_⟩
      rw [if_pos (by rfl)]
      refine ⟨?_, rfl⟩
      show (f'.lambdas ++ [_]).length = _
      rw [List.length_append]; rfl

example : (applyAll { demo with forceLambda := fun _ => true } (fn simple)).toOption.map (·.lambdaToCall) =
    some (some ((fn simple).name ++ "_adapt_force_lambda".toList)) := by decide +kernel

end Verif.Adapt.Props
