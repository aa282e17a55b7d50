import Verif.Iter.Model

/-! Property C126: which classes are iterable. -/

namespace Verif.Iter.Props
open Verif.Py

theorem afterCalls_eq (calls : List ((Str → Bool) × Str)) : afterCalls calls = calls.map (fun c => ⟨c.1, c.2⟩) := by
  have h : ∀ is, calls.foldl (fun is c => addIterableClass is c.1 c.2) is = is ++ calls.map (fun c => (⟨c.1, c.2⟩ : Info)) := by
    induction calls with
    | nil => intro is; simp
    | cons c cs ih => intro is; rw [List.foldl_cons, ih]; simp [addIterableClass]
  exact h []

theorem type_some (is : List Info) (name t : Str) :
    pythonIterableType is name = some t ↔
      ∃ a i b, is = a ++ i :: b ∧ (∀ j ∈ a, j.matches_ name = false) ∧ i.matches_ name = true ∧ i.type = t := by
  induction is with
  | nil => simp [pythonIterableType, isClassIterable]
  | cons i is ih =>
    cases h : i.matches_ name
    · have e : pythonIterableType (i :: is) name = pythonIterableType is name := by simp [pythonIterableType, isClassIterable, firstType, h]
      rw [e, ih]
      constructor
      · rintro ⟨a, j, b, rfl, ha, hj⟩
        refine ⟨i :: a, j, b, rfl, ?_, hj⟩
        intro x hx
        rcases List.mem_cons.1 hx with rfl | hx
        · exact h
        · exact ha x hx
      · rintro ⟨a, j, b, e, ha, hj, ht⟩
        cases a with
        | nil =>
          rw [List.nil_append, List.cons.injEq] at e
          rw [← e.1, h] at hj
          exact Bool.noConfusion hj
        | cons x a =>
          rw [List.cons_append, List.cons.injEq] at e
          exact ⟨a, j, b, e.2, fun y hy => ha y (List.mem_cons_of_mem _ hy), hj, ht⟩
    · have e : pythonIterableType (i :: is) name = some i.type := by simp [pythonIterableType, isClassIterable, firstType, h]
      rw [e, Option.some.injEq]
      constructor
      · exact fun ht => ⟨[], i, is, rfl, by simp, h, ht⟩
      · rintro ⟨a, j, b, e, ha, hj, ht⟩
        cases a with
        | nil =>
          rw [List.nil_append, List.cons.injEq] at e
          rw [e.1, ht]
        | cons x a =>
          rw [List.cons_append, List.cons.injEq] at e
          have := ha x (List.mem_cons_self ..)
          rw [← e.1, h] at this
          exact Bool.noConfusion this

/-- C126. After any calls of `add_iterable_class`, for every class: the type of its items is the one of the first call whose regular expression
matches the class. -/
theorem C126_first (calls : List ((Str → Bool) × Str)) (name t : Str) :
    pythonIterableType (afterCalls calls) name = some t ↔
      ∃ a c b, calls = a ++ c :: b ∧ (∀ d ∈ a, d.1 name = false) ∧ c.1 name = true ∧ c.2 = t := by
  rw [afterCalls_eq, type_some]
  constructor
  · rintro ⟨a, i, b, e, ha, hi, ht⟩
    obtain ⟨a', r, e1, rfl, e2⟩ := List.map_eq_append_iff.1 e
    obtain ⟨c, b', rfl, rfl, rfl⟩ := List.map_eq_cons_iff.1 e2
    exact ⟨a', c, b', e1, fun d hd => ha _ (List.mem_map.2 ⟨d, hd, rfl⟩), hi, ht⟩
  · rintro ⟨a, c, b, rfl, ha, hc, ht⟩
    refine ⟨a.map (fun c => ⟨c.1, c.2⟩), ⟨c.1, c.2⟩, b.map (fun c => ⟨c.1, c.2⟩), by simp, ?_, hc, ht⟩
    intro j hj
    obtain ⟨d, hd, rfl⟩ := List.mem_map.1 hj
    exact ha d hd

/-- C126. A class is iterable exactly if one of the calls matches it, and then the `assert` of `python_iterable_type` holds. -/
theorem C126_iterable (calls : List ((Str → Bool) × Str)) (name : Str) :
    (isClassIterable (afterCalls calls) name = true ↔ ∃ c ∈ calls, c.1 name = true) ∧
      (isClassIterable (afterCalls calls) name = true ↔ ∃ t, pythonIterableType (afterCalls calls) name = some t) := by
  have h2 : ∀ is, isClassIterable is name = true ↔ ∃ t, pythonIterableType is name = some t := by
    intro is
    unfold pythonIterableType
    cases isClassIterable is name <;> simp
  refine ⟨?_, h2 _⟩
  rw [afterCalls_eq]
  induction calls with
  | nil => simp [isClassIterable]
  | cons c cs ih =>
    cases h : c.1 name
    · simpa [isClassIterable, h] using ih
    · simp [isClassIterable, h]

/-- C126. A further call changes nothing for the classes that are iterable, and it gives its type to exactly the others that it matches. -/
theorem C126_further (calls : List ((Str → Bool) × Str)) (regex : Str → Bool) (type name : Str) :
    pythonIterableType (afterCalls (calls ++ [(regex, type)])) name =
      match pythonIterableType (afterCalls calls) name with
      | some t => some t
      | none => if regex name then some type else none := by
  rw [afterCalls_eq, afterCalls_eq, List.map_append]
  induction calls with
  | nil => cases h : regex name <;> simp [pythonIterableType, isClassIterable, firstType, h]
  | cons c cs ih =>
    cases h : c.1 name
    · simpa [pythonIterableType, isClassIterable, firstType, h] using ih
    · simp [pythonIterableType, isClassIterable, firstType, h]

/-- Two calls that match `A`: the first gives the type. Only the second matches `B`, and none `C`. -/
example :
    let calls : List ((Str → Bool) × Str) := [(fun n => n == ['A'], ['i']), (fun n => n == ['A'] || n == ['B'], ['f'])]
    pythonIterableType (afterCalls calls) ['A'] = some ['i'] ∧ pythonIterableType (afterCalls calls) ['B'] = some ['f'] ∧
      pythonIterableType (afterCalls calls) ['C'] = none := by decide

end Verif.Iter.Props
