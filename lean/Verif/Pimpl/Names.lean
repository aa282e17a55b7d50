import Verif.Pimpl.Model
import Verif.Pimpl.Spec

/-! C98: the name of the published class, and the class that is chosen. -/

namespace Verif.Pimpl.Props
open Verif.Py Verif.Pimpl

/-- The name without a suffix. -/
theorem take_append (x s : Str) : (x ++ s).take ((x ++ s).length - s.length) = x := by
  rw [List.length_append, Nat.add_sub_cancel, List.take_left]

theorem ends_iff (n s : Str) : endsWith n s = true ↔ ∃ x, x ++ s = n := List.isSuffixOf_iff_suffix

/-- C98: the published name is the one of the class without the first suffix of the list, among those with which it ends; and there is no name when it ends
with none of them. -/
theorem C98_exact (suffixes : List Str) (name : Str) :
    (∀ pub, publishedName suffixes name = some pub ↔
      ∃ l s r, suffixes = l ++ s :: r ∧ name = pub ++ s ∧ ∀ t ∈ l, ¬ ∃ x, name = x ++ t) ∧
    (publishedName suffixes name = none ↔ ∀ t ∈ suffixes, ¬ ∃ x, name = x ++ t) := by
  induction suffixes with
  | nil =>
    refine ⟨fun pub => ⟨fun h => (by cases h), ?_⟩, ⟨fun _ _ h => (by cases h), fun _ => rfl⟩⟩
    rintro ⟨l, s, r, h, _⟩
    exact absurd h (by simp)
  | cons s l ih =>
    unfold publishedName
    by_cases he : endsWith name s = true
    · rw [if_pos he]
      obtain ⟨x, rfl⟩ := (ends_iff name s).1 he
      rw [take_append]
      refine ⟨fun pub => ⟨?_, ?_⟩, ⟨fun h => (by cases h), fun h => absurd ⟨x, rfl⟩ (h s (by simp))⟩⟩
      · intro h
        exact ⟨[], s, l, rfl, by rw [Option.some.inj h], fun _ h => (by cases h)⟩
      · rintro ⟨a, t, b, h1, h2, h3⟩
        cases a with
        | nil =>
          rw [List.nil_append] at h1
          injection h1 with h4 h5
          subst h4
          rw [List.append_cancel_right h2]
        | cons u a =>
          rw [List.cons_append] at h1
          injection h1 with h4 h5
          exact absurd ⟨x, by rw [h4]⟩ (h3 u (by simp))
    · rw [if_neg he]
      have hs : ¬ ∃ x, name = x ++ s := fun ⟨x, e⟩ => he ((ends_iff name s).2 ⟨x, e.symm⟩)
      refine ⟨fun pub => ?_, ?_⟩
      · rw [ih.1 pub]
        constructor
        · rintro ⟨a, t, b, h1, h2, h3⟩
          refine ⟨s :: a, t, b, by rw [h1]; rfl, h2, ?_⟩
          intro u hu
          rcases List.mem_cons.1 hu with rfl | hu
          · exact hs
          · exact h3 u hu
        · rintro ⟨a, t, b, h1, h2, h3⟩
          cases a with
          | nil =>
            rw [List.nil_append] at h1
            injection h1 with h4 h5
            exact absurd ⟨pub, by rw [h4]; exact h2⟩ hs
          | cons u a =>
            rw [List.cons_append] at h1
            injection h1 with h4 h5
            exact ⟨a, t, b, h5, h2, fun v hv => h3 v (List.mem_cons_of_mem _ hv)⟩
      · rw [ih.2]
        exact ⟨fun h t ht => (List.mem_cons.1 ht).elim (fun e => e ▸ hs) (h t), fun h t ht => h t (List.mem_cons_of_mem _ ht)⟩

example : publishedName defaultOptions.suffixes "PersonPImpl".toList = some "Person".toList ∧
    publishedName defaultOptions.suffixes "Person".toList = none := by decide +kernel

/-- The full statement: for every suffix of the options, the class `X` + suffix is published as `X`. -/
def C98_suffixes_statement : Prop := ∀ x : Str, x ≠ [] → (∀ c ∈ x, c.isAlphanum) → ∀ s ∈ defaultOptions.suffixes,
  publishedName defaultOptions.suffixes (x ++ s) = some x

/-- It fails for the last suffixes of the list: `PersonPimpl` ends with `impl`, and is published as `PersonP`. -/
theorem C98_suffixes_fails : ¬ C98_suffixes_statement := by
  intro h
  exact absurd (h "Person".toList (by decide +kernel) (by decide +kernel) "Pimpl".toList (by decide +kernel)) (by decide +kernel)

/-- More: the two last suffixes are never used. -/
theorem C98_suffixes_never (x : Str) : publishedName defaultOptions.suffixes (x ++ "Pimpl".toList) = some (x ++ ['P']) ∧
    publishedName defaultOptions.suffixes (x ++ "_Pimpl".toList) = some (x ++ ['_', 'P']) := by
  constructor
  · refine ((C98_exact _ _).1 _).2 ⟨["_pimpl", "_impl", "pimpl"].map String.toList, "impl".toList,
      ["_PImpl", "_Impl", "PImpl", "Impl", "_Pimpl", "Pimpl"].map String.toList, rfl, by simp, ?_⟩
    rintro t ht ⟨y, e⟩
    have e2 := congrArg (fun l : Str => l.reverse.take 5) e
    simp only [List.reverse_append] at e2
    simp only [List.map_cons, List.map_nil, List.mem_cons, List.not_mem_nil, or_false] at ht
    rcases ht with rfl | rfl | rfl <;> simp at e2
  · refine ((C98_exact _ _).1 _).2 ⟨["_pimpl", "_impl", "pimpl"].map String.toList, "impl".toList,
      ["_PImpl", "_Impl", "PImpl", "Impl", "_Pimpl", "Pimpl"].map String.toList, rfl, by simp, ?_⟩
    rintro t ht ⟨y, e⟩
    have e2 := congrArg (fun l : Str => l.reverse.take 5) e
    simp only [List.reverse_append] at e2
    simp only [List.map_cons, List.map_nil, List.mem_cons, List.not_mem_nil, or_false] at ht
    rcases ht with rfl | rfl | rfl <;> simp at e2

/-- It holds for the other suffixes, if the name before does not end with `_`, `p` or `P`. -/
theorem C98_suffixes_partial (x s : Str) (hs : s ∈ ["_pimpl", "_impl", "pimpl", "impl", "_PImpl", "_Impl", "PImpl", "Impl"].map String.toList)
    (hx : ∀ c ∈ ['_', 'p', 'P'], x.getLast? ≠ some c) : publishedName defaultOptions.suffixes (x ++ s) = some x := by
  have hr : ∀ c ∈ ['_', 'p', 'P'], ∀ z : Str, x.reverse ≠ c :: z := by
    intro c hc z e
    have h1 : x = z.reverse ++ [c] := by rw [← List.reverse_reverse x, e, List.reverse_cons]
    exact hx c hc (by rw [h1]; simp)
  have h1 := hr '_' (by decide)
  have h2 := hr 'p' (by decide)
  have h3 := hr 'P' (by decide)
  rw [(C98_exact _ _).1]
  simp only [List.map_cons, List.map_nil, List.mem_cons, List.not_mem_nil, or_false] at hs
  rcases hs with rfl | rfl | rfl | rfl | rfl | rfl | rfl | rfl
  · refine ⟨([] : List String).map String.toList, _, ["_impl", "pimpl", "impl", "_PImpl", "_Impl", "PImpl", "Impl", "_Pimpl", "Pimpl"].map String.toList, rfl, rfl, ?_⟩
    intro t ht
    cases ht
  · refine ⟨(["_pimpl"] : List String).map String.toList, _, ["pimpl", "impl", "_PImpl", "_Impl", "PImpl", "Impl", "_Pimpl", "Pimpl"].map String.toList, rfl, rfl, ?_⟩
    rintro t ht ⟨y, e⟩
    have e2 := congrArg List.reverse e
    simp only [List.map_cons, List.map_nil, List.mem_cons, List.not_mem_nil, or_false] at ht
    rcases ht with rfl <;> simp [h1, h2, h3] at e2
  · refine ⟨(["_pimpl", "_impl"] : List String).map String.toList, _, ["impl", "_PImpl", "_Impl", "PImpl", "Impl", "_Pimpl", "Pimpl"].map String.toList, rfl, rfl, ?_⟩
    rintro t ht ⟨y, e⟩
    have e2 := congrArg List.reverse e
    simp only [List.map_cons, List.map_nil, List.mem_cons, List.not_mem_nil, or_false] at ht
    rcases ht with rfl | rfl <;> simp [h1, h2, h3] at e2
  · refine ⟨(["_pimpl", "_impl", "pimpl"] : List String).map String.toList, _, ["_PImpl", "_Impl", "PImpl", "Impl", "_Pimpl", "Pimpl"].map String.toList, rfl, rfl, ?_⟩
    rintro t ht ⟨y, e⟩
    have e2 := congrArg List.reverse e
    simp only [List.map_cons, List.map_nil, List.mem_cons, List.not_mem_nil, or_false] at ht
    rcases ht with rfl | rfl | rfl <;> simp [h1, h2, h3] at e2
  · refine ⟨(["_pimpl", "_impl", "pimpl", "impl"] : List String).map String.toList, _, ["_Impl", "PImpl", "Impl", "_Pimpl", "Pimpl"].map String.toList, rfl, rfl, ?_⟩
    rintro t ht ⟨y, e⟩
    have e2 := congrArg List.reverse e
    simp only [List.map_cons, List.map_nil, List.mem_cons, List.not_mem_nil, or_false] at ht
    rcases ht with rfl | rfl | rfl | rfl <;> simp [h1, h2, h3] at e2
  · refine ⟨(["_pimpl", "_impl", "pimpl", "impl", "_PImpl"] : List String).map String.toList, _, ["PImpl", "Impl", "_Pimpl", "Pimpl"].map String.toList, rfl, rfl, ?_⟩
    rintro t ht ⟨y, e⟩
    have e2 := congrArg List.reverse e
    simp only [List.map_cons, List.map_nil, List.mem_cons, List.not_mem_nil, or_false] at ht
    rcases ht with rfl | rfl | rfl | rfl | rfl <;> simp [h1, h2, h3] at e2
  · refine ⟨(["_pimpl", "_impl", "pimpl", "impl", "_PImpl", "_Impl"] : List String).map String.toList, _, ["Impl", "_Pimpl", "Pimpl"].map String.toList, rfl, rfl, ?_⟩
    rintro t ht ⟨y, e⟩
    have e2 := congrArg List.reverse e
    simp only [List.map_cons, List.map_nil, List.mem_cons, List.not_mem_nil, or_false] at ht
    rcases ht with rfl | rfl | rfl | rfl | rfl | rfl <;> simp [h1, h2, h3] at e2
  · refine ⟨(["_pimpl", "_impl", "pimpl", "impl", "_PImpl", "_Impl", "PImpl"] : List String).map String.toList, _, ["_Pimpl", "Pimpl"].map String.toList, rfl, rfl, ?_⟩
    rintro t ht ⟨y, e⟩
    have e2 := congrArg List.reverse e
    simp only [List.map_cons, List.map_nil, List.mem_cons, List.not_mem_nil, or_false] at ht
    rcases ht with rfl | rfl | rfl | rfl | rfl | rfl | rfl <;> simp [h1, h2, h3] at e2

example : publishedName defaultOptions.suffixes "Person_impl".toList = some "Person".toList :=
  C98_suffixes_partial "Person".toList "_impl".toList (by decide +kernel) (by decide +kernel)

/-- The full statement: the first class whose name has a suffix is published. -/
def C98_first_statement : Prop := ∀ (o : Options) (structs : List Class),
  pimplMyCode o structs = some ((structs.find? (fun c => (publishedName o.suffixes c.name).isSome)).bind (pimplMyClass o))

/-- It fails: the first class of the code is taken, and an exception is raised if it is not an implementation. -/
theorem C98_first_fails : ¬ C98_first_statement := by
  intro h
  have := h defaultOptions [⟨true, "Helper".toList, ⟨[], [], false⟩, []⟩, ⟨true, "PersonPImpl".toList, ⟨[], [], false⟩, []⟩]
  have h1 : pimplMyCode defaultOptions [⟨true, "Helper".toList, ⟨[], [], false⟩, []⟩, ⟨true, "PersonPImpl".toList, ⟨[], [], false⟩, []⟩] = none := by
    have : publishedName defaultOptions.suffixes "Helper".toList = none := by decide +kernel
    unfold pimplMyCode pimplMyClass
    simp only [this, Option.map_none]
  rw [h1] at this
  cases this

/-- It holds if the first class is an implementation, or if there are no classes. -/
theorem C98_first_partial (o : Options) (structs : List Class) (h : ∀ c, structs.head? = some c → (publishedName o.suffixes c.name).isSome = true) :
    pimplMyCode o structs = some ((structs.find? (fun c => (publishedName o.suffixes c.name).isSome)).bind (pimplMyClass o)) := by
  cases structs with
  | nil => rfl
  | cons c l =>
    have hc := h c rfl
    rw [List.find?_cons_of_pos (p := fun c : Class => (publishedName o.suffixes c.name).isSome) hc]
    show Option.map some (pimplMyClass o c) = some (pimplMyClass o c)
    unfold pimplMyClass
    obtain ⟨pub, hp⟩ := Option.isSome_iff_exists.1 hc
    rw [hp]
    rfl

example : (publishedName defaultOptions.suffixes "PersonPImpl".toList).isSome = true := by decide +kernel

end Verif.Pimpl.Props
