import Verif.Elem.LemmasVar
import Verif.Elem.Props

/-! C42: the C++ variables of the bindings. -/

namespace Verif.Elem.Props
open Verif.Py Verif.Elem Spec

/-- Elements with different scopes never share a variable. -/
def C42_distinct_statement : Prop :=
  ∀ (roots : List Str) (a b : List ScopePart), a ≠ [] → b ≠ [] → varNameOf roots a [] = varNameOf roots b [] → a = b

/-- **C42, refuted part.** The class `B` inside the class `A`, and a class named `A_ClassB`, get the same variable. -/
theorem C42_distinct_fails : ¬ C42_distinct_statement := by
  intro h
  have := h [] [⟨.classOrStruct, "A".toList⟩, ⟨.classOrStruct, "B".toList⟩] [⟨.classOrStruct, "A_ClassB".toList⟩]
    (by simp) (by simp) (by decide +kernel)
  revert this
  decide +kernel

/-- **C42, refuted part.** Classes of the same name in two root namespaces get the same variable, however plain the
names. -/
theorem C42_roots_fails : ¬ ∀ (roots : List Str) (a b : List ScopePart), (∀ p ∈ a, Plain p.name) → (∀ p ∈ b, Plain p.name) →
    varNameOf roots a [] = varNameOf roots b [] → a = b := by
  intro h
  have pl : ∀ s : Str, '_' ∉ s → Plain s := by
    intro s hs m hm hi
    obtain ⟨t, rfl, _⟩ := marks_shape hm
    exact hs (hi.subset (List.mem_cons_self ..))
  have := h ["N".toList, "M".toList] [⟨.namespace_, "N".toList⟩, ⟨.classOrStruct, "C".toList⟩]
    [⟨.namespace_, "M".toList⟩, ⟨.classOrStruct, "C".toList⟩]
    (by intro p hp; simp only [List.mem_cons, List.not_mem_nil, or_false] at hp
        rcases hp with rfl | rfl <;> exact pl _ (by decide))
    (by intro p hp; simp only [List.mem_cons, List.not_mem_nil, or_false] at hp
        rcases hp with rfl | rfl <;> exact pl _ (by decide)) (by decide +kernel)
  revert this
  decide +kernel

/-- **C42.** When no name contains `_Class`, `_Ns` or `_Enum`, elements that are not template specialisations share a
variable only if their scopes are the same once root namespaces are removed. -/
theorem C42_distinct_partial (roots : List Str) (a b : List ScopePart) (ha : ∀ p ∈ a, Plain p.name)
    (hb : ∀ p ∈ b, Plain p.name) (h : varNameOf roots a [] = varNameOf roots b []) :
    pybindScope roots a = pybindScope roots b := by
  have hsub : ∀ s : List ScopePart, (∀ p ∈ s, Plain p.name) → ∀ p ∈ pybindScope roots s, Plain p.name :=
    fun s hs p hp => hs p (List.mem_filter.1 hp).1
  cases hpa : pybindScope roots a with
  | nil =>
    cases hpb : pybindScope roots b with
    | nil => rfl
    | cons q qs =>
      obtain ⟨r, hr⟩ := varNameOf_py roots b [] (by rw [hpb]; simp)
      rw [varNameOf_nil roots a [] hpa, hr] at h
      simp at h
  | cons p ps =>
    cases hpb : pybindScope roots b with
    | nil =>
      obtain ⟨r, hr⟩ := varNameOf_py roots a [] (by rw [hpa]; simp)
      rw [varNameOf_nil roots b [] hpb, hr] at h
      simp at h
    | cons q qs =>
      rw [varNameOf_cons roots a p ps hpa, varNameOf_cons roots b q qs hpb] at h
      have h1 : tailText (p :: ps) = tailText (q :: qs) := by
        simp only [tailText]
        rw [List.append_cancel_left h]
      have h2 := hsub a ha
      have h3 := hsub b hb
      rw [hpa] at h2
      rw [hpb] at h3
      exact tailText_inj _ _ h2 h3 h1

example : varNameOf [] [⟨.namespace_, "Foo_Bar".toList⟩, ⟨.classOrStruct, "Class_".toList⟩] [] =
    "pyNsFoo_Bar_ClassClass_".toList := by decide +kernel

/-- **C42.** In particular, without root namespaces on the way, different scopes have different variables. -/
theorem C42_distinct_no_roots_partial (roots : List Str) (a b : List ScopePart) (ha : ∀ p ∈ a, Plain p.name)
    (hb : ∀ p ∈ b, Plain p.name) (hra : ∀ p ∈ a, p.type = .namespace_ → p.name ∉ roots)
    (hrb : ∀ p ∈ b, p.type = .namespace_ → p.name ∉ roots)
    (h : varNameOf roots a [] = varNameOf roots b []) : a = b := by
  have key : ∀ s : List ScopePart, (∀ p ∈ s, p.type = .namespace_ → p.name ∉ roots) → pybindScope roots s = s := by
    intro s hs
    apply List.filter_eq_self.2
    intro p hp
    simp only [keptPart, Bool.not_eq_true', decide_eq_false_iff_not, not_and]
    exact hs p hp
  have := C42_distinct_partial roots a b ha hb h
  rwa [key a hra, key b hrb] at this

/-- **C42.** The module variable `m` is never the variable of a class, an enum or a namespace that is not a root one. -/
theorem C42_not_module (roots : List Str) (scope : List ScopePart) (params : List Str) :
    varNameOf roots scope params = "m".toList ↔ pybindScope roots scope = [] := by
  constructor
  · intro h
    cases hp : pybindScope roots scope with
    | nil => rfl
    | cons p ps =>
      obtain ⟨r, hr⟩ := varNameOf_py roots scope params (by rw [hp]; simp)
      rw [hr] at h
      simp at h
  · exact varNameOf_nil roots scope params

/-- Two specialisations of a template never share a variable. -/
def C42_templates_statement : Prop :=
  ∀ (roots : List Str) (scope : List ScopePart) (a b : List Str), pybindScope roots scope ≠ [] → a ≠ [] → b ≠ [] →
    varNameOf roots scope a = varNameOf roots scope b → a = b

/-- **C42, refuted part.** The specialisations for `A::B` and for `A_B` (as those for `a, b` and for `a_b`, or for
`std::string` and `string`) share a variable. -/
theorem C42_templates_fails : ¬ C42_templates_statement := by
  intro h
  have := h [] [⟨.classOrStruct, "C".toList⟩] ["A::B".toList] ["A_B".toList] (by decide +kernel) (by simp) (by simp)
    (by decide +kernel)
  revert this
  decide +kernel

/-- **C42.** For arguments without `_`, `*`, `:` nor blanks, different specialisations have different variables. -/
theorem C42_templates_partial (roots : List Str) (scope : List ScopePart) (a b : List Str)
    (hs : pybindScope roots scope ≠ []) (ha : ∀ s ∈ a, PlainArg s) (hb : ∀ s ∈ b, PlainArg s)
    (h : varNameOf roots scope a = varNameOf roots scope b) : a = b := by
  have hmap : ∀ l : List Str, (∀ s ∈ l, PlainArg s) → l.map argName = l := by
    intro l hl
    induction l with
    | nil => rfl
    | cons x l ih => rw [List.map_cons, argName_plain (hl x (by simp)), ih (fun s hs => hl s (by simp [hs]))]
  unfold varNameOf at h
  split at h
  · rename_i h'
    simp at h'
    exact absurd h' hs
  · simp only [hmap a ha, hmap b hb] at h
    by_cases ea : a = []
    · by_cases eb : b = []
      · rw [ea, eb]
      · rw [if_pos ea, if_neg eb] at h
        have := congrArg List.length h
        simp at this
    · by_cases eb : b = []
      · rw [if_neg ea, if_pos eb] at h
        have := congrArg List.length h
        simp at this
      · rw [if_neg ea, if_neg eb] at h
        have h' := List.append_cancel_left h
        have hu : ∀ l : List Str, (∀ s ∈ l, PlainArg s) → ∀ s ∈ l, '_' ∉ s := fun l hl s hs hc => ((hl s hs).2 _ hc).2.2.2 rfl
        rw [← splitOn_join (c := '_') ea (hu a ha), ← splitOn_join (c := '_') eb (hu b hb)]
        exact congrArg (splitOn '_') h'

example : varNameOf [] [⟨.classOrStruct, "C".toList⟩] ["int".toList, "double".toList] = "pyClassC_int_double".toList := by
  decide +kernel

/-- Every element is registered on the variable declared for the element that encloses it. -/
def C42_used_statement : Prop :=
  ∀ (ks : Kinds) (t : Forest) (ps ps' : Parents) (roots : List Str), Distinct t → fillParents ps none t = some ps' →
    ∀ path i, At t path i → (¬ ∃ outer, CEnumMember ks path i outer) → ∀ n, path.length < n →
      usedVar ks ps' n roots i = enclosingVar ks ps' n roots path

/-- **C42, refuted part.** The specialisation for `int` of a template function of the namespace `N` is registered on the
variable `pyNsN_int`, which is not declared. -/
theorem C42_used_fails : ¬ C42_used_statement := by
  intro h
  have h2 := h (fun i => if i = 0 then .namespace_ "N".toList else .function ["int".toList])
    (.cons 0 (.cons 1 .nil .nil) .nil) (fun _ => none) _ [] (by unfold Distinct; decide +kernel) rfl [0] 1
    (.down _ _ (.here _ _ _)) (by rintro ⟨o, e, b, n, hk, _⟩; simp at hk) 5 (by decide)
  revert h2
  decide +kernel

/-- **C42, refuted part.** A class inside the specialisation for `int` of a template class is registered on the variable
`pyClassC` whereas `pyClassC_int` is declared. -/
theorem C42_used_class_fails : ∃ (ks : Kinds) (ps' : Parents), fillParents (fun _ => none) none (.cons 0 (.cons 1 .nil .nil) .nil) = some ps' ∧
    usedVar ks ps' 5 [] 1 = some "pyClassC".toList ∧ enclosingVar ks ps' 5 [] [0] = some "pyClassC_int".toList :=
  ⟨fun i => if i = 0 then .struct "C".toList ["int".toList] else .struct "D".toList [], _, rfl, by decide +kernel, by decide +kernel⟩

/-- **C42.** Without template specialisations, every element is registered on the variable declared for the innermost
element that encloses it and has one, or on the module. -/
theorem C42_used_partial (ks : Kinds) (t : Forest) (ps ps' : Parents) (roots : List Str) (hd : Distinct t)
    (hf : fillParents ps none t = some ps') (path : List Nat) (i : Nat) (h : At t path i)
    (hc : ¬ ∃ outer, CEnumMember ks path i outer) (n : Nat) (hn : path.length < n)
    (hi : selfScope (ks i) = none → tparams (ks i) = []) (hp : ∀ e, enclosing ks roots path = some e → tparams (ks e) = []) :
    usedVar ks ps' n roots i = enclosingVar ks ps' n roots path := by
  have hused : usedVar ks ps' n roots i = some (parentVarNameOf roots (scopesOf ks path)) := by
    unfold usedVar parentVarName varName
    cases hs : selfScope (ks i) with
    | some p => simp only; rw [(C49_scope ks t hd ps ps' hf path i h hc n hn).1]; rfl
    | none =>
      simp only
      rw [C49_self_partial ks t hd ps ps' hf path i h hc hs n hn, (C49_scope ks t hd ps ps' hf path i h hc n hn).1, hi hs]
      simp [varNameOf_parent]
  rw [hused]
  unfold enclosingVar
  cases he : enclosing ks roots path with
  | none =>
    have : path.filter (HasVar ks roots) = [] := List.getLast?_eq_none_iff.1 he
    simp only
    unfold parentVarNameOf
    rw [pybind_prefix, this]
    rfl
  | some e =>
    simp only
    obtain ⟨a, b, hab, hpe, hb⟩ := getLast?_filter_split _ _ _ he
    have hat : At t a e := at_split h a e b hab
    have hce : ¬ ∃ outer, CEnumMember ks a e outer := by
      rintro ⟨o, e', b', nm, hk, _⟩
      rw [HasVar, hk] at hpe
      simp [selfScope] at hpe
    have hlen : a.length < n := by
      have := congrArg List.length hab
      simp at this
      omega
    unfold varName
    rw [(C49_scope ks t hd ps ps' hf a e hat hce n hlen).2, hp e he]
    simp only [Option.map_some, Option.some.injEq, varNameOf_parent]
    unfold parentVarNameOf
    rw [pybind_prefix, pybind_prefix, hab]
    have : (a ++ e :: b).filter (HasVar ks roots) = (a ++ [e]).filter (HasVar ks roots) := by
      rw [show a ++ e :: b = (a ++ [e]) ++ b by simp, List.filter_append, hb, List.append_nil]
    rw [this]

example : ∃ ps', fillParents (fun _ => none) none sample = some ps' ∧ usedVar sampleKinds ps' 7 [] 3 = some "pyNsN".toList ∧
    enclosingVar sampleKinds ps' 7 [] [0, 1, 2] = some "pyNsN".toList :=
  ⟨_, rfl, by decide +kernel, by decide +kernel⟩

end Verif.Elem.Props
