import Verif.Cls.PropsBody

/-! C73: which classes can be copied from Python. -/

namespace Verif.Cls.Props
open Verif.Py Verif.Cls Verif.Adapt

/-- The options ask for copies of the class. -/
def Asked (o : Options) (c : Class) (deep : Bool) : Bool := if deep then o.deepCopy c.name else o.copy c.name

/-- The word of the generator for a copy. -/
def wordOf (deep : Bool) : Str := if deep then "deepcopy".toList else "copy".toList

/-- A class gets a copy if the options ask for it and C++ can copy it. -/
def C73_statement : Prop := ∀ (o : Options) (c : Class) (deep : Bool),
  shallCopy o c (wordOf deep) = (Asked o c deep && Spec.copyable c)

/-- The options of the examples, with copies. -/
def demoCopyO : Options := { demoO with copy := fun _ => true, deepCopy := fun _ => true }

/-- `Foo(const Foo&)` with other specifiers, type names and modifiers. -/
def demoCopyCtor (specifiers names modifiers : List Str) (deleted : Bool) (more : List Param) : Special :=
  ⟨true, ⟨"other".toList, { Fn.demoInt with typenames := names, specifiers := specifiers, modifiers := modifiers }, [], []⟩ :: more,
   if deleted then ["delete".toList] else [], .public_⟩

/-- C73. It fails: `Foo(Foo&&)` alone makes a class that can only be moved; `Foo(Foo&) = delete`, `Foo(const N::Foo&) = delete` and
`Foo(const Foo&, int = 0) = delete` are not seen. In all cases the binding has a copy that does not compile. -/
theorem C73_fails : ¬ C73_statement ∧
    ∀ s ∈ [demoCopyCtor [] ["Foo".toList] ["&&".toList] false [], demoCopyCtor [] ["Foo".toList] ["&".toList] true [],
      demoCopyCtor ["const".toList] ["N::Foo".toList] ["&".toList] true [],
      demoCopyCtor ["const".toList] ["Foo".toList] ["&".toList] true [⟨"x".toList, Fn.demoInt, [], "0".toList⟩]],
      shallCopy demoCopyO { demoClass with specials := [s] } "copy".toList = true ∧ Spec.copyable { demoClass with specials := [s] } = false := by
  have key : ∀ s ∈ [demoCopyCtor [] ["Foo".toList] ["&&".toList] false [], demoCopyCtor [] ["Foo".toList] ["&".toList] true [],
      demoCopyCtor ["const".toList] ["N::Foo".toList] ["&".toList] true [],
      demoCopyCtor ["const".toList] ["Foo".toList] ["&".toList] true [⟨"x".toList, Fn.demoInt, [], "0".toList⟩]],
      shallCopy demoCopyO { demoClass with specials := [s] } "copy".toList = true ∧
        Spec.copyable { demoClass with specials := [s] } = false := by decide +kernel
  refine ⟨fun h => ?_, key⟩
  have h := h demoCopyO { demoClass with specials := [demoCopyCtor [] ["Foo".toList] ["&&".toList] false []] } false
  obtain ⟨k1, k2⟩ := key _ (List.mem_cons_self ..)
  rw [k2, Bool.and_false] at h
  exact absurd (k1.symm.trans h) (by simp)

/-- The constructors from an object of the class are written `Foo(const Foo&)`, and there is at most one. -/
def PlainCopies (c : Class) : Prop :=
  (∀ s ∈ c.specials, Spec.fromOwn c s = true → ∃ p, s.params = [p] ∧ p.type.typenames = [c.name] ∧ Spec.fromConst s = true) ∧
  (∀ s ∈ c.specials, isCopyCtor c.name s = true → Spec.fromOwn c s = true) ∧ (c.specials.filter (Spec.fromOwn c)).length ≤ 1

theorem isCopyCtor_plain {c : Class} (h : PlainCopies c) : ∀ s ∈ c.specials, isCopyCtor c.name s = Spec.fromOwn c s := by
  intro s hs
  rw [Bool.eq_iff_iff]
  refine ⟨h.2.1 s hs, fun hf => ?_⟩
  obtain ⟨p, hp, ht, hc⟩ := h.1 s hs hf
  have hi : s.isCtor = true := by
    unfold Spec.fromOwn at hf
    exact (Bool.and_eq_true _ _ ▸ hf).1
  unfold Spec.fromConst at hc
  rw [hp] at hc
  unfold isCopyCtor
  rw [hi, hp, Bool.true_and]
  dsimp only at hc ⊢
  rw [decide_eq_true ht, Bool.true_and, hc, Bool.true_or]

theorem find_of_filter {α : Type} {p q : α → Bool} (l : List α) (h : ∀ x ∈ l, p x = q x) : l.find? p = (l.filter q).head? := by
  induction l with
  | nil => rfl
  | cons x l ih =>
    have hx := h x (List.mem_cons_self ..)
    have ih := ih (fun y hy => h y (List.mem_cons_of_mem _ hy))
    cases hp : q x with
    | true => rw [List.find?_cons_of_pos (by rw [hx, hp]), List.filter_cons_of_pos hp, List.head?_cons]
    | false => rw [List.find?_cons_of_neg (by rw [hx, hp]; simp), List.filter_cons_of_neg (by rw [hp]; simp), ih]

/-- C73. For every class whose constructors from an object of the class are at most one, written `Foo(const Foo&)`: it gets a copy exactly if
the options ask for it and the class can be copied. Missing: see `C73_fails`. -/
theorem C73_partial (o : Options) (c : Class) (deep : Bool) (h : PlainCopies c) :
    shallCopy o c (wordOf deep) = (Asked o c deep && Spec.copyable c) := by
  have hw : (if wordOf deep = "copy".toList then o.copy else o.deepCopy) c.name = Asked o c deep := by
    unfold wordOf Asked
    cases deep with
    | true => rw [if_neg (by decide)]; rfl
    | false => rfl
  unfold shallCopy
  rw [hw]
  cases Asked o c deep with
  | false => rfl
  | true =>
    rw [Bool.not_true, if_neg (by simp), Bool.true_and, find_of_filter _ (isCopyCtor_plain h)]
    have hl := h.2.2
    unfold Spec.copyable
    dsimp only
    cases hf : c.specials.filter (Spec.fromOwn c) with
    | nil => rfl
    | cons s r =>
      have hm : s ∈ c.specials.filter (Spec.fromOwn c) := by rw [hf]; exact List.mem_cons_self ..
      rw [hf, List.length_cons] at hl
      have hr : r = [] := List.length_eq_zero_iff.1 (by omega)
      subst hr
      obtain ⟨hm, hs⟩ := List.mem_filter.1 hm
      obtain ⟨_, _, _, hc⟩ := h.1 s hm hs
      rw [List.head?_cons, List.filter_cons_of_pos hc, List.filter_nil]
      dsimp only
      by_cases ha : s.access = .public_
      · by_cases hd : "delete".toList ∈ s.specifiers
        · rw [if_neg (not_not.2 ha), if_pos hd, List.all_cons, List.all_nil, ha, Bool.and_true, decide_eq_false (not_not.2 hd)]
          simp
        · rw [if_neg (not_not.2 ha), if_neg hd, List.all_cons, List.all_nil, ha, Bool.and_true, decide_eq_true hd]
          simp
      · rw [if_pos ha, List.all_cons, decide_eq_false ha]
        simp

example : PlainCopies { demoClass with specials := [demoCopyCtor ["const".toList] ["Foo".toList] ["&".toList] true []] } ∧
    shallCopy demoCopyO { demoClass with specials := [demoCopyCtor ["const".toList] ["Foo".toList] ["&".toList] true []] } "copy".toList = false ∧
    PlainCopies demoClass ∧ shallCopy demoCopyO demoClass "copy".toList = true := by
  refine ⟨⟨?_, ?_, ?_⟩, by decide +kernel, ⟨?_, ?_, ?_⟩, by decide +kernel⟩
  · intro s hs _
    rw [List.mem_singleton] at hs
    subst hs
    exact ⟨_, rfl, by decide +kernel, by decide +kernel⟩
  · decide +kernel
  · decide +kernel
  · intro s hs
    cases hs
  all_goals decide +kernel

/-- C73. The text of the copies, for every class: one lambda that calls the copy constructor for every copy that the class gets, in order. -/
theorem C73_text (o : Options) (c : Class) (hi : '{' ∉ o.indent) (hq : '{' ∉ Spec.className c) :
    copyPydef o c = join "\n".toList (([false, true].filter (fun d => shallCopy o c (wordOf d))).map (fun d =>
      unlines (Spec.copyLines (Fn.lib o.toOptions) o.indent (Spec.className c) d))) := by
  rw [copyPydef_eq o c hi hq]
  refine congrArg (join "\n".toList) ?_
  unfold copiesOf
  have e1 : wordOf false = "copy".toList := rfl
  have e2 : wordOf true = "deepcopy".toList := rfl
  cases h1 : shallCopy o c "copy".toList <;> cases h2 : shallCopy o c "deepcopy".toList <;>
    simp only [List.filter_cons, List.filter_nil, e1, e2, h1, h2, if_true, if_false, Bool.false_eq_true, List.map_cons, List.map_nil,
      List.nil_append, List.append_nil, List.cons_append]

example : '{' ∉ demoCopyO.indent ∧ '{' ∉ Spec.className demoClass ∧ String.ofList (copyPydef demoCopyO demoClass) =
    ".def(\"__copy__\",  [](const N::Foo &self) {\n    return N::Foo(self);\n})\n" ++
    ".def(\"__deepcopy__\",  [](const N::Foo &self, py::dict) {\n    return N::Foo(self);\n}, py::arg(\"memo\"))" := by decide +kernel

/-- C73. The docstring announces exactly the copies of the binding, if the options want this remark. -/
theorem C73_announced (o : Options) (c : Class) :
    copyComment o c = if o.copyInfo then Spec.copyRemark (shallCopy o c (wordOf false)) (shallCopy o c (wordOf true)) else [] := by
  have hd : shallCopy o c "deep_copy".toList = shallCopy o c (wordOf true) := by
    unfold shallCopy wordOf
    rw [if_pos rfl, if_neg (show ¬ "deep_copy".toList = "copy".toList by decide), if_neg (show ¬ "deepcopy".toList = "copy".toList by decide)]
  have hc : shallCopy o c "copy".toList = shallCopy o c (wordOf false) := rfl
  unfold copyComment
  rw [hd, hc]
  generalize shallCopy o c (wordOf true) = d
  generalize shallCopy o c (wordOf false) = p
  cases o.copyInfo with
  | false => rfl
  | true => cases p <;> cases d <;> decide

end Verif.Cls.Props
