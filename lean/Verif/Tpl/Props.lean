import Verif.Tpl.Lemmas

/-! C43: the decisions on template specialisations are consistent. -/

namespace Verif.Tpl.Props
open Verif.Py Verif.Tpl.Spec

/-- `matches` of the regular expression `^name$` -/
private def only (name : String) (s : Str) : Bool := s = name.toList

private def optA : TSpec := ⟨only "MyData", ["int".toList, "std::string".toList], false, [⟨"MyInt".toList, "int".toList⟩]⟩
private def optB : TSpec := ⟨only "MyData", ["double".toList], true, []⟩

/-! ### The parts of a type -/

/-- C43. The options are compared with the parts of the type: for `Name<Argument>`, the name and the argument (which may itself
have template arguments). -/
theorem C43_parts (name arg : Str) (h : '<' ∉ name) :
    CppTy.isTemplate ⟨name ++ '<' :: arg ++ ['>']⟩ = true ∧ CppTy.templateName ⟨name ++ '<' :: arg ++ ['>']⟩ = name ∧
      CppTy.argText ⟨name ++ '<' :: arg ++ ['>']⟩ = arg := by
  have h1 : (name ++ '<' :: arg ++ ['>']).takeWhile (· ≠ '<') = name := by
    rw [List.append_assoc, List.takeWhile_append_of_pos (by intro x hx; simp; rintro rfl; exact h hx)]
    simp
  refine ⟨by simp [CppTy.isTemplate], h1, ?_⟩
  unfold CppTy.argText
  simp only [h1]
  have h2 : ((name ++ '<' :: arg ++ ['>']).reverse.takeWhile (· ≠ '>')).length = 0 := by simp
  rw [h2]
  have h3 : (name ++ '<' :: arg ++ ['>']).length - 1 - 0 = (name ++ '<' :: arg).length := by simp
  rw [h3, List.take_left', List.drop_append]
  · simp
  · rfl

example : CppTy.argText ⟨"MyData<std::vector<int>>".toList⟩ = "std::vector<int>".toList := by decide +kernel

/-! ### One option -/

/-- C43. A type that one option specialises or synonymises is not excluded by that option. -/
theorem C43_not_both (parse : Parser) (s : TSpec) (t : CppTy)
    (h : s.shallSpecialize parse t = true ∨ s.shallSynonymize parse t = true) : s.shallExclude parse t = false := by
  unfold TSpec.shallSpecialize TSpec.shallSynonymize at h
  unfold TSpec.shallExclude
  cases h1 : t.isTemplate <;> simp only [h1, Bool.not_true, Bool.not_false, if_true, Bool.false_eq_true, if_false] at h ⊢
  · cases h2 : s.matches_ t.templateName <;> simp only [h2, Bool.not_true, Bool.not_false, if_true, Bool.false_eq_true, if_false] at h ⊢
    · cases h3 : t.uniqueArg parse with
      | none => simp [h3] at h
      | some u =>
        simp only [h3] at h ⊢
        rcases h with h | h <;> simp [h]

example : optA.shallSpecialize some ⟨"MyData<int>".toList⟩ = true := by decide +kernel
example : optA.shallSynonymize some ⟨"MyData<MyInt>".toList⟩ = true := by decide +kernel

/-- C43. A template type whose name is matched by the option is specialised, synonymised or excluded, and it is excluded
exactly when its argument cannot be read, or is neither a listed type nor a synonym. -/
theorem C43_total (parse : Parser) (s : TSpec) (t : CppTy) (ht : t.isTemplate = true)
    (hm : s.matches_ t.templateName = true) :
    (s.shallSpecialize parse t = true ∨ s.shallSynonymize parse t = true ∨ s.shallExclude parse t = true) ∧
    (s.shallSpecialize parse t = true ↔ ∃ u, parse t.argText = some u ∧ u ∈ s.types) ∧
    (s.shallSynonymize parse t = true ↔ ∃ u, parse t.argText = some u ∧ u ∈ s.synonyms.map Synonym.name) ∧
    (s.shallExclude parse t = true ↔
      ∀ u, parse t.argText = some u → u ∉ s.types ∧ u ∉ s.synonyms.map Synonym.name) := by
  have e : t.uniqueArg parse = parse t.argText := by unfold CppTy.uniqueArg; rw [if_pos ht]
  unfold TSpec.shallSpecialize TSpec.shallSynonymize TSpec.shallExclude
  simp only [ht, hm, e, Bool.not_true, Bool.false_eq_true, if_false]
  cases parse t.argText with
  | none => simp
  | some u =>
    have h1 : s.handlesInstantiation u = true ↔ u ∈ s.types := by
      unfold TSpec.handlesInstantiation; simp
    have h2 : s.handlesSynonym u = true ↔ u ∈ s.synonyms.map Synonym.name := by
      unfold TSpec.handlesSynonym
      simp only [List.any_eq_true, decide_eq_true_eq, List.mem_map]
      exact ⟨fun ⟨x, hx, he⟩ => ⟨x, hx, he.symm⟩, fun ⟨x, hx, he⟩ => ⟨x, hx, he.symm⟩⟩
    refine ⟨?_, ?_, ?_, ?_⟩
    · cases ha : s.handlesInstantiation u <;> cases hb : s.handlesSynonym u <;> simp [ha, hb]
    · simp [h1]
    · simp only [h2, Option.some.injEq, exists_eq_left']
    · simp only [Bool.and_eq_true, Bool.not_eq_true', Option.some.injEq, forall_eq']
      rw [← h1, ← h2, Bool.not_eq_true, Bool.not_eq_true]

example : CppTy.isTemplate ⟨"MyData<float>".toList⟩ = true ∧
    optA.matches_ (CppTy.templateName ⟨"MyData<float>".toList⟩) = true ∧
    optA.shallExclude some ⟨"MyData<float>".toList⟩ = true := by decide +kernel

/-- C43. An option says nothing of the types it does not match, and of those that are not templates. -/
theorem C43_unmatched (parse : Parser) (s : TSpec) (t : CppTy) (h : t.isTemplate = false ∨ s.matches_ t.templateName = false) :
    s.shallSpecialize parse t = false ∧ s.shallSynonymize parse t = false ∧ s.shallExclude parse t = false := by
  unfold TSpec.shallSpecialize TSpec.shallSynonymize TSpec.shallExclude
  rcases h with h | h <;> cases h1 : t.isTemplate <;> simp_all

example : optA.matches_ (CppTy.templateName ⟨"Other<float>".toList⟩) = false := by decide +kernel

/-! ### Lists of options -/

/-- The same for the list of all the options. -/
def C43_list_statement : Prop := ∀ (parse : Parser) (specs : List TSpec) (t : CppTy),
  shallSpecialize parse specs t = true → shallExclude parse specs t = false

/-- C43. It fails: with two options for the same template, each excludes the types of the other one. -/
theorem C43_list_fails : ¬ C43_list_statement := by
  intro h
  have := h some [optA, optB] ⟨"MyData<int>".toList⟩ (by decide +kernel)
  exact absurd this (by decide +kernel)

/-- C43. When at most one option matches each template name, no type is both specialised (or synonymised) and excluded. -/
theorem C43_list_partial (parse : Parser) (specs : List TSpec) (t : CppTy) (hu : Unambiguous specs t.templateName)
    (h : shallSpecialize parse specs t = true ∨ shallSynonymize parse specs t = true) : shallExclude parse specs t = false := by
  have hex : ∃ s ∈ specs, s.shallSpecialize parse t = true ∨ s.shallSynonymize parse t = true := by
    rcases h with h | h
    · unfold shallSpecialize at h
      split at h
      · simp at h
      · obtain ⟨s, hs, h⟩ := List.any_eq_true.1 h
        exact ⟨s, hs, .inl h⟩
    · unfold shallSynonymize at h
      split at h
      · simp at h
      · obtain ⟨s, hs, h⟩ := List.any_eq_true.1 h
        exact ⟨s, hs, .inr h⟩
  obtain ⟨s, hs, hsp⟩ := hex
  have hm : s.matches_ t.templateName = true := by
    cases hm : s.matches_ t.templateName with
    | true => rfl
    | false =>
      have := C43_unmatched parse s t (.inr hm)
      simp [this.1, this.2.1] at hsp
  unfold shallExclude
  split
  · rfl
  · refine Bool.eq_false_iff.2 fun hx => ?_
    obtain ⟨x, hxs, hx⟩ := List.any_eq_true.1 hx
    have hxm : x.matches_ t.templateName = true := by
      cases hm : x.matches_ t.templateName with
      | true => rfl
      | false =>
        have := C43_unmatched parse x t (.inr hm)
        simp [this.2.2] at hx
    have := matching_unique hu hs hxs hm hxm
    subst this
    rw [C43_not_both parse s t hsp] at hx
    simp at hx

example : Unambiguous [optA, { optB with matches_ := only "Other" }] (CppTy.templateName ⟨"MyData<int>".toList⟩) ∧
    shallSpecialize some [optA, { optB with matches_ := only "Other" }] ⟨"MyData<int>".toList⟩ = true := by
  refine ⟨?_, by decide +kernel⟩
  simp only [Unambiguous, List.pairwise_cons, List.mem_singleton, List.not_mem_nil]
  refine ⟨?_, ?_⟩
  · rintro b rfl ⟨_, h⟩
    exact absurd h (by decide +kernel)
  · exact ⟨by simp, List.Pairwise.nil⟩

/-- C43. A type has a specialised Python name exactly when some option specialises or synonymises it, and the name does not
depend on which one: it is the name of the template and that of the argument, after the replacements. -/
theorem C43_name (parse : Parser) (repl : Str → Str) (specs : List TSpec) (t : CppTy) :
    ((shallSpecialize parse specs t = true ∨ shallSynonymize parse specs t = true) →
      ∃ u, parse t.argText = some u ∧ pythonName parse repl specs t = some (repl (naming t.templateName u))) ∧
    ((shallSpecialize parse specs t = false ∧ shallSynonymize parse specs t = false) → pythonName parse repl specs t = none) := by
  constructor
  · intro h
    have hex : ∃ s ∈ specs, (s.shallSpecialize parse t || s.shallSynonymize parse t) = true := by
      rcases h with h | h
      · unfold shallSpecialize at h
        split at h
        · simp at h
        · obtain ⟨s, hs, h⟩ := List.any_eq_true.1 h
          exact ⟨s, hs, by simp [h]⟩
      · unfold shallSynonymize at h
        split at h
        · simp at h
        · obtain ⟨s, hs, h⟩ := List.any_eq_true.1 h
          exact ⟨s, hs, by simp [h]⟩
    cases hf : specs.find? (fun s => s.shallSpecialize parse t || s.shallSynonymize parse t) with
    | none =>
      obtain ⟨s, hs, h'⟩ := hex
      exact absurd h' (by simpa using List.find?_eq_none.1 hf s hs)
    | some s =>
      have hs := List.find?_some hf
      have hno : ¬ ((!shallSpecialize parse specs t && !shallSynonymize parse specs t) = true) := by
        rcases h with h | h <;> simp [h]
      have hno' : ¬ ((!s.shallSpecialize parse t && !s.shallSynonymize parse t) = true) := by
        cases h1 : s.shallSpecialize parse t <;> cases h2 : s.shallSynonymize parse t <;> simp_all
      have hu : ∃ u, t.uniqueArg parse = some u := by
        cases hu : t.uniqueArg parse with
        | some u => exact ⟨u, rfl⟩
        | none =>
          exfalso
          unfold TSpec.shallSpecialize TSpec.shallSynonymize at hs
          simp [hu] at hs
      obtain ⟨u, hu⟩ := hu
      refine ⟨u, ?_, ?_⟩
      · unfold CppTy.uniqueArg at hu
        split at hu
        · exact hu
        · simp at hu
      · unfold pythonName
        rw [if_neg hno, hf, Option.bind_some]
        unfold TSpec.pythonName
        rw [if_neg hno', hu]
        rfl
  · rintro ⟨h1, h2⟩
    unfold pythonName
    simp [h1, h2]

example : pythonName some id [optA, optB] ⟨"MyData<std::string>".toList⟩ = some "MyData_string".toList := by decide +kernel
example : pythonName some id [optA, optB] ⟨"MyData<float>".toList⟩ = none := by decide +kernel

/-! ### Names -/

/-- C43. The name built for a specialisation starts with that of the template, and what follows contains no `::`, `&`, `*` or
blank; neither does the whole name if that of the template has none. -/
theorem C43_naming (name t : Str) :
    ∃ r, naming name t = name ++ '_' :: r ∧ ¬ "::".toList <:+: r ∧ '&' ∉ r ∧ '*' ∉ r ∧ ' ' ∉ r :=
  ⟨typeSuffix t, by unfold naming; simp, typeSuffix_no_pair t, typeSuffix_no_char t⟩

example : naming "MyData".toList "const A::B &&".toList = "MyData_const_A_B_uref".toList := by decide +kernel
example : naming "MyData".toList "std::string *".toList = "MyData_string_ptr".toList := by decide +kernel

/-- The name of a specialisation is a valid identifier. -/
def C43_identifier_statement : Prop := ∀ (name t : Str), (∀ c ∈ name, isIdent c = true) → ∀ c ∈ naming name t, isIdent c = true

/-- C43. It fails for types with template arguments of their own. -/
theorem C43_identifier_fails : ¬ C43_identifier_statement := by
  intro h
  have := h "MyData".toList "std::vector<int>".toList (by decide) '<' (by decide +kernel)
  exact absurd this (by decide)

/-- C43. It holds for simple types: identifiers, `::`, `&`, `*` and blanks. -/
theorem C43_identifier_partial (name t : Str) (hn : ∀ c ∈ name, isIdent c = true) (ht : SimpleType t) :
    ∀ c ∈ naming name t, isIdent c = true := by
  intro c hc
  unfold naming at hc
  rcases List.mem_append.1 hc with hc | hc
  · rcases List.mem_append.1 hc with hc | hc
    · exact hn c hc
    · simp at hc; subst hc; rfl
  · exact typeSuffix_ident ht c hc

example : SimpleType "const A::B &".toList := by
  refine ⟨?_, by decide⟩
  repeat (first | exact .nil | (refine .char _ _ (by decide) ?_) | refine .pair _ ?_)

/-- Two different types have different names. -/
def C43_injective_statement : Prop := ∀ (name t u : Str), SimpleType t → SimpleType u → naming name t = naming name u → t = u

/-- C43. It fails: `A::B` and `A_B` have the same name. -/
theorem C43_injective_fails : ¬ C43_injective_statement := by
  intro h
  have h1 : SimpleType "A::B".toList := by
    refine ⟨?_, by decide⟩
    repeat (first | exact .nil | (refine .char _ _ (by decide) ?_) | refine .pair _ ?_)
  have h2 : SimpleType "A_B".toList := by
    refine ⟨?_, by decide⟩
    repeat (first | exact .nil | (refine .char _ _ (by decide) ?_) | refine .pair _ ?_)
  exact absurd (h "Foo".toList _ _ h1 h2 (by decide +kernel)) (by decide)

/-- C43. It holds between types that are single identifiers. -/
theorem C43_injective_partial (name t u : Str) (ht : ∀ c ∈ t, isIdent c = true) (hu : ∀ c ∈ u, isIdent c = true)
    (h : naming name t = naming name u) : t = u := by
  have key : ∀ s : Str, (∀ c ∈ s, isIdent c = true) → typeSuffix s = s := by
    intro s hs
    have no : ∀ (old new : Str) (c : Char), c ∈ old → isIdent c = false → replace s old new = s := by
      intro old new c hc hi
      refine replace_of_not_contains (Bool.eq_false_iff.2 fun hcon => ?_)
      obtain ⟨a, b, e⟩ := (contains_iff s old).1 hcon
      have : c ∈ s := by rw [e]; simp [hc]
      rw [hs c this] at hi
      simp at hi
    unfold typeSuffix
    simp only []
    rw [no "std::".toList _ ':' (by decide) (by decide), no "::".toList _ ':' (by decide) (by decide),
      no " &&".toList _ '&' (by decide) (by decide), no "&&".toList _ '&' (by decide) (by decide),
      no " &".toList _ '&' (by decide) (by decide), no "&".toList _ '&' (by decide) (by decide),
      no " *".toList _ '*' (by decide) (by decide), no "*".toList _ '*' (by decide) (by decide),
      no " ".toList _ ' ' (by decide) (by decide)]
  unfold naming at h
  rw [key t ht, key u hu] at h
  exact List.append_cancel_left h

example : ∀ c ∈ "MyInt".toList, isIdent c = true := by decide

/-! ### Functions -/

/-- C43. Every instantiation of a function template that is emitted has a name: the assertion of the name never fails. -/
theorem C43_function_named (specs : List TSpec) (f : Str) (nbParams : Nat) :
    ∃ names, functionNames specs f nbParams = some names ∧ names.length = (instantiations specs f nbParams).length := by
  have key : ∀ t ∈ instantiations specs f nbParams, ∃ n, functionPythonName specs f t = some n := by
    intro t ht
    unfold instantiations at ht
    split at ht
    · simp at ht
    · rename_i s hs
      have ⟨hmem, hm⟩ := matchingSpec_mem hs
      have ht' : t ∈ s.types := by
        split at ht
        · simp at ht
        · exact ht
      rw [functionPythonName_eq]
      cases hf : specs.find? (fun s => s.matches_ f && (s.handlesInstantiation t || s.handlesSynonym t)) with
      | some x => exact ⟨_, rfl⟩
      | none =>
        have := List.find?_eq_none.1 hf s hmem
        exact absurd (by simp [hm, TSpec.handlesInstantiation, ht']) this
  unfold functionNames
  generalize instantiations specs f nbParams = l at key ⊢
  induction l with
  | nil => exact ⟨[], rfl, rfl⟩
  | cons t l ih =>
    obtain ⟨n, hn⟩ := key t (by simp)
    obtain ⟨ns, h1, h2⟩ := ih (fun x hx => key x (by simp [hx]))
    exact ⟨n :: ns, by rw [List.mapM_cons, hn, h1]; rfl, by simp [h2]⟩

private def fnA : TSpec := ⟨only "foo", ["int".toList], true, []⟩
private def fnB : TSpec := ⟨only "foo", ["int".toList, "double".toList], false, []⟩

example : functionNames [fnA] "foo".toList 1 = some ["foo_int".toList] := by decide +kernel
example : functionNames [fnB] "foo".toList 1 = some ["foo".toList, "foo".toList] := by decide +kernel

/-- The option that lists the instantiated types also decides of the suffix of the names. -/
def C43_function_suffix_statement : Prop := ∀ (specs : List TSpec) (f : Str) (s : TSpec),
  matchingSpec specs f = some s →
    functionNames specs f 1 = some (s.types.map (fun t => if s.suffix then naming f t else f))

/-- C43. It fails with two options for the same function: the types are those of the last option, and the names follow the
first one. -/
theorem C43_function_suffix_fails : ¬ C43_function_suffix_statement := by
  intro h
  have := h [fnA, fnB] "foo".toList fnB (by
    unfold matchingSpec
    simp only [List.foldl_cons, List.foldl_nil]
    rw [if_pos (by decide +kernel)])
  exact absurd this (by decide +kernel)

/-- C43. It holds when at most one option matches the function. -/
theorem C43_function_suffix_partial (specs : List TSpec) (f : Str) (s : TSpec) (hu : Unambiguous specs f)
    (hs : matchingSpec specs f = some s) :
    functionNames specs f 1 = some (s.types.map (fun t => if s.suffix then naming f t else f)) := by
  have ⟨hmem, hm⟩ := matchingSpec_mem hs
  have hi : instantiations specs f 1 = s.types := by
    unfold instantiations
    rw [hs]
    simp
  have key : ∀ t ∈ s.types, functionPythonName specs f t = some (if s.suffix then naming f t else f) := by
    intro t ht
    rw [functionPythonName_eq]
    cases hf : specs.find? (fun s => s.matches_ f && (s.handlesInstantiation t || s.handlesSynonym t)) with
    | some x =>
      have hx := List.find?_some hf
      have hxm := List.mem_of_find?_eq_some hf
      simp only [Bool.and_eq_true] at hx
      have := matching_unique hu hmem hxm hm hx.1
      subst this
      rfl
    | none =>
      have := List.find?_eq_none.1 hf s hmem
      exact absurd (by simp [hm, TSpec.handlesInstantiation, ht]) this
  unfold functionNames
  rw [hi]
  generalize s.types = l at key ⊢
  induction l with
  | nil => rfl
  | cons t l ih =>
    have h1 := key t (by simp)
    have h2 := ih (fun x hx => key x (by simp [hx]))
    rw [List.mapM_cons, h1, h2]
    rfl

example : Unambiguous [fnA] "foo".toList ∧ (matchingSpec [fnA] "foo".toList).isSome = true :=
  ⟨List.pairwise_singleton _ _, by decide +kernel⟩

/-- C43. A template with several parameters is not instantiated (whatever the options), and a function that no option matches
is not either. -/
theorem C43_not_instantiated (specs : List TSpec) (f : Str) (nbParams : Nat)
    (h : nbParams ≠ 1 ∨ ∀ s ∈ specs, s.matches_ f = false) : instantiations specs f nbParams = [] := by
  unfold instantiations
  split
  · rfl
  · rename_i s hs
    have ⟨hmem, hm⟩ := matchingSpec_mem hs
    rcases h with h | h
    · split
      · rfl
      · rename_i hn
        cases ht : s.types with
        | nil => rfl
        | cons a l => simp [h, ht] at hn
    · rw [h s hmem] at hm
      simp at hm

example : instantiations [fnA] "foo".toList 1 = ["int".toList] ∧ instantiations [fnA] "foo".toList 2 = [] := by decide +kernel

/-! ### Classes -/

/-- A type that the options specialise has a class: the template is instantiated for its argument. -/
def C43_class_statement : Prop := ∀ (parse : Parser) (specs : List TSpec) (t : CppTy) (u : Str),
  shallSpecialize parse specs t = true → parse t.argText = some u → u ∈ instantiations specs t.templateName 1

/-- C43. It fails with two options for the same class: only the types of the last one are instantiated, and the types of the
first one are still named. -/
theorem C43_class_fails : ¬ C43_class_statement := by
  intro h
  have := h some [optA, optB] ⟨"MyData<int>".toList⟩ "int".toList (by decide +kernel) (by decide +kernel)
  exact absurd this (by decide +kernel)

/-- C43. It holds when at most one option matches the class. -/
theorem C43_class_partial (parse : Parser) (specs : List TSpec) (t : CppTy) (u : Str) (hu : Unambiguous specs t.templateName)
    (h : shallSpecialize parse specs t = true) (hp : parse t.argText = some u) : u ∈ instantiations specs t.templateName 1 := by
  unfold shallSpecialize at h
  split at h
  · simp at h
  · rename_i ht
    have ht : t.isTemplate = true := by simpa using ht
    obtain ⟨s, hs, hsp⟩ := List.any_eq_true.1 h
    have hm : s.matches_ t.templateName = true := by
      cases hm : s.matches_ t.templateName with
      | true => rfl
      | false =>
        have := C43_unmatched parse s t (.inr hm)
        simp [this.1] at hsp
    obtain ⟨v, hv, hvt⟩ := (C43_total parse s t ht hm).2.1.1 hsp
    rw [hp] at hv
    simp at hv
    subst hv
    have : matchingSpec specs t.templateName = some s := by
      rw [matchingSpec_eq]
      have hmem : s ∈ specs.filter (fun s => s.matches_ t.templateName) := List.mem_filter.2 ⟨hs, hm⟩
      rcases filter_unambiguous hu with hf | ⟨x, hf⟩
      · rw [hf] at hmem; simp at hmem
      · rw [hf] at hmem ⊢
        simp at hmem
        rw [hmem]; rfl
    unfold instantiations
    rw [this]
    simpa using hvt

example : shallSpecialize some [optA] ⟨"MyData<std::string>".toList⟩ = true ∧
    CppTy.argText ⟨"MyData<std::string>".toList⟩ = "std::string".toList := by decide +kernel

/-! ### Synonyms -/

/-- C43. A synonym `a=b` is read as such, and every text with another number of `=` is refused. -/
theorem C43_synonym (s : Str) :
    (∀ a b, '=' ∉ a → '=' ∉ b → s = a ++ '=' :: b → makeSynonym s = some ⟨a, b⟩) ∧
    (∀ y, makeSynonym s = some y → s = y.name ++ '=' :: y.target ∧ '=' ∉ y.name ∧ '=' ∉ y.target) := by
  constructor
  · rintro a b ha hb rfl
    have := splitOn_join (c := '=') (ls := [a, b]) (by simp) (by
      intro l hl
      simp at hl
      rcases hl with rfl | rfl
      · exact ha
      · exact hb)
    have e : join "=".toList [a, b] = a ++ '=' :: b := by
      simp [join]
    unfold makeSynonym
    have e2 : join ['='] [a, b] = a ++ '=' :: b := e
    rw [← e2, this]
  · intro y hy
    unfold makeSynonym at hy
    split at hy
    · rename_i a b h
      simp at hy
      subst hy
      have := join_splitOn '=' s
      rw [h] at this
      refine ⟨?_, not_mem_of_mem_splitOn (s := s) (by rw [h]; simp), not_mem_of_mem_splitOn (s := s) (by rw [h]; simp)⟩
      rw [← this]
      simp [join]
    · simp at hy

example : makeSynonym "MyInt=int".toList = some ⟨"MyInt".toList, "int".toList⟩ := by decide +kernel
example : makeSynonym "MyInt".toList = none ∧ makeSynonym "a=b=c".toList = none := by decide +kernel

end Verif.Tpl.Props
