import Verif.Fn.Lambda
import Verif.Fn.Ctor
import Verif.Fn.Brackets
import Verif.Fn.Intent
import Verif.Fn.Demo

/-! Properties of the C++ bindings of functions: C62, C63. -/

namespace Verif.Fn.Props
open Verif.Py Verif.Type Verif.Adapt Verif.Fn
open Verif.Fn.Spec (Plain Tidy CodeLine Closed annList)

/-! ### C62: the statement that binds a function -/

/-- What follows the callable of a function. -/
def annsOf (o : Options) (f : Func) (args : List Str) : List Str :=
  annList args (quoted (docOneLine o f)) (policyText o f) (keepAlive o f) (callGuard o f)

/-- The statement that binds a function, given its `py::arg` and its return type in C++. The docstring is described by `C62_docstring_partial`, what
the comment says on keep_alive and call_guard by C66. -/
def specText (o : Options) (f : Func) (args : List Str) (ret : Str) : Str :=
  Verif.Fn.Spec.binding o f args ret (docOneLine o f) (policyNamed o (commentsAsStr f) "keep_alive".toList)
    (policyNamed o (commentsAsStr f) "call_guard".toList)

/-- The return type is known when it is needed. -/
def RetKnown (o : Options) (f : Func) (ret : Str) : Prop := needsLambda f = true → fullReturnType o f.aRet = some ret

/-- Full statement: the binding of a function is its head, its callable and its annotations. -/
def C62_statement : Prop :=
  ∀ (o : Options) (f : Func) (args : List Str) (ret : Str), Blank o.indent → pyargList o f = some args → RetKnown o f ret →
    pydefCode o f = some (specText o f args ret)

/-- What the partial theorem asks of the texts: no placeholder of a template begins in them and they do not end with a comma. -/
structure Ordinary (o : Options) (f : Func) (args : List Str) (ret : Str) : Prop where
  indent : Blank o.indent
  pyargs : pyargList o f = some args
  retKnown : RetKnown o f ret
  anns : ∀ a ∈ annsOf o f args, Ann a
  moduleVar : Plain f.moduleVar
  name : Plain (shownName o f)
  location : LocationOk f ∧ ∀ fl, f.location = some fl → '\n' ∉ fl.1 ∧ '\n' ∉ fl.2
  pointer : Plain (functionPointer o f)
  ret : Plain ret
  params : ∀ p ∈ lambdaParams f, Plain p
  callee : Plain (f.lambdaToCall.getD (f.aName ++ f.aSpecialization))
  names : ∀ p ∈ f.aParams, Plain p.name
  code : ∀ c, lambdaCode o f = some c → Plain c
  ctor : needsLambda f = false → isConstructor f = true → Plain (overloadTypes f.params) ∧ '\n' ∉ overloadTypes f.params ∧
    CodeLine (ctorFirst o (overloadTypes f.params)) ∧
    ∀ a ∈ annList args (quoted (docOneLine o f)) none none none, '\n' ∉ a ∧ CodeLine (o.indent ++ a)

/-- The same with the functions of the model. -/
def modelText (o : Options) (f : Func) (args : List Str) (ret : Str) : Str :=
  let head := Verif.Fn.Spec.head (receiver f) (staticRet f.ret && isMethod f) (shownName o f) (location o f "//".toList)
  if needsLambda f then
    if isConstructor f then
      if o.nanobind then
        Verif.Fn.Spec.statement ".def(\"__init__\", ".toList ((lambdaOf o f ret).text o.indent) false o.indent (annsOf o f args) true
      else Verif.Fn.Spec.statement ".def(py::init(".toList ((lambdaOf o f ret).text o.indent ++ ")".toList) false o.indent (annsOf o f args) true
    else Verif.Fn.Spec.statement head ((lambdaOf o f ret).text o.indent) false o.indent (annsOf o f args) (isMethod f)
  else if isConstructor f then
    if "delete".toList ∈ f.specifiers then []
    else unlines (Verif.Fn.Spec.ctorStatement (lib o) (overloadTypes f.params) (location o f "//".toList) o.indent
      (annList args (quoted (docOneLine o f)) none none none))
  else Verif.Fn.Spec.statement head (functionPointer o f) true o.indent (annsOf o f args) (isMethod f)

/-- The callable of a function that needs no lambda. -/
def callableOf (o : Options) (f : Func) : Verif.Fn.Spec.Callable :=
  if f.overloaded || o.forceOverload f.name then
    if isMethod f && f.params = [] then .short (parentScope f) (f.name ++ f.specialization)
    else .cast (lib o) (f.params.map overloadType) (isConstFn f.specifiers) (addressOf f)
  else .address (addressOf f)

theorem functionPointer_text (o : Options) (f : Func) (ind : Str) : functionPointer o f = (callableOf o f).text ind := by
  unfold functionPointer callableOf
  by_cases h1 : (f.overloaded || o.forceOverload f.name) = true
  · rw [if_pos h1, if_pos h1]
    by_cases h2 : (isMethod f && decide (f.params = [])) = true
    · rw [if_pos h2, if_pos h2, Verif.Fn.Spec.text_short]
      simp only [List.append_assoc]
    · rw [if_neg h2, if_neg h2, Verif.Fn.Spec.text_cast]
      unfold Verif.Fn.Spec.constTag
      by_cases h3 : isConstFn f.specifiers = true
      · rw [if_pos h3, if_pos h3]
        simp only [List.append_assoc]
        rfl
      · rw [if_neg h3, if_neg h3]
        simp only [List.append_assoc, List.nil_append]
        rfl
  · rw [if_neg h1, if_neg h1]
    rfl

theorem addressOf_spec (f : Func) : addressOf f = Verif.Fn.Spec.addressText f := by
  unfold addressOf Verif.Fn.Spec.addressText Verif.Fn.Spec.qualifiedName parentScopePrefix isMethod
  have : parentScope f = Verif.Fn.Spec.owner f := rfl
  rw [this]
  dsimp only
  cases f.cls.isSome <;> rfl

theorem overloadType_spec (p : Param) : overloadType p = Verif.Fn.Spec.typeOf p := by
  unfold overloadType Verif.Fn.Spec.typeOf
  have h : startsWith p.arrayCode ['['] = true ↔ p.arrayCode.head? = some '[' := by
    unfold startsWith
    cases p.arrayCode with
    | nil => decide
    | cons c cs =>
      rw [List.isPrefixOf, List.isPrefixOf_nil_left, Bool.and_true, beq_iff_eq, List.head?_cons, Option.some_inj]
      exact eq_comm
  by_cases hs : p.arrayCode.head? = some '['
  · rw [if_pos hs, if_pos (h.2 hs)]
  · rw [if_neg hs, if_neg (fun e => hs (h.1 e))]

theorem isConstructor_spec (f : Func) : isConstructor f = Verif.Fn.Spec.isCtor f := by
  unfold isConstructor Verif.Fn.Spec.isCtor
  cases f.cls <;> rfl

theorem lambdaParams_spec (f : Func) : lambdaParams f = Verif.Fn.Spec.selfParam f ++ f.aParams.map Verif.Fn.Spec.declaration := by
  have hd : f.aParams.map signatureOf = f.aParams.map Verif.Fn.Spec.declaration := rfl
  unfold lambdaParams Verif.Fn.Spec.selfParam
  rw [isConstructor_spec, hd]
  dsimp only
  unfold isMethod parentScope
  cases f.cls with
  | none => rfl
  | some c =>
    dsimp only
    cases Verif.Fn.Spec.isCtor f
    · rw [if_pos (show ((some c).isSome && !false) = true from rfl), if_neg Bool.false_ne_true]
      unfold isConstFn
      by_cases hc : const_ ∈ f.aSpecifiers
      · rw [if_pos (decide_eq_true hc), if_pos (show "const".toList ∈ f.aSpecifiers from hc)]
        rfl
      · rw [if_neg (by rw [decide_eq_true_iff]; exact hc), if_neg (show ¬ "const".toList ∈ f.aSpecifiers from hc)]
        rfl
    · rfl

theorem lambdaCode_spec (o : Options) (f : Func) : lambdaCode o f = Verif.Fn.Spec.body o.indent f := by
  unfold lambdaCode Verif.Fn.Spec.body
  cases f.adapterCode with
  | none => rfl
  | some c =>
    rw [Option.map_some, Option.map_some]
    refine congrArg some ?_
    dsimp only
    generalize Indent.indentCode c 1 true (some (o.indent ++ o.indent)) = d
    have h : endsWith d ['\n'] = true ↔ d.getLast? = some '\n' := by
      unfold endsWith
      rw [List.isSuffixOf_iff_suffix, List.getLast?_eq_some_iff]
      constructor
      · rintro ⟨t, rfl⟩; exact ⟨t, rfl⟩
      · rintro ⟨t, rfl⟩; exact ⟨t, rfl⟩
    by_cases hs : d.getLast? = some '\n'
    · rw [if_pos hs, if_pos (h.2 hs)]
    · rw [if_neg hs, if_neg (fun e => hs (h.1 e))]

theorem call_spec (f : Func) (ret : Str) :
    callText ret (if isMethod f && f.lambdaToCall.isNone then "self.".toList else []) (f.lambdaToCall.getD (f.aName ++ f.aSpecialization))
      (callNames f.aParams) = Verif.Fn.Spec.call f ret := by
  unfold callText Verif.Fn.Spec.call Verif.Fn.Spec.callee callNames isMethod
  have hv : (if ret = void_ then [] else "return ".toList) = (if ret = "void".toList then [] else "return ".toList) := rfl
  have hs : commaSpace = ", ".toList := rfl
  rw [hv, hs]
  cases f.lambdaToCall with
  | some l =>
    rw [Option.isNone_some, Bool.and_false, if_neg Bool.false_ne_true, List.append_nil, Option.getD_some]
  | none =>
    rw [Option.isNone_none, Bool.and_true, Option.getD_none]
    simp only [List.append_assoc]

theorem lambdaOf_spec (o : Options) (f : Func) (ret : Str) (h : needsLambda f = true) : lambdaOf o f ret = Verif.Fn.Spec.callable o f ret := by
  unfold lambdaOf Verif.Fn.Spec.callable
  have hl : f.adapterCode.isSome = true ∨ f.lambdaToCall.isSome = true := by
    unfold needsLambda at h
    exact Bool.or_eq_true_iff.1 h
  rw [if_pos hl, lambdaParams_spec, lambdaCode_spec, call_spec]
  rfl

theorem callableOf_spec (o : Options) (f : Func) (ret : Str) (h : needsLambda f = false) : callableOf o f = Verif.Fn.Spec.callable o f ret := by
  have hl : ¬ (f.adapterCode.isSome = true ∨ f.lambdaToCall.isSome = true) := by
    unfold needsLambda at h
    rw [← Bool.or_eq_true_iff, h]
    exact Bool.false_ne_true
  have ht : f.params.map overloadType = f.params.map Verif.Fn.Spec.typeOf := List.map_congr_left (fun p _ => overloadType_spec p)
  unfold callableOf Verif.Fn.Spec.callable
  rw [if_neg hl, ht, addressOf_spec]
  simp only [Bool.or_eq_true, Bool.and_eq_true, decide_eq_true_eq]
  rfl

theorem callGuard_spec (o : Options) (f : Func) :
    callGuard o f = Verif.Fn.Spec.guards o f (policyNamed o (commentsAsStr f) "call_guard".toList) := by
  unfold callGuard Verif.Fn.Spec.guards
  dsimp only
  generalize policyNamed o (commentsAsStr f) "call_guard".toList = g
  have hl : lib o = Verif.Fn.Spec.libOf o.nanobind := rfl
  rw [hl]
  cases o.gilGuard f.name <;> cases g <;> rfl

theorem location_spec (o : Options) (f : Func) : location o f "//".toList = Verif.Fn.Spec.locationComment o f := by
  unfold location Verif.Fn.Spec.locationComment
  cases f.location with
  | none => rfl
  | some fl =>
    obtain ⟨a, b⟩ := fl
    have : "// ".toList = "//".toList ++ " ".toList := by decide
    rw [this]
    simp only [List.append_assoc]

theorem static_spec (f : Func) : (staticRet f.ret && isMethod f) = Verif.Fn.Spec.isStatic f := by
  unfold staticRet isMethod Verif.Fn.Spec.isStatic
  rw [Bool.and_comm]
  cases f.ret <;> rfl

theorem specText_eq (o : Options) (f : Func) (args : List Str) (ret : Str) : specText o f args ret = modelText o f args ret := by
  have hanns : annsOf o f args = annList args (Verif.Fn.Spec.literal (docOneLine o f)) (Verif.Fn.Spec.policy o f)
      (policyNamed o (commentsAsStr f) "keep_alive".toList)
      (Verif.Fn.Spec.guards o f (policyNamed o (commentsAsStr f) "call_guard".toList)) := by
    unfold annsOf
    rw [callGuard_spec]
    rfl
  have hq : quoted (docOneLine o f) = Verif.Fn.Spec.literal (docOneLine o f) := rfl
  have hlib : lib o = Verif.Fn.Spec.libOf o.nanobind := rfl
  have hname : shownName o f = Verif.Fn.Spec.pythonName o f := rfl
  have hrec : receiver f = if f.cls.isSome then [] else f.moduleVar := rfl
  have hm : isMethod f = f.cls.isSome := rfl
  have htypes : overloadTypes f.params = join ", ".toList (f.params.map Verif.Fn.Spec.typeOf) := by
    unfold overloadTypes
    rw [List.map_congr_left (fun p _ => overloadType_spec p)]
    rfl
  unfold specText Verif.Fn.Spec.binding modelText
  dsimp only
  rw [hanns, hq, hlib, hname, hrec, location_spec, static_spec, isConstructor_spec, htypes, hm]
  by_cases hl : needsLambda f = true
  · have hl' : f.adapterCode.isSome = true ∨ f.lambdaToCall.isSome = true := by
      have h := hl
      unfold needsLambda at h
      exact Bool.or_eq_true_iff.1 h
    rw [if_pos hl, if_pos hl', lambdaOf_spec o f ret hl]
  · have hl1 : needsLambda f = false := by simpa using hl
    have hl' : ¬ (f.adapterCode.isSome = true ∨ f.lambdaToCall.isSome = true) := by
      have h := hl
      unfold needsLambda at h
      exact fun e => h (Bool.or_eq_true_iff.2 e)
    rw [if_neg hl, if_neg hl', functionPointer_text o f o.indent, callableOf_spec o f ret hl1]

theorem annotations_eq (o : Options) (f : Func) (args : List Str) : annotations o f args = annsOf o f args := rfl

theorem ctorAnnotations_eq (o : Options) (f : Func) (args : List Str) :
    ctorAnnotations o f args = annList args (quoted (docOneLine o f)) none none none := by
  unfold annList
  simp only [Option.toList_none, List.append_nil]
  rfl

theorem usual_of {o : Options} {f : Func} {args : List Str} {ret : Str} (h : Ordinary o f args ret) : Usual o f args where
  indent := h.indent
  pyargs := h.pyargs
  anns := h.anns
  moduleVar := h.moduleVar
  name := h.name
  location := h.location.1

/-- The binding of a function is its head, its callable and its annotations, in any function whose texts are ordinary. -/
theorem C62_partial (o : Options) (f : Func) (args : List Str) (ret : Str) (h : Ordinary o f args ret) :
    pydefCode o f = some (specText o f args ret) := by
  have hu := usual_of h
  rw [specText_eq]
  unfold pydefCode modelText
  dsimp only
  by_cases hl : needsLambda f = true
  · rw [if_pos hl, if_pos hl, lambdaStr_text o f args ret hu (h.retKnown hl) h.ret h.params h.callee h.names h.code, annotations_eq]
    refine congrArg some ?_
    unfold lambdaHead
    by_cases hc : isConstructor f = true
    · have hm : isMethod f = true := by
        unfold isConstructor at hc
        unfold isMethod
        cases hcl : f.cls with
        | none => rw [hcl] at hc; cases hc
        | some c => rfl
      rw [if_pos hc, if_pos hc, hm]
      cases o.nanobind
      · rw [if_neg Bool.false_ne_true, if_neg Bool.false_ne_true]
      · rw [if_pos rfl, if_pos rfl]
        dsimp only
        rw [List.append_nil]
    · rw [if_neg hc, if_neg hc]
      dsimp only
      rw [List.append_nil, creationPart_text o f h.indent h.moduleVar h.name h.location.1]
  · rw [if_neg hl, if_neg hl]
    by_cases hc : isConstructor f = true
    · rw [if_pos hc, if_pos hc]
      obtain ⟨h1, h2, h3, h4⟩ := h.ctor (by simpa using hl) hc
      have hsub : ∀ a ∈ ctorAnnotations o f args, a ∈ annsOf o f args := by
        intro a ha
        rw [ctorAnnotations_eq] at ha
        unfold annsOf annList at *
        simp only [Option.toList_none, List.append_nil, List.mem_append] at ha ⊢
        exact .inl (.inl (.inl ha))
      have huc : UsualCtor o f args := {
        indent := h.indent
        pyargs := h.pyargs
        types := ⟨h1, h2⟩
        first := h3
        anns := fun a ha => ⟨(h.anns a (hsub a ha)).plain, h4 a (by rw [← ctorAnnotations_eq]; exact ha)⟩
        location := fun fl hfl => ⟨(h.location.1 fl hfl).1, (h.location.1 fl hfl).2.1, h.location.2 fl hfl⟩ }
      by_cases hd : "delete".toList ∈ f.specifiers
      · rw [if_pos hd, ctorStr, if_pos hd]
      · rw [if_neg hd, ctorStr_text o f args huc hd, ctorAnnotations_eq]
    · rw [if_neg hc, if_neg hc, directStr_text o f args hu h.pointer, annotations_eq]

/-! ### Examples of C62 -/

instance (b : Comment.Spec.BodyItem) : Decidable b.WF := by cases b <;> simp only [Comment.Spec.BodyItem.WF] <;> infer_instance
instance (i : Comment.Spec.Item) : Decidable i.WF := by cases i <;> simp only [Comment.Spec.Item.WF] <;> infer_instance
instance (i : Comment.Spec.Item) : Decidable i.Handled := by cases i <;> simp only [Comment.Spec.Item.Handled] <;> infer_instance

/-- The items of a line of code without a backslash and without a quote of a character. -/
def itemsOf : Nat → Str → List Comment.Spec.Item
  | 0, _ => []
  | _, [] => []
  | n + 1, '"' :: cs => .str ((cs.takeWhile (· ≠ '"')).map .ordinary) :: itemsOf n ((cs.dropWhile (· ≠ '"')).drop 1)
  | n + 1, c :: cs => .plain c :: itemsOf n cs

theorem codeLine_of (s : Str) (h : let items := itemsOf s.length s
    Comment.Spec.render items = s ∧ (∀ it ∈ items, it.WF) ∧ List.IsChain (fun a b => ¬ (a = Comment.Spec.Item.plain '/' ∧ b = .plain '/')) items ∧
    (∀ it ∈ items, it.Handled) ∧ s.getLast?.any (fun c => !isSpace c) = true) : CodeLine s := by
  obtain ⟨h1, h2, h3, h4, h5⟩ := h
  refine ⟨_, h1, ⟨h2, h3, .inl rfl⟩, h4, ?_⟩
  cases e : s.getLast? with
  | none => rw [e] at h5; cases h5
  | some c =>
    rw [e] at h5
    obtain ⟨l, rfl⟩ := List.getLast?_eq_some_iff.1 e
    exact ⟨l, c, rfl, by simpa using h5⟩

instance (a : Str) : Decidable (Ann a) :=
  decidable_of_iff (Plain a ∧ Tidy a ∧ lstrip a ≠ []) ⟨fun h => ⟨h.1, h.2.1, h.2.2⟩, fun h => ⟨h.plain, h.tidy, h.notBlank⟩⟩

/-- The `py::arg` of the examples. -/
def demoArgs : List Str := ["py::arg(\"a\")".toList, "py::arg(\"b\") = 2".toList]

theorem demoLocation (f : Func) (h : f.location = some ("lib.h".toList, "12".toList)) :
    LocationOk f ∧ ∀ fl, f.location = some fl → '\n' ∉ fl.1 ∧ '\n' ∉ fl.2 := by
  constructor
  · intro fl hfl
    rw [h] at hfl
    rw [← Option.some.inj hfl]
    decide +kernel
  · intro fl hfl
    rw [h] at hfl
    rw [← Option.some.inj hfl]
    decide +kernel

theorem demoF_ordinary : Ordinary demoO demoF demoArgs [] where
  indent := ⟨by decide +kernel⟩
  pyargs := by decide +kernel
  retKnown := fun h => absurd h (by decide +kernel)
  anns := by decide +kernel
  moduleVar := by decide +kernel
  name := by decide +kernel
  location := demoLocation _ rfl
  pointer := by decide +kernel
  ret := by decide +kernel
  params := by decide +kernel
  callee := by decide +kernel
  names := by decide +kernel
  code := by intro c hc; cases hc
  ctor := fun _ h => absurd h (by decide +kernel)

theorem demoM_ordinary : Ordinary demoO demoM demoArgs [] where
  indent := ⟨by decide +kernel⟩
  pyargs := by decide +kernel
  retKnown := fun h => absurd h (by decide +kernel)
  anns := by decide +kernel
  moduleVar := by decide +kernel
  name := by decide +kernel
  location := demoLocation _ rfl
  pointer := by decide +kernel
  ret := by decide +kernel
  params := by decide +kernel
  callee := by decide +kernel
  names := by decide +kernel
  code := by intro c hc; cases hc
  ctor := fun _ h => absurd h (by decide +kernel)

theorem demoL_ordinary : Ordinary demoO demoL demoArgs "int".toList where
  indent := ⟨by decide +kernel⟩
  pyargs := by decide +kernel
  retKnown := fun _ => by decide +kernel
  anns := by decide +kernel
  moduleVar := by decide +kernel
  name := by decide +kernel
  location := demoLocation _ rfl
  pointer := by decide +kernel
  ret := by decide +kernel
  params := by decide +kernel
  callee := by decide +kernel
  names := by decide +kernel
  code := by
    have : ∀ c ∈ lambdaCode demoO demoL, Plain c := by decide +kernel
    exact this
  ctor := fun h => absurd h (by decide +kernel)

theorem demoC_ordinary : Ordinary demoO demoC demoArgs [] where
  indent := ⟨by decide +kernel⟩
  pyargs := by decide +kernel
  retKnown := fun h => absurd h (by decide +kernel)
  anns := by decide +kernel
  moduleVar := by decide +kernel
  name := by decide +kernel
  location := demoLocation _ rfl
  pointer := by decide +kernel
  ret := by decide +kernel
  params := by decide +kernel
  callee := by decide +kernel
  names := by decide +kernel
  code := by intro c hc; cases hc
  ctor := fun _ _ => by
    refine ⟨by decide +kernel, by decide +kernel, codeLine_of _ (by decide +kernel), ?_⟩
    have e : annList demoArgs (quoted (docOneLine demoO demoC)) none none none =
      ["py::arg(\"a\"), py::arg(\"b\") = 2".toList, "\"Adds two numbers\"".toList] := by decide +kernel
    rw [e]
    intro a ha
    rcases List.mem_cons.1 ha with rfl | ha
    · exact ⟨by decide +kernel, codeLine_of _ (by decide +kernel)⟩
    · rcases List.mem_cons.1 ha with rfl | ha
      · exact ⟨by decide +kernel, codeLine_of _ (by decide +kernel)⟩
      · cases ha

/-- A function, a method, a function with a lambda and a constructor. -/
example : pydefCode demoO demoF = some "m.def(\"add\",    // lib.h:12
    Ns::add, \n    py::arg(\"a\"), py::arg(\"b\") = 2, \n    \"Adds two numbers\");".toList ∧
  pydefCode demoO demoM = some ".def(\"add\",    // lib.h:12
    &Ns::Foo::add, \n    py::arg(\"a\"), py::arg(\"b\") = 2, \n    \"Adds two numbers\", \n    py::return_value_policy::reference)".toList ∧
  pydefCode demoO demoL = some "m.def(\"add\",    // lib.h:12
    [](int a, int b = 2) -> int
    {
        auto add_adapt = [](int a, int b) { return Ns::add(a, b); };

        return add_adapt(a, b);
    }, \n    py::arg(\"a\"), py::arg(\"b\") = 2, \n    \"Adds two numbers\");".toList ∧
  pydefCode demoO demoC = some ".def(py::init<int, int>(),    // lib.h:12
    py::arg(\"a\"), py::arg(\"b\") = 2,
    \"Adds two numbers\")".toList := by decide +kernel

example : Ordinary demoO demoF demoArgs [] ∧ Ordinary demoO demoM demoArgs [] ∧ Ordinary demoO demoL demoArgs "int".toList ∧
    Ordinary demoO demoC demoArgs [] := ⟨demoF_ordinary, demoM_ordinary, demoL_ordinary, demoC_ordinary⟩

/-- The comment `Writes {maybe_comma} here`: the docstring loses the name. The comment `Writes {maybe_keep_alive} here`: the whole docstring
disappears. -/
theorem C62_fails : ¬ C62_statement ∧
    pydefCode demoO { demoF with previous := "Writes {maybe_comma} here".toList } = some "m.def(\"add\",    // lib.h:12
    Ns::add, \n    py::arg(\"a\"), py::arg(\"b\") = 2, \n    \"Writes ,  here\");".toList ∧
    pydefCode demoO { demoF with previous := "Writes {maybe_keep_alive} here".toList } = some "m.def(\"add\",    // lib.h:12
    Ns::add, py::arg(\"a\"), py::arg(\"b\") = 2);".toList := by
  have h2 : pydefCode demoO { demoF with previous := "Writes {maybe_comma} here".toList } = some "m.def(\"add\",    // lib.h:12
    Ns::add, \n    py::arg(\"a\"), py::arg(\"b\") = 2, \n    \"Writes ,  here\");".toList := by decide +kernel
  refine ⟨?_, h2, by decide +kernel⟩
  intro h
  have := h demoO { demoF with previous := "Writes {maybe_comma} here".toList } demoArgs [] ⟨by decide +kernel⟩ (by decide +kernel)
    (fun h => absurd h (by decide +kernel))
  rw [h2] at this
  revert this
  decide +kernel

/-! ### C62: brackets, strings and comments are closed -/

/-- The callable of a function. -/
def callable (o : Options) (f : Func) (ret : Str) : Verif.Fn.Spec.Callable := if needsLambda f then lambdaOf o f ret else callableOf o f

end Verif.Fn.Props
