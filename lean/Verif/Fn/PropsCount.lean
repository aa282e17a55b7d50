import Verif.Fn.Props

/-! Properties of the C++ bindings of functions, continued: brackets (C62) and the callable (C63). -/

namespace Verif.Fn.Props
open Verif.Py Verif.Type Verif.Adapt Verif.Fn
open Verif.Fn.Spec (Plain Tidy CodeLine Closed annList readAll closed_append closed_nil)

/-- What is asked of the parts of a binding: brackets, strings and comments are closed in each of them. -/
structure ClosedParts (o : Options) (f : Func) (args : List Str) (ret : Str) : Prop where
  receiver : Closed (receiver f)
  name : Closed (['"'] ++ shownName o f ++ ['"'])
  anns : ∀ a ∈ annsOf o f args, Closed a
  callable : (callable o f ret).ClosedParts
  types : ∀ p ∈ f.params, Closed (overloadType p)

theorem closed_spaces {ind : Str} (h : Blank ind) : Closed ind :=
  Verif.Fn.Spec.closed_blank (fun c hc => by rw [h.blank c hc]; decide)

theorem readAll_location (o : Options) (f : Func) (hi : Blank o.indent) (h : ∀ fl, f.location = some fl → '\n' ∉ fl.1 ∧ '\n' ∉ fl.2)
    (st : List Char) : readAll (.code, st) (location o f "//".toList ++ ['\n']) = some (.code, st) := by
  unfold location
  cases hl : f.location with
  | none => exact (show Closed ['\n'] by decide).read st
  | some fl =>
    obtain ⟨file, line⟩ := fl
    have h' := h _ hl
    have key := Verif.Fn.Spec.readAll_comment (closed_spaces hi) (c := " ".toList ++ file ++ ":".toList ++ line) (by simp [h'.1, h'.2]) st
    have e : o.indent ++ "//".toList ++ " ".toList ++ file ++ ":".toList ++ line =
        o.indent ++ ('/' :: '/' :: (" ".toList ++ file ++ ":".toList ++ line)) := by simp
    show readAll _ (o.indent ++ "//".toList ++ " ".toList ++ file ++ ":".toList ++ line ++ ['\n']) = _
    rw [e]
    exact key

theorem closed_head (o : Options) (f : Func) (hr : Closed (receiver f)) (hn : Closed (['"'] ++ shownName o f ++ ['"'])) (static : Bool) :
    readAll (.code, []) (receiver f ++ (if static then ".def_static(\"".toList else ".def(\"".toList) ++ shownName o f ++ "\",".toList) =
      some (.code, ['(']) := by
  have key : ∀ d : Str, readAll (.code, []) d = some (.code, ['(']) →
      readAll (.code, []) (receiver f ++ (d ++ ['"']) ++ shownName o f ++ "\",".toList) = some (.code, ['(']) := by
    intro d hd
    have e : receiver f ++ (d ++ ['"']) ++ shownName o f ++ "\",".toList = receiver f ++ (d ++ ((['"'] ++ shownName o f ++ ['"']) ++ [','])) := by
      simp
    rw [e, Verif.Fn.Spec.readAll_append, hr.read, Option.bind_some, Verif.Fn.Spec.readAll_append, hd, Option.bind_some,
      Verif.Fn.Spec.readAll_append, hn.read]
    rfl
  cases static
  · exact key ".def(".toList (by decide +kernel)
  · exact key ".def_static(".toList (by decide +kernel)

/-- In the binding of a function, brackets, strings and comments are closed if they are in its parts. -/
theorem C62_balanced_partial (o : Options) (f : Func) (args : List Str) (ret : Str) (h : Ordinary o f args ret) (hc : ClosedParts o f args ret) :
    ∃ s, pydefCode o f = some s ∧ Closed (s ++ ['\n']) := by
  refine ⟨_, C62_partial o f args ret h, ?_⟩
  have hi := closed_spaces h.indent
  have hnl : Closed ['\n'] := by decide
  have hloc := readAll_location o f h.indent h.location.2
  have hcall := Verif.Fn.Spec.closed_callable hi _ hc.callable
  have hclose : ∀ m, readAll (.code, ['(']) (Verif.Fn.Spec.closing m) = some (.code, []) := by
    intro m; cases m <;> decide
  rw [specText_eq]
  unfold modelText
  dsimp only
  by_cases hl : needsLambda f = true
  · have hcall' : Closed ((lambdaOf o f ret).text o.indent) := by
      unfold callable at hcall
      rw [if_pos hl] at hcall
      exact hcall
    rw [if_pos hl]
    by_cases hct : isConstructor f = true
    · rw [if_pos hct]
      by_cases hnb : o.nanobind = true
      · rw [if_pos hnb]
        apply closed_append _ hnl
        have := Verif.Fn.Spec.closed_statement (h0 := ".def(\"__init__\", ".toList) (loc := []) (st := ['(']) (by decide +kernel) (by decide)
          hcall' hi false hc.anns true (hclose true)
        rw [List.append_nil] at this
        exact this
      · rw [if_neg hnb]
        apply closed_append _ hnl
        have e : Verif.Fn.Spec.statement ".def(py::init(".toList ((lambdaOf o f ret).text o.indent ++ ")".toList) false o.indent (annsOf o f args) true =
            ".def(py::init(".toList ++ ("\n".toList ++ (o.indent ++ ((lambdaOf o f ret).text o.indent ++ (")".toList ++
              (Verif.Fn.Spec.tail false o.indent (annsOf o f args) ++ Verif.Fn.Spec.closing true))))) := by
          unfold Verif.Fn.Spec.statement
          simp only [List.append_assoc]
        have e1 : readAll (.code, []) ".def(py::init(".toList = some (.code, ['(', '(']) := by decide +kernel
        have e2 : readAll (.code, ['(', '(']) "\n".toList = some (.code, ['(', '(']) := by decide +kernel
        have e3 : readAll (.code, ['(', '(']) ")".toList = some (.code, ['(']) := by decide +kernel
        unfold Verif.Fn.Spec.Closed
        rw [e, Verif.Fn.Spec.readAll_append, e1, Option.bind_some, Verif.Fn.Spec.readAll_append, e2, Option.bind_some,
          Verif.Fn.Spec.readAll_append, hi.read, Option.bind_some, Verif.Fn.Spec.readAll_append, hcall'.read, Option.bind_some,
          Verif.Fn.Spec.readAll_append, e3, Option.bind_some, Verif.Fn.Spec.readAll_append,
          (Verif.Fn.Spec.closed_tail hi false hc.anns).read, Option.bind_some]
        exact hclose true
    · rw [if_neg hct]
      apply closed_append _ hnl
      exact Verif.Fn.Spec.closed_statement (closed_head o f hc.receiver hc.name _) (hloc _) hcall' hi false hc.anns _ (hclose _)
  · rw [if_neg hl]
    by_cases hct : isConstructor f = true
    · rw [if_pos hct]
      split
      · exact hnl
      · refine Verif.Fn.Spec.closed_ctor ?_ ?_ hi hloc _ ?_
        · unfold lib; split <;> decide
        · apply Verif.Fn.Spec.closed_join (by decide)
          intro x hx
          obtain ⟨p, hp, rfl⟩ := List.mem_map.1 hx
          exact hc.types p hp
        · intro a ha
          apply hc.anns
          unfold annsOf
          unfold annList at *
          simp only [Option.toList_none, List.append_nil, List.mem_append] at ha ⊢
          exact .inl (.inl (.inl ha))
    · rw [if_neg hct]
      apply closed_append _ hnl
      have hcall' : Closed (functionPointer o f) := by
        rw [functionPointer_text o f o.indent]
        unfold callable at hcall
        rw [if_neg hl] at hcall
        exact hcall
      exact Verif.Fn.Spec.closed_statement (closed_head o f hc.receiver hc.name _) (hloc _) hcall' hi true hc.anns _ (hclose _)

/-- a method bound by its address and a function with a lambda -/
example : ClosedParts demoO demoM demoArgs [] ∧ ClosedParts demoO demoL demoArgs "int".toList := by
  refine ⟨⟨by decide +kernel, by decide +kernel, by decide +kernel, ?_, by decide +kernel⟩,
    ⟨by decide +kernel, by decide +kernel, by decide +kernel, ?_, by decide +kernel⟩⟩
  · show Closed _
    decide +kernel
  · refine ⟨by decide +kernel, ?_, ?_, by decide +kernel⟩
    · have : ∀ r ∈ arrowOf "int".toList, Closed r := by decide +kernel
      exact this
    · have : ∀ c ∈ lambdaCode demoO demoL, Closed c := by decide +kernel
      exact this

/-! ### C63: the callable takes what the annotations announce -/

/-- The number of parameters that are `py::args` or `py::kwargs`. -/
def variadic (ps : List Param) : Nat := (ps.filter (fun p => isArgs p.type || isKwargs p.type)).length

/-- The bound function takes an object. -/
def member (f : Func) : Bool := isMethod f && !staticRet f.ret

/-- The statement passes the object as first argument (`def` of a class). -/
def selfOf (f : Func) : Nat := Verif.Fn.Spec.selfArgs (isMethod f) (staticRet f.ret && isMethod f)

/-- The number of parameters of the callable. -/
def arityOf (o : Options) (f : Func) (ret : Str) : Nat := (callable o f ret).arity f.params.length (member f)

/-- Full statement: the annotations match the callable, and a call in Python takes the parameters of the adapted function. -/
def C63_statement : Prop :=
  ∀ (o : Options) (f : Func) (args : List Str) (ret : Str), isConstructor f = false → pyargList o f = some args →
    (needsLambda f = false → f.aParams = f.params) →
    Verif.Fn.Spec.CountsMatch (selfOf f) args.length (variadic f.aParams) (arityOf o f ret) ∧
    Verif.Fn.Spec.pythonArgs (selfOf f) (arityOf o f ret) = f.aParams.length

theorem allSome_length {α : Type} (l : List (Option α)) (r : List α) (h : allSome l = some r) : r.length = l.length := by
  induction l generalizing r with
  | nil => cases h; rfl
  | cons a l ih =>
    cases a with
    | none => cases h
    | some a =>
      simp only [allSome, Option.map_eq_some_iff] at h
      obtain ⟨r', h1, rfl⟩ := h
      simp [ih r' h1]

theorem scopedParam_type (c : Option Cls) (p : Param) : (scopedParam c p).type = p.type := by
  unfold scopedParam
  split
  · rfl
  · split <;> rfl

theorem filter_scoped (c : Option Cls) (ps : List Param) :
    ((ps.map (scopedParam c)).filter (fun p => !isArgs p.type && !isKwargs p.type)).length + variadic ps = ps.length := by
  induction ps with
  | nil => rfl
  | cons p ps ih =>
    unfold variadic at *
    simp only [List.map_cons, List.filter_cons, scopedParam_type]
    cases isArgs p.type <;> cases isKwargs p.type <;>
      simp only [Bool.not_true, Bool.not_false, Bool.and_self, Bool.and_true, Bool.and_false, Bool.or_self, Bool.or_true, Bool.or_false, if_true,
        if_false, List.length_cons, Bool.false_eq_true] at ih ⊢ <;> omega

theorem withoutCtorSelf_eq (o : Options) (f : Func) (ps : List Param) (h : isConstructor f = false) : withoutCtorSelf o f ps = ps := by
  unfold withoutCtorSelf
  cases ps with
  | nil => rfl
  | cons p r => simp [h]

/-- Every parameter is named by a `py::arg`, or is `py::args` or `py::kwargs`. -/
theorem named_plus_variadic (o : Options) (f : Func) (args : List Str) (hc : isConstructor f = false) (h : pyargList o f = some args) :
    args.length + variadic f.aParams = f.aParams.length := by
  unfold pyargList at h
  rw [withoutCtorSelf_eq o f _ hc] at h
  rw [allSome_length _ _ h, List.length_map]
  exact filter_scoped _ _

theorem arity_aux (m s : Bool) (n : Nat) :
    (n + if (m && !s) = true then 1 else 0) = (if (m && !(s && m)) = true then 1 else 0) + n := by
  cases m <;> cases s <;> simp <;> omega

/-- A static method is bound by its address. -/
def StaticDirect (o : Options) (f : Func) : Prop :=
  isMethod f = true → staticRet f.ret = true → needsLambda f = false ∧ ¬ ((f.overloaded || o.forceOverload f.name) = true ∧ f.params = [])

/-- The annotations match the callable and a call in Python takes the parameters of the adapted function, except for the static methods that
are bound by a lambda. -/
theorem C63_partial (o : Options) (f : Func) (args : List Str) (ret : Str) (hc : isConstructor f = false) (h : pyargList o f = some args)
    (hp : needsLambda f = false → f.aParams = f.params) (hs : StaticDirect o f) :
    Verif.Fn.Spec.CountsMatch (selfOf f) args.length (variadic f.aParams) (arityOf o f ret) ∧
    Verif.Fn.Spec.pythonArgs (selfOf f) (arityOf o f ret) = f.aParams.length := by
  have hn := named_plus_variadic o f args hc h
  have key : arityOf o f ret = selfOf f + f.aParams.length := by
    unfold arityOf selfOf callable Verif.Fn.Spec.selfArgs
    by_cases hl : needsLambda f = true
    · rw [if_pos hl]
      unfold lambdaOf Verif.Fn.Spec.Callable.arity lambdaParams
      rw [hc]
      by_cases hm : isMethod f = true
      · have hst : staticRet f.ret = false := by
          by_contra hst
          have := (hs hm (by simpa using hst)).1
          rw [hl] at this
          cases this
        simp [hm, hst]
        omega
      · simp [hm]
    · have hl' : needsLambda f = false := by simpa using hl
      rw [if_neg hl, hp hl']
      unfold callableOf
      by_cases ho : (f.overloaded || o.forceOverload f.name) = true
      · rw [if_pos ho]
        by_cases hz : (isMethod f && decide (f.params = [])) = true
        · rw [if_pos hz]
          rw [Bool.and_eq_true, decide_eq_true_iff] at hz
          have hst : staticRet f.ret = false := by
            by_contra hst
            exact (hs hz.1 (by simpa using hst)).2 ⟨ho, hz.2⟩
          simp [Verif.Fn.Spec.Callable.arity, hz.1, hz.2, hst]
        · rw [if_neg hz]
          simp only [Verif.Fn.Spec.Callable.arity, List.length_map, member]
          exact arity_aux _ _ _
      · rw [if_neg ho]
        simp only [Verif.Fn.Spec.Callable.arity, member]
        exact arity_aux _ _ _
  rw [key]
  constructor
  · right; omega
  · unfold Verif.Fn.Spec.pythonArgs; omega

/-- a method with its object, a static method, a function with a lambda -/
example : isConstructor demoM = false ∧ pyargList demoO demoM = some demoArgs ∧ StaticDirect demoO demoM ∧ arityOf demoO demoM [] = 3 ∧
    StaticDirect demoO (static demoM) ∧ arityOf demoO (static demoM) [] = 2 ∧
    StaticDirect demoO demoL ∧ arityOf demoO demoL "int".toList = 2 := by
  refine ⟨by decide +kernel, by decide +kernel, fun _ h => absurd h (by decide +kernel), by decide +kernel, fun _ _ => by decide +kernel,
    by decide +kernel, fun h => absurd h (by decide +kernel), by decide +kernel⟩

/-- `static int add(int a, int b = 2);` in a class, with a lambda -/
def staticL : Func := static { demoL with cls := some demoCls }

/-- `static int zero();` in a class, with another function of this name -/
def staticZero : Func := static { demoM with params := [], aParams := [], overloaded := true }

/-- A static method that is bound by a lambda: the lambda has a parameter `self` that `def_static` does not pass, so that pybind11 refuses
the statement. An overloaded static method without parameters: the call in Python needs an argument. -/
theorem C63_fails : ¬ C63_statement ∧
    ¬ Verif.Fn.Spec.CountsMatch (selfOf staticL) demoArgs.length (variadic staticL.aParams) (arityOf demoO staticL "int".toList) ∧
    pydefCode demoO staticZero = some ".def_static(\"add\",    // lib.h:12
    [](Ns::Foo & self) { return self.add(); }, \n    \"Adds two numbers\", \n    py::return_value_policy::reference)".toList ∧
    Verif.Fn.Spec.pythonArgs (selfOf staticZero) (arityOf demoO staticZero []) = 1 := by
  have h1 : ¬ Verif.Fn.Spec.CountsMatch (selfOf staticL) demoArgs.length (variadic staticL.aParams) (arityOf demoO staticL "int".toList) := by
    decide +kernel
  refine ⟨fun h => ?_, h1, by decide +kernel, by decide +kernel⟩
  exact h1 (h demoO staticL demoArgs "int".toList (by decide +kernel) (by decide +kernel) (fun h => absurd h (by decide +kernel))).1

/-- A constructor that is not a lambda: `py::init<types>` has one type per named or variadic argument. -/
theorem C63_ctor (o : Options) (f : Func) (args : List Str) (hn : o.nanobind = false) (h : pyargList o f = some args)
    (hp : f.aParams = f.params) : args.length + variadic f.params = (f.params.map overloadType).length := by
  unfold pyargList at h
  have hw : withoutCtorSelf o f f.aParams = f.params := by
    unfold withoutCtorSelf
    rw [hp]
    cases f.params with
    | nil => rfl
    | cons p r => simp [hn]
  rw [hw] at h
  rw [allSome_length _ _ h, List.length_map, List.length_map]
  exact filter_scoped _ _

example : isConstructor demoC = true ∧ demoO.nanobind = false ∧ pyargList demoO demoC = some demoArgs ∧ demoC.aParams = demoC.params := by
  decide +kernel

/-! ### C63: overloads -/

/-- Full statement: two methods of a class with the same name that are bound by the same text have the same parameters and are both const
or both not. -/
def C63_overloads_statement : Prop :=
  ∀ (o : Options) (f g : Func), f.overloaded = true → g.overloaded = true → addressOf f = addressOf g → ',' ∉ addressOf f →
    functionPointer o f = functionPointer o g →
    overloadTypes f.params = overloadTypes g.params ∧ isConstFn f.specifiers = isConstFn g.specifiers

/-- `int get()` and `int get() const`: both are bound by `[](Foo & self) { return self.get(); }`, the const one is never called. -/
theorem C63_overloads_fails : ¬ C63_overloads_statement := by
  intro h
  have := (h demoO { demoM with params := [], aParams := [], overloaded := true }
    { demoM with params := [], aParams := [], overloaded := true, specifiers := [const_] } rfl rfl (by decide +kernel) (by decide +kernel)
    (by decide +kernel)).2
  revert this
  decide +kernel

theorem tag_not_end (X Y A tag : Str) (hA : ',' ∉ A) (ht : ',' ∈ tag) (hp : '(' ∉ tag) (hY : Y.getLast? = some '(') : X ++ A ++ tag ≠ Y ++ A := by
  intro h
  rcases List.append_eq_append_iff.1 h with ⟨w, h1, h2⟩ | ⟨w, h1, h2⟩
  · by_cases hw : w = []
    · subst hw
      exact hA (by rw [h2] at ht; simpa using ht)
    · rw [h1, List.getLast?_append_of_ne_nil _ hw] at hY
      exact hp (by rw [h2]; exact List.mem_append_left _ (List.mem_of_getLast? hY))
  · exact hA (by rw [h2]; exact List.mem_append_right _ ht)

/-- The text determines the parameters and the constness, for methods that have parameters. -/
theorem C63_overloads_partial (o : Options) (f g : Func) (hf : f.overloaded = true) (hg : g.overloaded = true) (he : addressOf f = addressOf g)
    (hcomma : ',' ∉ addressOf f) (hpf : f.params ≠ []) (hpg : g.params ≠ []) (h : functionPointer o f = functionPointer o g) :
    overloadTypes f.params = overloadTypes g.params ∧ isConstFn f.specifiers = isConstFn g.specifiers := by
  have cast : ∀ f : Func, f.overloaded = true → f.params ≠ [] → functionPointer o f =
      lib o ++ "::overload_cast<".toList ++ overloadTypes f.params ++ ">(".toList ++ addressOf f ++
        Verif.Fn.Spec.constTag (lib o) (isConstFn f.specifiers) ++ ")".toList := by
    intro f hf hpf
    rw [functionPointer_text o f []]
    unfold callableOf
    rw [hf, Bool.true_or, if_pos rfl]
    have : ¬ (isMethod f && decide (f.params = [])) = true := by simp [hpf]
    rw [if_neg this, Verif.Fn.Spec.text_cast]
    rfl
  rw [cast f hf hpf, cast g hg hpg, ← he] at h
  have h0 := List.append_cancel_right h
  have hlast : ∀ T : Str, (lib o ++ "::overload_cast<".toList ++ T ++ ">(".toList).getLast? = some '(' := by
    intro T
    rw [List.getLast?_append]
    rfl
  have htag : ',' ∈ Verif.Fn.Spec.constTag (lib o) true ∧ '(' ∉ Verif.Fn.Spec.constTag (lib o) true := by
    unfold lib; cases o.nanobind <;> decide +kernel
  cases hcf : isConstFn f.specifiers <;> cases hcg : isConstFn g.specifiers <;> rw [hcf, hcg] at h0
  · exact ⟨List.append_cancel_left (List.append_cancel_right (List.append_cancel_right (List.append_cancel_right h0))), rfl⟩
  · have h1 : lib o ++ "::overload_cast<".toList ++ overloadTypes f.params ++ ">(".toList ++ addressOf f =
        lib o ++ "::overload_cast<".toList ++ overloadTypes g.params ++ ">(".toList ++ addressOf f ++ Verif.Fn.Spec.constTag (lib o) true := by
      rw [← h0]
      exact (List.append_nil _).symm
    exact absurd h1.symm (tag_not_end _ _ _ _ hcomma htag.1 htag.2 (hlast _))
  · have h1 : lib o ++ "::overload_cast<".toList ++ overloadTypes f.params ++ ">(".toList ++ addressOf f ++ Verif.Fn.Spec.constTag (lib o) true =
        lib o ++ "::overload_cast<".toList ++ overloadTypes g.params ++ ">(".toList ++ addressOf f := by
      rw [h0]
      exact List.append_nil _
    exact absurd h1 (tag_not_end _ _ _ _ hcomma htag.1 htag.2 (hlast _))
  · exact ⟨List.append_cancel_left (List.append_cancel_right (List.append_cancel_right (List.append_cancel_right h0))), rfl⟩

example : addressOf demoM = "&Ns::Foo::add".toList ∧ ',' ∉ addressOf demoM ∧ demoM.params ≠ [] ∧
    functionPointer demoO { demoM with overloaded := true, specifiers := [const_] } =
      "py::overload_cast<int, int>(&Ns::Foo::add, py::const_)".toList := by decide +kernel

/-- Full statement: a call of the callable returns a reference when the function returns a reference. -/
def C63_reference_statement : Prop :=
  ∀ (o : Options) (f : Func), needsLambda f = false →
    (callableOf o f).returnsReference (f.ret.any (fun t => amp ∈ t.modifiers)) = f.ret.any (fun t => amp ∈ t.modifiers)

/-- `Foo & get();` with another `get`: the lambda `[](Foo & self) { return self.get(); }` returns a copy, whatever the return policy. -/
theorem C63_reference_fails : ¬ C63_reference_statement := by
  intro h
  have := h demoO { demoM with params := [], aParams := [], overloaded := true,
                               ret := some { specifiers := [], typenames := ["Foo".toList], modifiers := [amp] } } (by decide +kernel)
  revert this
  decide +kernel

/-- The other callables return what the function returns. -/
theorem C63_reference_partial (o : Options) (f : Func)
    (h : ¬ ((f.overloaded || o.forceOverload f.name) = true ∧ isMethod f = true ∧ f.params = [])) :
    (callableOf o f).returnsReference (f.ret.any (fun t => amp ∈ t.modifiers)) = f.ret.any (fun t => amp ∈ t.modifiers) := by
  unfold callableOf
  by_cases ho : (f.overloaded || o.forceOverload f.name) = true
  · have : ¬ (isMethod f && decide (f.params = [])) = true := by
      rw [Bool.and_eq_true, decide_eq_true_iff]
      exact fun hz => h ⟨ho, hz⟩
    rw [if_pos ho, if_neg this]
    rfl
  · rw [if_neg ho]
    rfl

example : ¬ ((demoM.overloaded || demoO.forceOverload demoM.name) = true ∧ isMethod demoM = true ∧ demoM.params = []) := by decide +kernel

end Verif.Fn.Props
