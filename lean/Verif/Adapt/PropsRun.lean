import Verif.Adapt.Props
import Verif.Adapt.Reject

/-! C54: the generated lambdas pass the values correctly. -/

namespace Verif.Adapt.Props
open Verif.Py Verif.Type Spec

/-- C54: whenever the C++ function, called with what the parameters promise, gives the result `r` and leaves the arguments in
some state, the lambda gives the promised result and leaves its arguments in the promised state. -/
def C54_call_statement : Prop :=
  ∀ (code : Code) (o : Options) (known : List Str) (f g : Fn), Fresh f → applyAll o f = .ok g → ∀ (i : Nat) (l : Lambda),
    g.lambdas[i]? = some l → NoClash l → ∀ (suffix : Str) (xs : List Passing) (r res : Val) (callee : Callee),
    l.name = f.name ++ suffix →
    StageCall code o known f.name f.isVoid r (calledParams f.params g.lambdas i) xs suffix res →
    callee (xs.flatMap (·.cpp)) = .ok (r, xs.flatMap (·.cppAfter)) →
    run code o.arraySize known callee l (xs.flatMap (·.python)) = .ok (res, xs.flatMap (·.pythonAfter))

/-- The options `demo`, with the modified parameters in the result. -/
def returning : Options := { demo with toReturn := fun _ => true }

/-- The result of the adapters on `ps`. -/
def resultOf (o : Options) (ps : List Param) : Fn := match applyAll o (fn ps) with
  | .ok g => g
  | .error _ => fn ps

/-- The first lambda. -/
def firstOf (o : Options) (ps : List Param) : Lambda := (resultOf o ps).lambdas.headD ⟨[], [], none, [], [], [], [], .forward⟩

/-- `void f(int * a[2])` -/
def pointers : List Param := [par "a" tIntPtr "[2]"]

def two : List Val := [.ptr (.data 1), .ptr (.data 2)]

/-- C54 is false of an array of pointers: whether its items are boxed is decided from `int *`, but the generated code reads
`.value`, which is decided from `int`. -/
theorem C54_call_fails : ¬ C54_call_statement := by
  intro h
  have h1 : applyAll demo (fn pointers) = .ok (resultOf demo pointers) := by decide +kernel
  have h2 : (resultOf demo pointers).lambdas[0]? = some (firstOf demo pointers) := by decide +kernel
  have h3 := h (fun _ => .null) demo [] (fn pointers) (resultOf demo pointers) ⟨rfl, rfl⟩ h1 0 (firstOf demo pointers) h2
    (show ((firstOf demo pointers).params.map (·.name) ++ (firstOf demo pointers).input.flatMap declares).Nodup by decide +kernel)
    "_adapt_fixed_size_c_arrays".toList
    [{ python := two, cpp := [.ptr (.list two)], cppAfter := [.ptr (.list two)], pythonAfter := two }]
    .null .null (fun _ => .ok (.null, [.ptr (.list two)])) (by decide +kernel)
    (.arrays (.cons (.objects two two
      ⟨by decide +kernel, ⟨by decide +kernel, by decide +kernel⟩, by decide +kernel, by decide +kernel⟩ rfl (by decide +kernel))
      .nil)) rfl
  have h4 : (match run (fun _ => .null) demo.arraySize [] (fun _ => .ok (.null, [.ptr (.list two)])) (firstOf demo pointers) two with
    | .ok _ => true | .error _ => false) = false := by decide +kernel
  have h5 : ([{ python := two, cpp := [.ptr (.list two)], cppAfter := [.ptr (.list two)], pythonAfter := two }] : List Passing).flatMap
      (·.python) = two := by rfl
  rw [h5] at h3
  rw [h3] at h4
  simp at h4

/-- `void f(const char * const label = NULL)` -/
def constLabel : List Param := [par "label" (ty ["const", "const"] ["char"] ["*"]) "" "NULL"]

/-- The variable that is declared for the parameter `const char * const label = NULL` is constant, and then assigned. -/
theorem C54_text_fails : ∃ (f g : Fn) (l : Lambda) (p : Param), Fresh f ∧ applyAll returning f = .ok g ∧ g.lambdas[0]? = some l ∧
    f.params = [p] ∧ NullText p ∧ NoClash l ∧
    ∀ callee : Callee, ∃ e, run (fun _ => .null) demo.arraySize [] callee l [.none_] = .error e := by
  refine ⟨fn constLabel, resultOf returning constLabel, firstOf returning constLabel, par "label" (ty ["const", "const"] ["char"] ["*"]) "" "NULL",
    ⟨rfl, rfl⟩, by decide +kernel, by decide +kernel, rfl, ?_, ?_, ?_⟩
  · exact ⟨by decide +kernel, by decide +kernel, by decide +kernel, .inl (by decide +kernel)⟩
  · exact (show ((firstOf returning constLabel).params.map (·.name) ++ (firstOf returning constLabel).input.flatMap declares).Nodup by decide +kernel)
  · intro callee
    refine ⟨.invalid, ?_⟩
    unfold run
    have : (match execAll (fun _ => .null) demo.arraySize (params ((firstOf returning constLabel).params.map (·.name)) [.none_])
      (firstOf returning constLabel).input with | .ok _ => false | .error e => decide (e = .invalid)) = true := by decide +kernel
    split at this
    · simp at this
    · rename_i e he
      rw [he]
      simp at this
      rw [this]
      rfl

/-- C54 (part): if the buffers are recognised without ambiguity and the parameters are `Plain`. -/
theorem C54_call_partial (code : Code) (o : Options) (known : List Str) (f g : Fn) (hf : Fresh f) (h : applyAll o f = .ok g)
    (hc : ClearBuffers o f.params) (i : Nat) (l : Lambda) (hl : g.lambdas[i]? = some l) (hn : NoClash l)
    (hp : Plain o (calledParams f.params g.lambdas i)) (suffix : Str) (xs : List Passing) (r res : Val) (callee : Callee)
    (hname : l.name = f.name ++ suffix)
    (hs : StageCall code o known f.name f.isVoid r (calledParams f.params g.lambdas i) xs suffix res)
    (hcall : callee (xs.flatMap (·.cpp)) = .ok (r, xs.flatMap (·.cppAfter))) :
    run code o.arraySize known callee l (xs.flatMap (·.python)) = .ok (res, xs.flatMap (·.pythonAfter)) :=
  stage_works ((applyAll_from hf.1 hf.2 h).calls i l hl).1 hname hn hp hc hs callee hcall

/-! Examples -/

theorem clear_of {o : Options} {ps : List Param}
    (h1 : ∀ p ∈ ps, looksLikeBuffer o p = true → o.bufferSizeName p.name = false ∧ ¬ isStride p = true)
    (h2 : ∀ p ∈ ps, o.templateBuffer p.type = false) : ClearBuffers o ps := by
  constructor
  · intro p hp hl
    rw [← looksLikeBuffer_iff] at hl
    rw [← isStride_iff]
    exact h1 p hp hl
  · intro i p hp ht
    rw [h2 p (List.mem_of_getElem? hp)] at ht
    simp at ht

theorem plain_of {o : Options} {ps : List Param}
    (h1 : ∀ p ∈ ps, constCharNull p = true → p.type.specifiers.count "const".toList ≤ 1)
    (h2 : ∀ p ∈ ps, p.arrayCode ≠ [] → o.immutable (join [' '] p.type.typenames) = o.immutable ((strCode p.type).getD []))
    (h3 : ∀ p ∈ ps, isStringList p = true → o.bufferSizeName p.name = false) : Plain o ps where
  text p hp h := h1 p hp ((constCharNull_iff p).2 h)
  array := h2
  lists p hp h := h3 p hp ((isStringList_iff p).2 h)

/-- `void f(const float * values, int count, int stride = sizeof(float))` -/
def strided : List Param := [par "values" tFloats, par "count" tInt, par "stride" tInt "" "sizeof(float)"]

/-- Python gives an array of two items, and no stride: C++ receives the items, the number 2 and the stride 4. -/
def stridedCall (a b : Val) : List Passing :=
  [{ python := [.array "float".toList 4 true [a, b]], cpp := [.ptr (.list [a, b])], cppAfter := [.ptr (.list [a, b])],
     pythonAfter := [.array "float".toList 4 true [a, b]] },
   { python := [], cpp := [.data 2], cppAfter := [.data 2], pythonAfter := [] },
   { python := [.data (-1)], cpp := [.data 4], cppAfter := [.data 4], pythonAfter := [.data (-1)] }]

theorem strided_array (a b : Val) (i : Nat) (hi : i < 3) :
    ArrayBefore demo strided (stridedCall a b) i "float".toList 4 [a, b] := by
  refine ⟨0, Nat.zero_le _, ⟨_, rfl, .inl (by decide +kernel)⟩, ?_, _, rfl, rfl⟩
  intro k q hk hki hq hb
  rw [← looksLikeBuffer_iff] at hb
  match k, hk with
  | 1, _ => cases hq; exact absurd hb (by decide +kernel)
  | 2, _ => cases hq; exact absurd hb (by decide +kernel)
  | k + 3, _ => omega

theorem strided_call (known : List Str) (a b : Val) : BuffersCall demo known strided (stridedCall a b) where
  length := rfl
  each i p x hp hx := by
    match i with
    | 0 =>
      cases hp; cases hx
      exact .standard _ 4 [a, b] [a, b] ((isBuffer_iff ..).1 (by decide +kernel)) (by decide +kernel) (by decide +kernel) rfl
    | 1 =>
      cases hp; cases hx
      exact .size _ 4 [a, b] _ ((bufferSize_iff ..).1 (by decide +kernel))
        (fun h => absurd ((isStride_iff _).2 h) (by decide +kernel)) (strided_array a b 1 (by omega))
    | 2 =>
      cases hp; cases hx
      exact .stride (-1) _ 4 [a, b] _ ((isStride_iff _).1 (by decide +kernel))
        (fun h => absurd ((bufferSize_iff ..).2 h) (by decide +kernel)) (strided_array a b 2 (by omega))
    | i + 3 => simp [strided] at hp
  known i p x t z c l hp _ ht _ := by
    have : ∀ p ∈ strided, demo.templateBuffer p.type = false := by decide +kernel
    rw [this p (List.mem_of_getElem? hp)] at ht
    simp at ht
  same i j p q x y t z c l t' z' c' l' hp _ _ _ ht _ _ _ := by
    have : ∀ p ∈ strided, demo.templateBuffer p.type = false := by decide +kernel
    rw [this p (List.mem_of_getElem? hp)] at ht
    simp at ht

/-- A call with any two items, of any C++ function that returns `r`. -/
example (a b r : Val) (callee : Callee)
    (h : callee [.ptr (.list [a, b]), .data 2, .data 4] = .ok (r, [.ptr (.list [a, b]), .data 2, .data 4])) :
    run (fun _ => .null) demo.arraySize [] callee (firstOf demo strided) [.array "float".toList 4 true [a, b], .data (-1)] =
      .ok (r, [.array "float".toList 4 true [a, b], .data (-1)]) :=
  C54_call_partial (fun _ => .null) demo [] (fn strided) (resultOf demo strided) ⟨rfl, rfl⟩ (by decide +kernel)
    (clear_of (by decide +kernel) (by decide +kernel)) 0 (firstOf demo strided) (by decide +kernel)
    (show ((firstOf demo strided).params.map (·.name) ++ (firstOf demo strided).input.flatMap declares).Nodup by decide +kernel)
    (plain_of (by decide +kernel) (by decide +kernel) (by decide +kernel)) "_adapt_c_buffers".toList (stridedCall a b) r r callee
    (by decide +kernel) (.buffers (strided_call [] a b)) h
/-- C54: a call with something else than a contiguous array of the element type of a buffer (or of one of the known types, for a
pointer to a template type) never reaches C++. -/
theorem C54_rejects (code : Code) (o : Options) (known : List Str) (f g : Fn) (hf : Fresh f) (h : applyAll o f = .ok g)
    (hc : ClearBuffers o f.params) (i : Nat) (l : Lambda) (hl : g.lambdas[i]? = some l) (hn : NoClash l)
    (hname : l.name = f.name ++ "_adapt_c_buffers".toList) (k : Nat) (p : Param) (hp : f.params[k]? = some p)
    (hr : Recognised o f.params k) (vs : List Val) (v : Val) (hv : Given l vs p.name v)
    (hbad : ∀ t z items, v = .array t z true items →
      (o.templateBuffer p.type = false → p.type.typenames.head? ≠ some t) ∧ (o.templateBuffer p.type = true → t ∉ known)) :
    Rejected code o.arraySize known l vs := by
  obtain ⟨a, f1, hp1, hl1, ha⟩ := buffers_lambda ((applyAll_from hf.1 hf.2 h).calls i l hl).1 hname
  rw [← hp1] at hc hp hr
  obtain ⟨hv1, hm⟩ := given_params hn hv
  cases hx : execAll code o.arraySize (params (l.params.map (·.name)) vs) l.input with
  | error e => exact ⟨e, run_input_error hx⟩
  | ok e1 =>
    obtain ⟨he1, t, z, items, rfl, htype⟩ := buffers_reached ha hl1 hn hc hx hp hr hv1 hm
    cases ht : o.templateBuffer p.type with
    | false => exact absurd (htype ht) ((hbad t z items rfl).1 ht)
    | true =>
      obtain ⟨x, others, hret, hx2⟩ := (C37_checked o f1 a ha).2.2 p (List.mem_of_getElem? hp) ht
      rw [← hl1.2.2.2.2] at hret
      have : ∃ e, checkElements known e1 l.ret = .error e := by
        rw [hret]
        exact dispatch_unknown he1 hx2 ((hbad t z items rfl).2 ht)
      obtain ⟨e, he⟩ := this
      exact ⟨e, run_check_error hx he⟩

/-- An array of integers for `const float * values`. -/
example (code : Code) (items : List Val) (k : Val) :
    Rejected code demo.arraySize [] (firstOf demo strided) [.array "int".toList 4 true items, k] :=
  C54_rejects code demo [] (fn strided) (resultOf demo strided) ⟨rfl, rfl⟩ (by decide +kernel)
    (clear_of (by decide +kernel) (by decide +kernel)) 0 (firstOf demo strided) (by decide +kernel)
    (show ((firstOf demo strided).params.map (·.name) ++ (firstOf demo strided).input.flatMap declares).Nodup by decide +kernel)
    (by decide +kernel) 0 (par "values" tFloats) rfl ((isBuffer_iff ..).1 (by decide +kernel)) _ _
    ⟨(show 2 = (firstOf demo strided).params.length by decide +kernel), 0, par "values" (ty ["const"] ["py::array"] ["&"]),
      by decide +kernel, rfl, rfl⟩
    (fun t z l h => ⟨fun _ => by
      simp only [Val.array.injEq] at h
      rw [← h.1]
      decide +kernel, fun h => absurd h (by decide +kernel)⟩)

/-- C54: a call with arrays of two different element types, for two pointers to a template type, never reaches C++. -/
theorem C54_rejects_mixed (code : Code) (o : Options) (known : List Str) (f g : Fn) (hf : Fresh f) (h : applyAll o f = .ok g)
    (hc : ClearBuffers o f.params) (i : Nat) (l : Lambda) (hl : g.lambdas[i]? = some l) (hn : NoClash l)
    (hname : l.name = f.name ++ "_adapt_c_buffers".toList) (k k' : Nat) (p p' : Param) (hp : f.params[k]? = some p)
    (hp' : f.params[k']? = some p') (ht : o.templateBuffer p.type = true) (ht' : o.templateBuffer p'.type = true)
    (vs : List Val) (t t' : Str) (z z' : Int) (c c' : Bool) (items items' : List Val) (hv : Given l vs p.name (.array t z c items))
    (hv' : Given l vs p'.name (.array t' z' c' items')) (hne : t ≠ t') :
    Rejected code o.arraySize known l vs := by
  obtain ⟨a, f1, hp1, hl1, ha⟩ := buffers_lambda ((applyAll_from hf.1 hf.2 h).calls i l hl).1 hname
  rw [← hp1] at hc hp hp'
  obtain ⟨hv1, hm⟩ := given_params hn hv
  obtain ⟨hv1', hm'⟩ := given_params hn hv'
  cases hx : execAll code o.arraySize (params (l.params.map (·.name)) vs) l.input with
  | error e => exact ⟨e, run_input_error hx⟩
  | ok e1 =>
    obtain ⟨he1, -⟩ := buffers_reached ha hl1 hn hc hx hp (hc.template k p hp ht) hv1 hm
    obtain ⟨he1', -⟩ := buffers_reached ha hl1 hn hc hx hp' (hc.template k' p' hp' ht') hv1' hm'
    obtain ⟨x, others, hret, hx1⟩ := (C37_checked o f1 a ha).2.2 p (List.mem_of_getElem? hp) ht
    obtain ⟨x', others', hret', hx2⟩ := (C37_checked o f1 a ha).2.2 p' (List.mem_of_getElem? hp') ht'
    rw [hret] at hret'
    simp only [Ret.dispatch.injEq] at hret'
    obtain ⟨rfl, rfl⟩ := hret'
    rw [← hl1.2.2.2.2] at hret
    have : ∃ e, checkElements known e1 l.ret = .error e := by
      rw [hret]
      exact dispatch_mixed he1 hx1 he1' hx2 hne
    obtain ⟨e, he⟩ := this
    exact ⟨e, run_check_error hx he⟩

/-- `void f(T * a, T * b, int n)` -/
def twoTemplates : List Param := [par "a" tT, par "b" tT, par "n" tInt]

example (code : Code) (known : List Str) (items items' : List Val) :
    Rejected code demo.arraySize known (firstOf demo twoTemplates)
      [.array "int".toList 4 true items, .array "float".toList 4 true items'] :=
  C54_rejects_mixed code demo known (fn twoTemplates) (resultOf demo twoTemplates) ⟨rfl, rfl⟩ (by decide +kernel)
    ⟨fun p hp hl => by
      rw [← looksLikeBuffer_iff] at hl
      rw [← isStride_iff]
      have : ∀ p ∈ (fn twoTemplates).params, looksLikeBuffer demo p = true → demo.bufferSizeName p.name = false ∧ ¬ isStride p = true := by
        decide +kernel
      exact this p hp hl, fun i p hp ht => by
      rw [← isBuffer_iff]
      match i with
      | 0 => decide +kernel
      | 1 => decide +kernel
      | 2 => cases hp; exact absurd ht (by decide +kernel)
      | i + 3 =>
        have h3 : (fn twoTemplates).params.length = 3 := by decide +kernel
        rw [List.getElem?_eq_none (by omega)] at hp
        simp at hp⟩
    0 (firstOf demo twoTemplates) (by decide +kernel)
    (show ((firstOf demo twoTemplates).params.map (·.name) ++ (firstOf demo twoTemplates).input.flatMap declares).Nodup by
      decide +kernel)
    (by decide +kernel) 0 1 (par "a" tT) (par "b" tT) rfl rfl (by decide +kernel) (by decide +kernel) _ "int".toList "float".toList
    4 4 true true items items'
    ⟨(show 2 = (firstOf demo twoTemplates).params.length by decide +kernel), 0, par "a" (ty [] ["py::array"] ["&"]),
      by decide +kernel, rfl, rfl⟩
    ⟨(show 2 = (firstOf demo twoTemplates).params.length by decide +kernel), 1, par "b" (ty [] ["py::array"] ["&"]),
      by decide +kernel, rfl, rfl⟩ (by decide +kernel)

/-- C54 (part): the same for all the lambdas together: the function that is bound gives the promised result. -/
theorem C54_chain_partial (code : Code) (o : Options) (known : List Str) (f g : Fn) (hf : Fresh f) (h : applyAll o f = .ok g)
    (hc : ClearBuffers o f.params)
    (hn : ∀ (i : Nat) (l : Lambda), g.lambdas[i]? = some l → NoClash l ∧ Plain o (calledParams f.params g.lambdas i))
    (cpp python : Call) (hj : Journey code o known f.name f.isVoid f.params g.lambdas cpp python) (callee : Callee)
    (hcall : callee cpp.before = .ok (cpp.result, cpp.after)) :
    wrapped code o.arraySize known callee g.lambdas python.before = .ok (python.result, python.after) := by
  have key : ∀ (ls : List Lambda) (ps : List Param) (c d : Call) (k : Callee), Journey code o known f.name f.isVoid ps ls c d →
      (∀ (i : Nat) (l : Lambda), ls[i]? = some l → NoClash l ∧ Plain o (calledParams ps ls i) ∧ From o f (calledParams ps ls i) l) →
      k c.before = .ok (c.result, c.after) → wrapped code o.arraySize known k ls d.before = .ok (d.result, d.after) := by
    intro ls
    induction ls with
    | nil =>
      intro ps c d k hj _ hk
      cases hj
      exact hk
    | cons l r ih =>
      intro ps c d k hj hall hk
      cases hj with
      | cons hname hs hrest =>
        rename_i xs suffix r' res
        obtain ⟨h1, h2, h3⟩ := hall 0 l rfl
        refine ih l.params _ d _ hrest (fun i l' hl' => ?_) (stage_works h3 hname h1 h2 hc hs k hk)
        have := hall (i + 1) l' (by simpa using hl')
        have heq : calledParams ps (l :: r) (i + 1) = calledParams l.params r i := by
          cases i with
          | zero => rfl
          | succ j =>
            simp only [calledParams, List.getElem?_cons_succ]
            have hlt : j + 1 < r.length := by
              by_contra hc
              rw [List.getElem?_eq_none (by omega)] at hl'
              simp at hl'
            rw [List.getElem?_eq_getElem (by omega)]
        rw [heq] at this
        exact this
  refine key g.lambdas f.params cpp python callee hj (fun i l hl => ?_) hcall
  exact ⟨(hn i l hl).1, (hn i l hl).2, ((applyAll_from hf.1 hf.2 h).calls i l hl).1⟩

/-- `void f(bool & on, const char * label = NULL, int secret = 3)` -/
def switch : List Param := [par "on" (ty [] ["bool"] ["&"]), par "label" tChars "" "NULL", par "secret" tInt "" "3"]

def switchLambda (i : Nat) : Lambda := (resultOf returning switch).lambdas[i]?.getD ⟨[], [], none, [], [], [], [], .forward⟩

theorem switch_journey (code : Code) (d d' : Int) (text r : Val) : Journey code returning [] "f".toList true switch
    [switchLambda 0, switchLambda 1, switchLambda 2]
    ⟨[.data d, .ptr text, code "3".toList], [.data d', .ptr text, code "3".toList], r⟩
    ⟨[.data d, .some_ text], [.data d, .some_ text], .data d'⟩ := by
  have hon : MayBecome (par "on" (ty [] ["bool"] ["&"])) (.data d) (.data d') :=
    ⟨fun h => absurd h (by decide +kernel), .data d d'⟩
  refine .cons (xs := [⟨[.data d], [.data d], [.data d'], [.data d'], []⟩, ⟨[.ptr text], [.ptr text], [.ptr text], [.ptr text], []⟩,
    ⟨[], [code "3".toList], [code "3".toList], [], []⟩]) (suffix := "_adapt_exclude_params".toList) (res := r)
    (by decide +kernel) (.exclude ?_) ?_
  · refine .cons (.kept _ ?_ (.mk _ _ hon)) (.cons (.kept _ ?_ (.mk _ _ ⟨fun _ => rfl, .refl _⟩)) (.cons (.hidden _ ?_) .nil))
    · rw [← shallExclude_iff]; decide +kernel
    · rw [← shallExclude_iff]; decide +kernel
    · rw [← shallExclude_iff]; decide +kernel
  have h0 : (switchLambda 0).params = [par "on" (ty [] ["bool"] ["&"]), par "label" tChars "" "NULL"] := by decide +kernel
  rw [h0]
  refine .cons (xs := [⟨[.data d], [.data d], [.data d'], [.data d'], []⟩,
    ⟨[.some_ text], [.ptr text], [.ptr text], [.some_ text], []⟩])
    (suffix := "_adapt_const_char_pointer_with_default_null".toList) (res := r) (by decide +kernel) (.nullText ?_) ?_
  · refine .cons (.kept _ ?_ (.mk _ _ hon)) (.cons (.some_ _ ?_) .nil)
    · rw [← constCharNull_iff]; decide +kernel
    · rw [← constCharNull_iff]; decide +kernel
  have h1 : (switchLambda 1).params =
      [par "on" (ty [] ["bool"] ["&"]), par "label" (ty [] ["std::optional<std::string>"] []) "" "std::nullopt"] := by decide +kernel
  rw [h1]
  refine .cons (xs := [⟨[.data d], [.data d], [.data d'], [.data d], [.data d']⟩,
    ⟨[.some_ text], [.some_ text], [.some_ text], [.some_ text], []⟩])
    (suffix := "_adapt_modifiable_immutable_to_return".toList) (res := .data d') (by decide +kernel) (.return_ ?_) (.nil _ _)
  refine .cons (.ref _ _ ⟨by decide +kernel, by decide +kernel, by decide +kernel⟩ rfl)
    (.cons (.kept _ ?_ (.mk _ _ ⟨fun _ => rfl, .refl _⟩)) .nil)
  rw [← hiddenOutput_iff]
  decide +kernel

/-- A call of a function that sets `on`: Python gets the new value as the result. -/
example (code : Code) (d d' : Int) (text r : Val) (callee : Callee)
    (h : callee [.data d, .ptr text, code "3".toList] = .ok (r, [.data d', .ptr text, code "3".toList])) :
    wrapped code returning.arraySize [] callee (resultOf returning switch).lambdas [.data d, .some_ text] =
      .ok (.data d', [.data d, .some_ text]) := by
  have hl : (resultOf returning switch).lambdas = [switchLambda 0, switchLambda 1, switchLambda 2] := by decide +kernel
  refine C54_chain_partial code returning [] (fn switch) (resultOf returning switch) ⟨rfl, rfl⟩ (by decide +kernel)
    (clear_of (by decide +kernel) (by decide +kernel)) (fun i l h => ?_) _ ⟨_, _, _⟩ (hl ▸ switch_journey code d d' text r) callee h
  have : ∀ i < 3, ((switchLambda i).params.map (·.name) ++ (switchLambda i).input.flatMap declares).Nodup := by decide +kernel
  have hp : ∀ i < 3, ∀ p ∈ calledParams (fn switch).params (resultOf returning switch).lambdas i,
      (constCharNull p = true → p.type.specifiers.count "const".toList ≤ 1) ∧
      (p.arrayCode ≠ [] → returning.immutable (join [' '] p.type.typenames) = returning.immutable ((strCode p.type).getD [])) ∧
      (isStringList p = true → returning.bufferSizeName p.name = false) := by decide +kernel
  have hi : i < 3 := by
    have := List.getElem?_eq_some_iff.1 h
    obtain ⟨h1, _⟩ := this
    rw [hl] at h1
    exact h1
  have hll : l = switchLambda i := by
    unfold switchLambda
    rw [h]; rfl
  exact ⟨hll ▸ this i hi, plain_of (fun p h => (hp i hi p h).1) (fun p h => (hp i hi p h).2.1) (fun p h => (hp i hi p h).2.2)⟩

end Verif.Adapt.Props
