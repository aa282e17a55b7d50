import Verif.Adapt.Exclude

/-! C33: the lambdas call the C++ function correctly. C34: defaults stay at the end. C35: names stay distinct.
C36: excluded parameters. -/

namespace Verif.Adapt.Props
open Verif.Py Verif.Type Spec

/-- A function that no adapter has changed yet. -/
def Fresh (f : Fn) : Prop := f.lambdas = [] ∧ f.lambdaToCall = none

/-! ### Examples -/

def ty (specifiers typenames modifiers : List String) : CppType :=
  ⟨specifiers.map String.toList, typenames.map String.toList, modifiers.map String.toList⟩

def par (name : String) (type : CppType) (arrayCode : String := "") (default : String := "") : Param :=
  ⟨name.toList, type, arrayCode.toList, default.toList⟩

/-- Options in the style of the defaults of litgen, with every adapter enabled. -/
def demo : Options where
  nanobind := false
  replaceBuffers := fun _ => true
  bufferSizeName := fun n => n = "count".toList || n = "size".toList || n = "n".toList
  standardBuffer := fun t => (t.typenames = ["float".toList] || t.typenames = ["int".toList]) && t.modifiers = [star]
  templateBuffer := fun t => t.typenames = ["T".toList] && t.modifiers = [star]
  excludeName := fun n => n = "secret".toList
  excludeType := fun t => t.typenames = ["Callback".toList]
  mutableDefault := fun _ => true
  looksMutable := fun t _ => t.typenames = ["Foo".toList]
  boxedArrays := fun _ => true
  stdArrays := fun _ => true
  boxedArrayMaxSize := 10
  constCharNull := true
  toReturn := fun _ => false
  boxed := fun _ => true
  stringList := fun _ => true
  forceLambda := fun _ => false
  immutable := fun s => s = "int".toList || s = "bool".toList
  boxedName := fun s => "Boxed_".toList ++ s
  arraySize := fun s => if s = "[2]".toList then some 2 else none

def fn (ps : List Param) : Fn := start "f".toList false true ps

def tInt : CppType := ty [] ["int"] []
def tIntPtr : CppType := ty [] ["int"] ["*"]
def tFloats : CppType := ty ["const"] ["float"] ["*"]
def tT : CppType := ty [] ["T"] ["*"]
def tChars : CppType := ty ["const"] ["char"] ["*"]
def tFoo : CppType := ty ["const"] ["Foo"] ["&"]

/-- `void f(const float* values, int count, int stride = sizeof(float), bool& on, int v[2], const Foo& foo = Foo(),
const char* items[], int n, int secret = 3)` -/
def mixed : List Param :=
  [par "values" tFloats, par "count" tInt, par "stride" tInt "" "sizeof(float)", par "on" (ty [] ["bool"] ["&"]),
   par "v" tInt "[2]", par "foo" tFoo "" "Foo()", par "items" tChars "[]", par "n" tInt, par "secret" tInt "" "3"]

/-- The result of the adapters on `mixed`: 6 lambdas, 7 parameters. -/
def mixedResult : Fn := match applyAll demo (fn mixed) with
  | .ok g => g
  | .error _ => fn mixed

theorem mixed_ok : applyAll demo (fn mixed) = .ok mixedResult := by decide +kernel

example : mixedResult.lambdas.length = 6 ∧ mixedResult.params.map (fun p => String.ofList p.name) =
    ["values", "stride", "on", "v_0", "v_1", "foo", "items"] := by decide +kernel

/-! ### C33 -/

/-- C33: the number of arguments. -/
def C33_arity_statement : Prop :=
  ∀ (o : Options) (f g : Fn), Fresh f → applyAll o f = .ok g → ∀ (i : Nat) (l : Lambda), g.lambdas[i]? = some l →
    l.args.length = (calledParams f.params g.lambdas i).length

/-- `void f(const char* a[], const char* size[], int count)` -/
def badLists : List Param := [par "a" tChars "[]", par "size" tChars "[]", par "count" tInt]

/-- C33 is false of a C string list that is named like a size: the call has four arguments for three parameters. -/
theorem C33_arity_fails : ¬ C33_arity_statement := by
  intro h
  have h1 : ∃ g, applyAll demo (fn badLists) = .ok g ∧ ∃ l, g.lambdas[0]? = some l ∧ l.args.length = 4 := by
    cases hg : applyAll demo (fn badLists) with
    | error e =>
      have : (match applyAll demo (fn badLists) with | .ok _ => true | .error _ => false) = true := by decide +kernel
      rw [hg] at this; simp at this
    | ok g =>
      refine ⟨g, rfl, ?_⟩
      have : (match applyAll demo (fn badLists) with | .ok g => (g.lambdas[0]?).map (·.args.length) | .error _ => none)
          = some 4 := by decide +kernel
      rw [hg] at this
      simpa using this
  obtain ⟨g, hg, l, hl, h4⟩ := h1
  have := h demo (fn badLists) g ⟨rfl, rfl⟩ hg 0 l hl
  rw [h4] at this
  have h5 : (fn badLists).params.length = 3 := by decide +kernel
  have h6 : 4 = (fn badLists).params.length := this
  omega

/-- C33 (part): every lambda calls the function, or the previous lambda, with one argument per parameter, if no C string
list has a name that looks like the name of a size. -/
theorem C33_arity_partial (o : Options) (f g : Fn) (hf : Fresh f) (hn : NoListNamedSize o f.params)
    (h : applyAll o f = .ok g) (i : Nat) (l : Lambda) (hl : g.lambdas[i]? = some l) :
    l.args.length = (calledParams f.params g.lambdas i).length := by
  have key := applyAll_inv (o := o)
    (fun g => NoListNamedSize o g.params ∧ Linked (fun ps l => l.args.length = ps.length) f.params g)
    (by
      intro g hg f1 a ⟨h1, h2⟩ ha
      refine ⟨shape_noListNamedSize (adapters_shape hg ha) h1, linked_apply h2 a ?_⟩
      intro l _ hargs _ _ _
      rw [hargs]; exact adapters_len hg h1 ha)
    (by
      intro f1 ⟨h1, h2⟩
      refine ⟨shape_noListNamedSize (force_shape f1) h1, linked_apply h2 _ ?_⟩
      intro l _ hargs _ _ _
      rw [hargs]; exact force_len f1)
    ⟨hn, linked_start hf.1 hf.2⟩ h
  exact (key.2.calls i l hl).1

example : Fresh (fn mixed) ∧ NoListNamedSize demo (fn mixed).params ∧ applyAll demo (fn mixed) = .ok mixedResult :=
  ⟨⟨rfl, rfl⟩, by
    intro p hp hl
    rw [← isStringList_iff] at hl
    have : ∀ p ∈ (fn mixed).params, isStringList p = true → demo.bufferSizeName p.name = false := by decide +kernel
    exact this p hp hl, mixed_ok⟩

/-- C33: the lambdas form a chain. The first one calls the C++ function and each of the others calls the previous one,
which it captures; their names are distinct; the binding exposes the parameters of the last one, and calls it. -/
theorem C33_chain (o : Options) (f g : Fn) (hf : Fresh f) (h : applyAll o f = .ok g) :
    (∀ (i : Nat) (l : Lambda), g.lambdas[i]? = some l → l.callee = calledName g.lambdas i ∧ (∀ c, l.callee = some c → c ∈ l.captures)) ∧
    (g.lambdas.map (·.name)).Nodup ∧
    g.params = calledParams f.params g.lambdas g.lambdas.length ∧
    g.lambdaToCall = calledName g.lambdas g.lambdas.length := by
  have key := applyAll_inv (o := o) (fun g => Linked (fun _ _ => True) f.params g)
    (fun g hg f1 a h1 ha => linked_apply h1 a (fun _ _ _ _ _ _ => trivial))
    (fun f1 h1 => linked_apply h1 _ (fun _ _ _ _ _ _ => trivial))
    (linked_start hf.1 hf.2) h
  exact ⟨fun i l hl => (key.calls i l hl).2, applyAll_names h hf.1, key.params, key.name⟩

example : mixedResult.lambdas.map (fun l => String.ofList l.name) =
    ["f_adapt_c_buffers", "f_adapt_exclude_params", "f_adapt_mutable_param_with_default_value", "f_adapt_fixed_size_c_arrays",
     "f_adapt_modifiable_immutable", "f_adapt_c_string_list"] := by decide +kernel

/-- C33: every variable that a lambda reads is one of its parameters or a variable that it has declared before. -/
def C33_scope_statement : Prop :=
  ∀ (o : Options) (f g : Fn), Fresh f → applyAll o f = .ok g → ∀ l ∈ g.lambdas, WellScoped l

/-- `template<T> void f(const float* a, int n, T* b)` -/
def badTemplate : List Param := [par "a" tFloats, par "n" tInt, par "b" tT]
/-- `void f(const float* a, const float* n)` -/
def badSize : List Param := [par "a" tFloats, par "n" tFloats]

/-- C33 is false of a pointer to a template type that is not followed by a size: the call reads `b_from_pyarray`, which
is not declared; it is false too of a buffer that is named like a size: the call reads `n_count`. -/
theorem C33_scope_fails : ¬ C33_scope_statement ∧
    ∀ ps ∈ [badTemplate, badSize], ∃ g, applyAll demo (fn ps) = .ok g ∧ ∃ l ∈ g.lambdas, ¬ WellScoped l := by
  have key : ∀ ps ∈ [badTemplate, badSize], ∃ g, applyAll demo (fn ps) = .ok g ∧ ∃ l ∈ g.lambdas, ¬ WellScoped l := by
    intro ps hps
    have hbad : ∀ (l : Lambda), (l.args.any (fun a => (argReads a).any (fun x =>
        !(l.params.map (·.name) ++ l.input.flatMap declares).contains x))) = true → ¬ WellScoped l := by
      intro l hl hw
      rw [List.any_eq_true] at hl
      obtain ⟨a, ha, hl⟩ := hl
      rw [List.any_eq_true] at hl
      obtain ⟨x, hx, hl⟩ := hl
      have := hw.2.1 a ha x hx
      simp at hl this
      rcases this with h | h
      · exact absurd h (by simpa using hl.1)
      · obtain ⟨s, hs, hx⟩ := h
        exact hl.2 s hs hx
    have hex : (match applyAll demo (fn ps) with
        | .ok g => g.lambdas.any (fun l => l.args.any (fun a => (argReads a).any (fun x =>
            !(l.params.map (·.name) ++ l.input.flatMap declares).contains x)))
        | .error _ => false) = true := by
      simp only [List.mem_cons, List.not_mem_nil, or_false] at hps
      rcases hps with rfl | rfl <;> decide +kernel
    cases hg : applyAll demo (fn ps) with
    | error e => rw [hg] at hex; simp at hex
    | ok g =>
      rw [hg] at hex
      simp only [List.any_eq_true] at hex
      obtain ⟨l, hl, hex⟩ := hex
      refine ⟨g, rfl, l, hl, hbad l ?_⟩
      simp only [List.any_eq_true]
      exact hex
  refine ⟨?_, key⟩
  intro h
  obtain ⟨g, hg, l, hl, hbad⟩ := key badSize (by simp)
  exact hbad (h demo (fn badSize) g ⟨rfl, rfl⟩ hg l hl)

/-- C33 (part): every variable that a lambda reads is one of its parameters or a variable that it has declared before, if
no parameter looks both like a buffer and like a size or a stride, and if every pointer to a template type is followed
by a size. -/
theorem C33_scope_partial (o : Options) (f g : Fn) (hf : Fresh f) (hc : ClearBuffers o f.params)
    (h : applyAll o f = .ok g) : ∀ l ∈ g.lambdas, WellScoped l := by
  refine applyAll_inv_first (o := o) (fun g => ∀ l ∈ g.lambdas, WellScoped l) (f := f) ?_ ?_ ?_ (by rw [hf.1]; simp) h
  · intro a h1 ha l hl
    simp only [applyAdapter, List.mem_append, List.mem_singleton] at hl
    rcases hl with hl | rfl
    · exact h1 l hl
    · exact buffers_scoped hc ha ⟨rfl, rfl, rfl, rfl, rfl⟩
  · intro g hg f1 a h1 ha l hl
    simp only [applyAdapter, List.mem_append, List.mem_singleton] at hl
    rcases hl with hl | rfl
    · exact h1 l hl
    · exact tail_scoped hg ha ⟨rfl, rfl, rfl, rfl, rfl⟩
  · intro f1 h1 l hl
    simp only [applyAdapter, List.mem_append, List.mem_singleton] at hl
    rcases hl with hl | rfl
    · exact h1 l hl
    · exact force_scoped f1 ⟨rfl, rfl, rfl, rfl, rfl⟩

example : ClearBuffers demo (fn mixed).params := by
  constructor
  · intro p hp hl
    rw [← looksLikeBuffer_iff] at hl
    rw [← isStride_iff]
    have : ∀ p ∈ (fn mixed).params, looksLikeBuffer demo p = true → demo.bufferSizeName p.name = false ∧ ¬ isStride p = true := by
      decide +kernel
    exact this p hp hl
  · intro i p hp ht
    have : ∀ p ∈ (fn mixed).params, demo.templateBuffer p.type = false := by decide +kernel
    rw [this p (List.mem_of_getElem? hp)] at ht
    simp at ht

/-! ### C34 -/

/-- C34: the parameters with a default value stay at the end. -/
def C34_statement : Prop :=
  ∀ (o : Options) (f g : Fn), Fresh f → applyAll o f = .ok g → TrailingDefaults f.params → TrailingDefaults g.params

/-- `void f(int a = 0, const char* items[] = nullptr, int n = 0)` -/
def badDefaults : List Param := [par "a" tInt "" "0", par "items" tChars "[]" "nullptr", par "n" tInt "" "0"]

/-- C34 is false of a C string list with a null default value: `items` becomes mandatory, after `a`. -/
theorem C34_fails : ¬ C34_statement := by
  intro h
  have h0 : TrailingDefaults (fn badDefaults).params := by
    rw [td_iff]; unfold TD HasDefault; decide +kernel
  have hex : (match applyAll demo (fn badDefaults) with
      | .ok g => g.params.map (·.default) == ["0".toList, []]
      | .error _ => false) = true := by decide +kernel
  cases hg : applyAll demo (fn badDefaults) with
  | error e => rw [hg] at hex; simp at hex
  | ok g =>
    rw [hg] at hex
    simp only [beq_iff_eq] at hex
    have h1 := h demo (fn badDefaults) g ⟨rfl, rfl⟩ hg h0
    match g, hex, h1 with
    | ⟨_, _, [p, q], _, _, _⟩, hex, h1 =>
      simp only [List.map_cons, List.map_nil, List.cons.injEq, and_true] at hex
      exact h1 0 1 p q (by omega) rfl rfl (by rw [HasDefault, hex.1]; simp) hex.2

/-- C34 (part): the parameters with a default value stay at the end, in every lambda, if no array and no C string list has
a default value. -/
theorem C34_partial (o : Options) (f g : Fn) (hf : Fresh f) (hn : ∀ p ∈ f.params, NoArrayDefault p)
    (h : applyAll o f = .ok g) (ht : TrailingDefaults f.params) :
    TrailingDefaults g.params ∧ ∀ l ∈ g.lambdas, TrailingDefaults l.params := by
  have step : ∀ (f1 : Fn) (news : List Param), Shape f1.params news →
      ((∀ p ∈ f1.params, NoArrayDefault p) ∧ TrailingDefaults f1.params) →
      ((∀ p ∈ news, NoArrayDefault p) ∧ TrailingDefaults news) := by
    intro f1 news hs ⟨h1, h2⟩
    rw [td_iff] at h2 ⊢
    have := shape_defaults hs h1 h2
    exact ⟨this.2, this.1⟩
  have key := applyAll_inv (o := o)
    (fun g => ((∀ p ∈ g.params, NoArrayDefault p) ∧ TrailingDefaults g.params) ∧ ∀ l ∈ g.lambdas, TrailingDefaults l.params)
    (by
      intro g hg f1 a ⟨h1, h2⟩ ha
      have h3 := step f1 a.newParams (adapters_shape hg ha) h1
      refine ⟨h3, ?_⟩
      intro l hl
      simp only [applyAdapter, List.mem_append, List.mem_singleton] at hl
      rcases hl with hl | rfl
      · exact h2 l hl
      · exact h3.2)
    (by
      intro f1 ⟨h1, h2⟩
      have h3 := step f1 (forceLambda f1).newParams (force_shape f1) h1
      refine ⟨h3, ?_⟩
      intro l hl
      simp only [applyAdapter, List.mem_append, List.mem_singleton] at hl
      rcases hl with hl | rfl
      · exact h2 l hl
      · exact h3.2)
    ⟨⟨hn, ht⟩, by rw [hf.1]; simp⟩ h
  exact ⟨key.1.2, key.2⟩

/-- `void f(const float* values, int count, bool& on, int v[2], const char* items[], int n, int secret = 3,
const Foo& foo = Foo(), int stride = sizeof(float))` -/
def sorted : List Param :=
  [par "values" tFloats, par "count" tInt, par "on" (ty [] ["bool"] ["&"]), par "v" tInt "[2]", par "items" tChars "[]",
   par "n" tInt, par "secret" tInt "" "3", par "foo" tFoo "" "Foo()", par "stride" tInt "" "sizeof(float)"]

example : TrailingDefaults (fn sorted).params ∧ (∀ p ∈ (fn sorted).params, NoArrayDefault p) ∧
    (match applyAll demo (fn sorted) with
      | .ok g => some (g.params.map (fun p => (String.ofList p.name, String.ofList p.default)))
      | .error _ => none) =
      some [("values", ""), ("on", ""), ("v_0", ""), ("v_1", ""), ("items", ""), ("foo", "std::nullopt"), ("stride", "-1")] := by
  refine ⟨?_, ?_, by decide +kernel⟩
  · rw [td_iff]; unfold TD HasDefault; decide +kernel
  · intro p hp hd
    rw [← isStringList_iff]
    have : ∀ p ∈ (fn sorted).params, p.default ≠ [] → p.arrayCode = [] ∧ ¬ isStringList p = true := by decide +kernel
    exact this p hp hd

/-! ### C35 -/

/-- C35: the names that the Python function shows are distinct and non-empty. -/
def C35_statement : Prop :=
  ∀ (o : Options) (name : Str) (isMethod isVoid : Bool) (ps : List Param) (g : Fn),
    ((ps.map (·.name)).filter (fun n => n ≠ [])).Nodup → applyAll o (start name isMethod isVoid ps) = .ok g →
    (g.params.map (·.name)).Nodup ∧ ∀ p ∈ g.params, p.name ≠ []

/-- C35 is false of `void f(int param_1, int)` and of `void f(int v[2], int v_0)`. -/
theorem C35_fails : ¬ C35_statement ∧
    ∀ ps ∈ [[par "param_1" tInt, par "" tInt], [par "v" tInt "[2]", par "v_0" tInt]],
      ((ps.map (·.name)).filter (fun n => n ≠ [])).Nodup ∧
      ∃ g, applyAll demo (fn ps) = .ok g ∧ ¬ (g.params.map (·.name)).Nodup := by
  have key : ∀ ps ∈ [[par "param_1" tInt, par "" tInt], [par "v" tInt "[2]", par "v_0" tInt]],
      ((ps.map (·.name)).filter (fun n => n ≠ [])).Nodup ∧
      ∃ g, applyAll demo (fn ps) = .ok g ∧ ¬ (g.params.map (·.name)).Nodup := by
    intro ps hps
    have h1 : ((ps.map (·.name)).filter (fun n => n ≠ [])).Nodup := by
      simp only [List.mem_cons, List.not_mem_nil, or_false] at hps
      rcases hps with rfl | rfl <;> decide +kernel
    refine ⟨h1, ?_⟩
    have hex : (match applyAll demo (fn ps) with
        | .ok g => !decide ((g.params.map (·.name)).Nodup)
        | .error _ => false) = true := by
      simp only [List.mem_cons, List.not_mem_nil, or_false] at hps
      rcases hps with rfl | rfl <;> decide +kernel
    cases hg : applyAll demo (fn ps) with
    | error e => rw [hg] at hex; simp at hex
    | ok g => rw [hg] at hex; exact ⟨g, rfl, by simpa using hex⟩
  refine ⟨?_, key⟩
  intro h
  obtain ⟨h1, g, hg, h2⟩ := key [par "param_1" tInt, par "" tInt] (by simp)
  exact h2 (h demo _ _ _ _ g h1 hg).1

/-- C35 (part): unnamed parameters get names that are distinct from each other and from the given names, provided that
no given name is `param_i` where `i` is the place of an unnamed parameter; named parameters keep their names. -/
theorem C35_unnamed_partial (ps : List Param) (hd : ((ps.map (·.name)).filter (fun n => n ≠ [])).Nodup)
    (hc : ∀ (i : Nat) (p q : Param), ps[i]? = some p → p.name = [] → q ∈ ps → q.name ≠ "param_".toList ++ (toString i).toList) :
    ((nameParams ps).map (·.name)).Nodup ∧ (∀ p ∈ nameParams ps, p.name ≠ []) ∧
    (∀ (i : Nat) (p : Param), ps[i]? = some p → p.name ≠ [] → (nameParams ps)[i]? = some p) ∧
    (nameParams ps).length = ps.length := by
  have hlen : (nameParams ps).length = ps.length := by simp [nameParams]
  refine ⟨?_, ?_, ?_, hlen⟩
  · unfold List.Nodup
    rw [List.pairwise_map, List.pairwise_iff_getElem]
    intro i j hi hj hij heq
    have g1 := List.getElem?_eq_getElem hi
    have g2 := List.getElem?_eq_getElem hj
    rw [nameParams_get] at g1 g2
    have e1 : ps[i]? = some ps[i] := List.getElem?_eq_getElem (hlen ▸ hi)
    have e2 : ps[j]? = some ps[j] := List.getElem?_eq_getElem (hlen ▸ hj)
    rw [e1] at g1
    rw [e2] at g2
    simp only [Option.map_some, Option.some.injEq] at g1 g2
    rw [← g1, ← g2] at heq
    unfold nameParam at heq
    by_cases h1 : ps[i].name = [] <;> by_cases h2 : ps[j].name = []
    · rw [if_pos h1, if_pos h2] at heq
      simp only at heq
      exact absurd (digits_inj (List.append_cancel_left heq)) (by omega)
    · rw [if_pos h1, if_neg h2] at heq
      exact hc i _ _ e1 h1 (List.getElem_mem _) heq.symm
    · rw [if_neg h1, if_pos h2] at heq
      exact hc j _ _ e2 h2 (List.getElem_mem _) heq
    · rw [if_neg h1, if_neg h2] at heq
      have hsub : ∀ (l : List Str), (l.filter (fun n => n ≠ [])).Nodup → ∀ (i j : Nat) (x : Str), i < j → l[i]? = some x →
          l[j]? = some x → x = [] := by
        intro l
        induction l with
        | nil => intro _ i j x _ h; simp at h
        | cons y r ih =>
          intro hn i j x hij h3 h4
          by_contra hx
          cases j with
          | zero => omega
          | succ j =>
            simp only [List.getElem?_cons_succ] at h4
            cases i with
            | zero =>
              simp only [List.getElem?_cons_zero, Option.some.injEq] at h3
              subst h3
              rw [List.filter_cons_of_pos (by simpa using hx)] at hn
              exact (List.nodup_cons.1 hn).1 (List.mem_filter.2 ⟨List.mem_of_getElem? h4, by simpa using hx⟩)
            | succ i =>
              simp only [List.getElem?_cons_succ] at h3
              have hn' : (r.filter (fun n => n ≠ [])).Nodup := by
                by_cases hy : y = []
                · rwa [List.filter_cons_of_neg (by simpa using hy)] at hn
                · rw [List.filter_cons_of_pos (by simpa using hy)] at hn
                  exact (List.nodup_cons.1 hn).2
              exact hx (ih hn' i j x (by omega) h3 h4)
      have hi' : i < (ps.map (·.name)).length := by simpa using hlen ▸ hi
      have hj' : j < (ps.map (·.name)).length := by simpa using hlen ▸ hj
      exact h1 (hsub _ hd i j ps[i].name hij (by simp [e1]) (by simp [e2, heq]))
  · intro p hp
    obtain ⟨i, hi, rfl⟩ := List.mem_iff_getElem.1 hp
    have g1 := List.getElem?_eq_getElem hi
    rw [nameParams_get, List.getElem?_eq_getElem (hlen ▸ hi)] at g1
    simp only [Option.map_some, Option.some.injEq] at g1
    rw [← g1]
    unfold nameParam
    split
    · simp
    · assumption
  · intro i p hp hne
    rw [nameParams_get, hp]
    simp [nameParam, hne]

example : (fn [par "a" tInt, par "" tInt, par "b" tInt, par "" tInt]).params.map (fun p => String.ofList p.name) =
    ["a", "param_1", "b", "param_3"] := by decide +kernel

/-- C35 (part): if the names of the parameters are distinct and non-empty, and if none is the name of an item of one of the
arrays (`v_0` for an array `v`), then the names that the Python function shows are distinct and non-empty; so are those
of the parameters of every lambda. -/
theorem C35_partial (o : Options) (f g : Fn) (hf : Fresh f) (hn : GoodNames f.params) (h : applyAll o f = .ok g) :
    (g.params.map (·.name)).Nodup ∧ (∀ p ∈ g.params, p.name ≠ []) ∧
    ∀ l ∈ g.lambdas, (l.params.map (·.name)).Nodup ∧ ∀ p ∈ l.params, p.name ≠ [] := by
  have key := applyAll_inv (o := o) (fun g => GoodNames g.params ∧ ∀ l ∈ g.lambdas, GoodNames l.params)
    (by
      intro g hg f1 a ⟨h1, h2⟩ ha
      have h3 := shape_names (adapters_shape hg ha) h1
      refine ⟨h3, ?_⟩
      intro l hl
      simp only [applyAdapter, List.mem_append, List.mem_singleton] at hl
      rcases hl with hl | rfl
      · exact h2 l hl
      · exact h3)
    (by
      intro f1 ⟨h1, h2⟩
      have h3 := shape_names (force_shape f1) h1
      refine ⟨h3, ?_⟩
      intro l hl
      simp only [applyAdapter, List.mem_append, List.mem_singleton] at hl
      rcases hl with hl | rfl
      · exact h2 l hl
      · exact h3)
    ⟨hn, by rw [hf.1]; simp⟩ h
  exact ⟨key.1.nodup, key.1.nonempty, fun l hl => ⟨(key.2 l hl).nodup, (key.2 l hl).nonempty⟩⟩

example : GoodNames (fn mixed).params := by
  refine ⟨by decide +kernel, by decide +kernel, ?_⟩
  intro p hp q hq ha i hc
  have h1 : ∀ q ∈ (fn mixed).params, q.arrayCode ≠ [] → q.name = "v".toList ∨ q.name = "items".toList := by decide +kernel
  have h2 : ∀ p ∈ (fn mixed).params, '_' ∉ p.name := by decide +kernel
  exact h2 p hp (by rw [hc]; simp [item])

/-! ### C36 -/

/-- C36: the parameters that the exclusion options match and that have a default value, and only they, are removed; all
others are kept in order; the call receives the default value of the removed parameters and the others unchanged. -/
theorem C36_exclude (o : Options) (f : Fn) (a : Adapter) (h : adaptExclude o f = .ok (some a)) :
    (∃ kept : Param → Bool, (∀ p, kept p = true ↔ ¬ Excluded o p) ∧ a.newParams = f.params.filter kept) ∧
    a.args.length = f.params.length ∧
    (∀ (i : Nat) (p : Param), f.params[i]? = some p →
      (Excluded o p → a.args[i]? = some (.code p.default)) ∧ (¬ Excluded o p → a.args[i]? = some (.var p.name))) ∧
    a.input = [] ∧ a.output = [] ∧ a.ret = .forward ∧ a.newVoid = f.isVoid := by
  rw [exclude_inv h]
  have hargs : ∀ p, (excludePiece o p).args = [if shallExclude o p then .code p.default else .var p.name] := by
    intro p; unfold excludePiece; split <;> simp [keep]
  have hnews : ∀ p, (excludePiece o p).news = if shallExclude o p then [] else [p] := by
    intro p; unfold excludePiece; split <;> simp [keep]
  have hin : ∀ p, (excludePiece o p).input = [] ∧ (excludePiece o p).output = [] := by
    intro p; unfold excludePiece; split <;> simp [keep]
  have e1 : ∀ ps : List Param, (ps.map (excludePiece o)).flatMap (·.args) =
      ps.map (fun p => if shallExclude o p then Arg.code p.default else .var p.name) := by
    intro ps
    induction ps with
    | nil => rfl
    | cons p r ih => simp only [List.map_cons, List.flatMap_cons, hargs, ih]; rfl
  have e2 : ∀ ps : List Param, (ps.map (excludePiece o)).flatMap (·.news) = ps.filter (fun p => !shallExclude o p) := by
    intro ps
    induction ps with
    | nil => rfl
    | cons p r ih =>
      simp only [List.map_cons, List.flatMap_cons, hnews, ih]
      cases hs : shallExclude o p <;> simp [hs]
  refine ⟨⟨fun p => !shallExclude o p, ?_, e2 _⟩, ?_, ?_, ?_, ?_, rfl, rfl⟩
  · intro p
    rw [← shallExclude_iff]
    simp
  · simp [collect, e1]
  · intro i p hp
    rw [← shallExclude_iff]
    simp only [collect, e1, List.getElem?_map, hp, Option.map_some]
    exact ⟨fun hs => by rw [if_pos hs], fun hs => by rw [if_neg hs]⟩
  · simp [collect, hin]
  · simp [collect, hin]

/-- C36: the adapter is used exactly when there is a parameter to exclude. -/
theorem C36_exclude_iff (o : Options) (f : Fn) :
    (∃ a, adaptExclude o f = .ok (some a)) ↔ ∃ p ∈ f.params, Excluded o p := by
  simp only [← shallExclude_iff, ← List.any_eq_true]
  unfold adaptExclude
  by_cases h : f.params.any (shallExclude o) = true
  · rw [if_pos h]; simp [h]
  · rw [if_neg h]; simp [h]

/-- C36: a parameter that is excluded by its name and has a default value is not visible in Python, whatever the other
adapters do. -/
theorem C36_hidden (o : Options) (f g : Fn) (hn : GoodNames f.params) (p : Param) (hp : p ∈ f.params)
    (hx : o.excludeName p.name = true) (hd : HasDefault p) (h : applyAll o f = .ok g) : ∀ q ∈ g.params, q.name ≠ p.name := by
  intro q hq
  refine (applyAll_gone hx ?_ h q hq).1
  intro r hr
  refine ⟨?_, ?_⟩
  · intro hc
    have hnd := hn.nodup
    obtain ⟨i, hi, rfl⟩ := List.mem_iff_getElem.1 hr
    obtain ⟨j, hj, rfl⟩ := List.mem_iff_getElem.1 hp
    have hpw := List.pairwise_iff_getElem.1 hnd
    have : i = j := by
      rcases Nat.lt_trichotomy i j with hij | hij | hij
      · exact absurd (by rw [List.getElem_map, List.getElem_map]; exact hc) (hpw i j (by simpa using hi) (by simpa using hj) hij)
      · exact hij
      · exact absurd (by rw [List.getElem_map, List.getElem_map]; exact hc.symm) (hpw j i (by simpa using hj) (by simpa using hi) hij)
    subst this
    exact hd
  · intro ha i
    exact hn.noItem' p hp r hr ha i

example : ∃ p ∈ (fn mixed).params, Excluded demo p ∧ demo.excludeName p.name = true := by
  refine ⟨par "secret" tInt "" "3", by decide +kernel, ?_, by decide +kernel⟩
  rw [← shallExclude_iff]; decide +kernel

end Verif.Adapt.Props
