import Verif.Fn.PropsCount

/-! Properties of the parameters in the bindings and in the stubs: C64. -/

namespace Verif.Fn.Spec
open Verif.Py

/-- The named parameters of a stub: without the object, `*args` and `**kwargs`. -/
def namedStub (self : Bool) (ps : List Str) : List Str := (if self then ps.drop 1 else ps).filter (fun s => s.head? ≠ some '*')

/-- The C++ value that a default value stands for: `type` is the name of the type, a pointer is null by default. -/
def cppDefault (lib type : Str) (pointer : Bool) (value : Str) : Str :=
  if value = "NULL".toList ∨ value = "nullptr".toList ∨ value = "std::nullopt".toList then lib ++ "::none()".toList
  else if (strip value).head? = some '{' then
    if pointer then lib ++ "::none()".toList else type ++ value
  else value

end Verif.Fn.Spec

namespace Verif.Fn.Props
open Verif.Py Verif.Type Verif.Adapt Verif.Fn
open Verif.Fn.Spec (readArg readStub namedStub)

/-! ### C64: names and default values -/

/-- What the rest of the program must not do: erase a text, invent one, or hide `py::args`. -/
structure Faithful (o : Options) (f : Func) : Prop where
  terseValue : ∀ v, o.terseValue v = [] ↔ v = []
  valuePy : ∀ v, o.valuePy v = [] ↔ v = []
  qualify : ∀ v, o.qualify v = [] ↔ v = []
  args : ∀ t, isArgs (o.terseType t) = isArgs t
  kwargs : ∀ t, isKwargs (o.terseType t) = isKwargs t
  strip : ∀ p ∈ f.aParams, Py.strip (o.terseValue p.default) = [] ↔ p.default = []
  names : ∀ p ∈ f.aParams, '"' ∉ o.varName p.name ∧ '{' ∉ o.varName p.name ∧ ':' ∉ o.varName p.name ∧ '*' ∉ o.varName p.name ∧ o.varName p.name ≠ []
  types : ∀ p ∈ f.aParams, '=' ∉ stubType o f (terse o p)

/-- The named parameters of a function, with their names in Python and the presence of a default value. -/
def named (o : Options) (f : Func) (ps : List Param) : List (Str × Bool) :=
  ((withoutCtorSelf o f ps).filter (fun p => !isArgs p.type && !isKwargs p.type)).map (fun p => (o.varName p.name, decide (p.default ≠ [])))

theorem takeWhile_stop {c : Char} {a b : Str} (h : c ∉ a) : (a ++ c :: b).takeWhile (· ≠ c) = a := by
  induction a with
  | nil => simp
  | cons x xs ih =>
    have hx : x ≠ c := fun e => h (by simp [e])
    simp only [List.cons_append, List.takeWhile_cons, hx, ne_eq, not_false_eq_true, decide_true, if_true]
    rw [show List.takeWhile (fun x => decide (¬ x = c)) (xs ++ c :: b) = xs from ih (fun hm => h (by simp [hm]))]

theorem dropWhile_stop {c : Char} {a b : Str} (h : c ∉ a) : (a ++ c :: b).dropWhile (· ≠ c) = c :: b := by
  induction a with
  | nil => simp
  | cons x xs ih =>
    have hx : x ≠ c := fun e => h (by simp [e])
    simp only [List.cons_append, List.dropWhile_cons, hx, ne_eq, not_false_eq_true, decide_true, if_true]
    exact ih (fun hm => h (by simp [hm]))

theorem readArg_text (l name dn d : Str) (hl : '"' ∉ l) (hn : '"' ∉ name) (hd : '=' ∉ dn) :
    readArg (l ++ "::arg(\"".toList ++ name ++ "\")".toList ++ dn ++ (if d = [] then [] else " = ".toList ++ d)) = (name, decide (d ≠ [])) := by
  have e : ∀ r : Str, l ++ "::arg(\"".toList ++ name ++ "\")".toList ++ dn ++ r =
      (l ++ [':', ':', 'a', 'r', 'g', '(']) ++ '"' :: (name ++ '"' :: (')' :: (dn ++ r))) := by
    intro r; simp
  rw [e]
  unfold readArg
  rw [dropWhile_stop (by simp [hl])]
  simp only [List.drop_succ_cons, List.drop_zero]
  rw [takeWhile_stop hn, dropWhile_stop hn]
  congr 1
  by_cases h : d = []
  · simp [h, hd]
  · simp [h]

theorem readStub_text (name type d : Str) (hn : ':' ∉ name) (ht : '=' ∉ type) :
    readStub (name ++ ": ".toList ++ type ++ (if d = [] then [] else " = ".toList ++ d)) = (name, decide (d ≠ [])) := by
  have e : ∀ r : Str, name ++ ": ".toList ++ type ++ r = name ++ ':' :: (' ' :: (type ++ r)) := by intro r; simp
  rw [e]
  unfold readStub
  rw [takeWhile_stop hn, dropWhile_stop hn]
  congr 1
  by_cases h : d = []
  · simp [h, ht]
  · simp [h]

theorem scopedParam_name (c : Option Cls) (p : Param) : (scopedParam c p).name = p.name := by
  unfold scopedParam
  split
  · rfl
  · split <;> rfl

theorem join_ne_nil_of_two (sep a b : Str) (r : List Str) (hs : sep ≠ []) : join sep (a :: b :: r) ≠ [] := by
  rw [join_cons_cons]
  simp [hs]

theorem scopedParam_default (c : Option Cls) (p : Param) : (scopedParam c p).default = [] ↔ p.default = [] := by
  unfold scopedParam
  split
  · rfl
  · rename_i c
    split
    · rfl
    · rename_i v hv
      unfold scopedValue at hv
      constructor
      · intro h
        exfalso
        simp only at h
        split at hv
        · split at hv
          · rw [← Option.some.inj hv] at h
            exact join_ne_nil_of_two _ _ _ _ (by decide) h
          · cases hv
        · cases hv
      · intro h
        rw [h] at hv
        cases hv

theorem lib_noQuote (o : Options) : '"' ∉ lib o := by
  unfold lib; cases o.nanobind <;> decide +kernel

theorem pyargDefault_nil (o : Options) (p : Param) (v : Str) (h : pyargDefault o p = some v) : v = [] ↔ p.default = [] := by
  have hlib : ∀ l : Str, l ++ "::none()".toList ≠ [] := by intro l; simp
  have hnone : lib o ++ "::none()".toList ≠ [] := hlib _
  have hnull : p.default = [] → ¬ (p.default = null1 ∨ p.default = null2 ∨ p.default = nullopt) := by
    intro e; rw [e]; decide
  unfold pyargDefault at h
  dsimp only at h
  rw [Option.map_eq_some_iff] at h
  obtain ⟨w, hw, rfl⟩ := h
  by_cases hb : startsWith (strip p.default) ['{'] = true
  · rw [if_pos hb] at hw
    rw [Option.map_eq_some_iff] at hw
    obtain ⟨t, _, rfl⟩ := hw
    have hd : p.default ≠ [] := by
      intro e
      rw [e] at hb
      revert hb
      decide
    constructor
    · intro e
      split at e
      · exact absurd e hnone
      · exact absurd (List.append_eq_nil_iff.1 e).2 hd
    · intro e; exact absurd e hd
  · rw [if_neg hb] at hw
    rw [← Option.some.inj hw]
    constructor
    · intro e
      split at e
      · exact absurd e hnone
      · exact e
    · intro e
      rw [if_neg (hnull e)]
      exact e

theorem readArg_pyarg (o : Options) (f : Func) (h : Faithful o f) (p : Param) (hp : p ∈ f.aParams) (a : Str)
    (ha : pyarg o (scopedParam f.cls p) = some a) : readArg a = (o.varName p.name, decide (p.default ≠ [])) := by
  obtain ⟨n1, n2, n3, _⟩ := h.names p hp
  have hv : ∃ v, pyargDefault o (scopedParam f.cls p) = some v := by
    unfold pyarg at ha
    cases e : pyargDefault o (scopedParam f.cls p) with
    | none => rw [e] at ha; cases ha
    | some v => exact ⟨v, rfl⟩
  obtain ⟨v, hv⟩ := hv
  have ht := pyarg_text o (scopedParam f.cls p) v hv (by rw [scopedParam_name]; exact n2)
  rw [ht] at ha
  rw [← Option.some.inj ha, scopedParam_name, readArg_text _ _ _ _ (lib_noQuote o) n1]
  · congr 1
    rw [decide_eq_decide]
    exact not_congr ((pyargDefault_nil o _ v hv).trans (scopedParam_default _ _))
  · split <;> decide +kernel

theorem stubDefault_nil (o : Options) (f : Func) (h : Faithful o f) (p : Param) (hp : p ∈ f.aParams) (d : Str)
    (hd : stubDefault o f (terse o p) = some d) : d = [] ↔ p.default = [] := by
  have hpy : ∀ w, (if isMethod f then o.qualify (o.valuePy w) else o.valuePy w) = [] ↔ w = [] := by
    intro w
    split
    · exact (h.qualify _).trans (h.valuePy w)
    · exact h.valuePy w
  unfold stubDefault at hd
  dsimp only [terse] at hd
  rw [Option.map_eq_some_iff] at hd
  obtain ⟨w, hw, rfl⟩ := hd
  rw [hpy]
  split at hw
  · rename_i hb
    rw [Option.map_eq_some_iff] at hw
    obtain ⟨t, _, rfl⟩ := hw
    have : p.default ≠ [] := by
      intro e
      rw [(h.strip p hp).2 e] at hb
      revert hb
      decide
    constructor
    · intro e; simp at e
    · intro e; exact absurd e this
  · rw [← Option.some.inj hw]
    exact h.strip p hp

theorem stubParam_cases (o : Options) (f : Func) (h : Faithful o f) (p : Param) (hp : p ∈ f.aParams) (s : Str)
    (hs : stubParam o f (terse o p) = some s) :
    if (!isArgs p.type && !isKwargs p.type) = true then s.head? ≠ some '*' ∧ readStub s = (o.varName p.name, decide (p.default ≠ []))
    else s.head? = some '*' := by
  unfold stubParam at hs
  have e1 : isArgs (terse o p).type = isArgs p.type := h.args _
  have e2 : isKwargs (terse o p).type = isKwargs p.type := h.kwargs _
  rw [e1, e2] at hs
  cases ha : isArgs p.type
  · rw [ha, if_neg Bool.false_ne_true] at hs
    cases hk : isKwargs p.type
    · rw [hk, if_neg Bool.false_ne_true] at hs
      rw [if_pos (by decide)]
      rw [Option.map_eq_some_iff] at hs
      obtain ⟨d, hd, rfl⟩ := hs
      obtain ⟨n1, n2, n3, n4, n5⟩ := h.names p hp
      constructor
      · show (o.varName p.name ++ ": ".toList ++ _ ++ _).head? ≠ some '*'
        cases hn : o.varName p.name with
        | nil => exact absurd hn n5
        | cons c cs =>
          intro e
          rw [List.cons_append, List.cons_append, List.cons_append, List.head?_cons] at e
          exact n4 (by rw [hn, Option.some.inj e]; simp)
      · have := readStub_text (o.varName p.name) (stubType o f (terse o p)) d n3 (h.types p hp)
        refine Eq.trans this ?_
        congr 1
        rw [decide_eq_decide]
        exact not_congr (stubDefault_nil o f h p hp d hd)
    · rw [hk, if_pos rfl] at hs
      rw [if_neg (by decide), ← Option.some.inj hs]
      decide +kernel
  · rw [ha, if_pos rfl] at hs
    rw [if_neg (by simp), ← Option.some.inj hs]
    decide +kernel

/-- Reading the items of a list that is all there. -/
theorem allSome_map {α β γ : Type} (l : List α) (g : α → Option β) (r : List β) (h : allSome (l.map g) = some r) (k : β → γ) (k' : α → γ)
    (hk : ∀ a ∈ l, ∀ b, g a = some b → k b = k' a) : r.map k = l.map k' := by
  induction l generalizing r with
  | nil => cases h; rfl
  | cons a l ih =>
    rw [List.map_cons] at h
    cases hg : g a with
    | none => rw [hg] at h; cases h
    | some b =>
      rw [hg] at h
      simp only [allSome, Option.map_eq_some_iff] at h
      obtain ⟨r', h1, rfl⟩ := h
      rw [List.map_cons, List.map_cons, ih r' h1 (fun a ha => hk a (by simp [ha])), hk a (by simp) b hg]

theorem allSome_filter {α β γ : Type} (l : List α) (g : α → Option β) (r : List β) (h : allSome (l.map g) = some r) (k : β → γ) (k' : α → γ)
    (q : α → Bool) (q' : β → Bool) (hk : ∀ a ∈ l, ∀ b, g a = some b → if q a = true then q' b = true ∧ k b = k' a else q' b = false) :
    (r.filter q').map k = (l.filter q).map k' := by
  induction l generalizing r with
  | nil => cases h; rfl
  | cons a l ih =>
    rw [List.map_cons] at h
    cases hg : g a with
    | none => rw [hg] at h; cases h
    | some b =>
      rw [hg] at h
      simp only [allSome, Option.map_eq_some_iff] at h
      obtain ⟨r', h1, rfl⟩ := h
      have hk' := hk a (by simp) b hg
      have ih' := ih r' h1 (fun a ha => hk a (by simp [ha]))
      cases hq : q a
      · rw [hq, if_neg Bool.false_ne_true] at hk'
        rw [List.filter_cons_of_neg (by rw [hk']; simp), List.filter_cons_of_neg (by rw [hq]; simp), ih']
      · rw [hq, if_pos rfl] at hk'
        rw [List.filter_cons_of_pos hk'.1, List.filter_cons_of_pos hq, List.map_cons, List.map_cons, ih', hk'.2]

theorem withoutCtorSelf_sub (o : Options) (f : Func) (ps : List Param) : ∀ p ∈ withoutCtorSelf o f ps, p ∈ ps := by
  unfold withoutCtorSelf
  intro p hp
  cases ps with
  | nil => exact hp
  | cons a r =>
    simp only at hp
    split at hp
    · exact List.mem_cons_of_mem _ hp
    · exact hp

theorem withoutCtorSelf_terse (o : Options) (f : Func) (ps : List Param) :
    withoutCtorSelf o f (ps.map (terse o)) = (withoutCtorSelf o f ps).map (terse o) := by
  unfold withoutCtorSelf
  cases ps with
  | nil => rfl
  | cons a r =>
    simp only [List.map_cons]
    have : (terse o a).name = a.name := rfl
    rw [this]
    split <;> simp

/-- The `py::arg` of a binding and the parameters of the stub are the named parameters of the adapted function: the same names in the same
order, with a default value on both sides or on none. -/
theorem C64_names (o : Options) (f : Func) (args ps : List Str) (h : Faithful o f) (ha : pyargList o f = some args)
    (hs : stubParams o f = some ps) :
    args.map readArg = named o f f.aParams ∧
    (namedStub (isMethod f && !staticRet f.aRet) ps).map readStub = named o f f.aParams := by
  constructor
  · unfold pyargList at ha
    have e : ((withoutCtorSelf o f f.aParams).map (scopedParam f.cls)).filter (fun p => !isArgs p.type && !isKwargs p.type) =
        ((withoutCtorSelf o f f.aParams).filter (fun p => !isArgs p.type && !isKwargs p.type)).map (scopedParam f.cls) := by
      rw [List.filter_map]
      congr 1
      apply List.filter_congr
      intro p _
      simp only [Function.comp, scopedParam_type]
    rw [e, List.map_map] at ha
    exact allSome_map _ _ _ ha readArg _ (fun p hp b hb =>
      readArg_pyarg o f h p (withoutCtorSelf_sub o f _ p (List.mem_filter.1 hp).1) b hb)
  · unfold stubParams at hs
    rw [Option.map_eq_some_iff] at hs
    obtain ⟨r, hr, rfl⟩ := hs
    have e : namedStub (isMethod f && !staticRet f.aRet) (if (isMethod f && !staticRet f.aRet) = true then self_ :: r else r) =
        r.filter (fun s => s.head? ≠ some '*') := by
      unfold namedStub
      cases isMethod f && !staticRet f.aRet <;> rfl
    rw [e]
    rw [withoutCtorSelf_terse, List.map_map] at hr
    refine allSome_filter _ _ r hr readStub _ (fun p => !isArgs p.type && !isKwargs p.type) (fun s => s.head? ≠ some '*') ?_
    intro p hp b hb
    have := stubParam_cases o f h p (withoutCtorSelf_sub o f _ p hp) b hb
    split at this
    · rw [if_pos ‹_›]
      exact ⟨by simpa using this.1, this.2⟩
    · rw [if_neg ‹_›]
      simpa using this

theorem demoM_faithful : Faithful demoO demoM where
  terseValue := fun _ => Iff.rfl
  valuePy := fun _ => Iff.rfl
  qualify := fun _ => Iff.rfl
  args := fun _ => rfl
  kwargs := fun _ => rfl
  strip := by decide +kernel
  names := by decide +kernel
  types := by decide +kernel

example : Faithful demoO demoM ∧ stubParams demoO demoM = some ["self".toList, "a: int".toList, "b: int = 2".toList] ∧
    named demoO demoM demoM.aParams = [("a".toList, false), ("b".toList, true)] :=
  ⟨demoM_faithful, by decide +kernel, by decide +kernel⟩

/-! ### C64: the value of the default -/

/-- Full statement: the value after `py::arg` is the C++ default value of the parameter. -/
def C64_default_statement : Prop :=
  ∀ (o : Options) (p : Param), p.type.typenames ≠ [] →
    pyargDefault o p = some (Verif.Fn.Spec.cppDefault (lib o) (join " ".toList p.type.typenames) (decide (star ∈ p.type.modifiers)) p.default)

/-- `Foo * p = {}`: a new object instead of the null pointer. `unsigned char c = {3}`: an `unsigned` instead of a character. -/
theorem C64_default_fails : ¬ C64_default_statement ∧
    pyargDefault demoO { name := "p".toList, type := { specifiers := [], typenames := ["Foo".toList], modifiers := [star] }, arrayCode := [],
                         default := "{}".toList } = some "Foo{}".toList ∧
    pyargDefault demoO { name := "c".toList, type := { specifiers := [], typenames := ["unsigned".toList, "char".toList], modifiers := [] },
                         arrayCode := [], default := "{3}".toList } = some "unsigned{3}".toList := by
  refine ⟨fun h => ?_, by decide +kernel, by decide +kernel⟩
  have := h demoO { name := "p".toList, type := { specifiers := [], typenames := ["Foo".toList], modifiers := [star] }, arrayCode := [],
                    default := "{}".toList } (by decide)
  revert this
  decide +kernel

theorem mem_of_strip_head {s : Str} {c : Char} (h : (strip s).head? = some c) : c ∈ s := by
  have h1 : c ∈ strip s := List.mem_of_head? h
  unfold strip at h1
  obtain ⟨w, e, _⟩ := lstrip_decomp s
  obtain ⟨w', e', _⟩ := rstrip_decomp (lstrip s)
  rw [e, e']
  exact List.mem_append_right _ (List.mem_append_left _ h1)

/-- The value is right unless it is in braces with a pointer or a type of several words. -/
theorem C64_default_partial (o : Options) (p : Param)
    (h : (strip p.default).head? = some '{' → star ∉ p.type.modifiers ∧ ∃ t, p.type.typenames = [t]) :
    pyargDefault o p = some (Verif.Fn.Spec.cppDefault (lib o) (join " ".toList p.type.typenames) (decide (star ∈ p.type.modifiers)) p.default) := by
  have hb : startsWith (strip p.default) ['{'] = true ↔ (strip p.default).head? = some '{' := by
    unfold startsWith
    generalize strip p.default = q
    cases q with
    | nil => simp
    | cons c cs =>
      rw [List.isPrefixOf, List.isPrefixOf_nil_left, Bool.and_true, beq_iff_eq, List.head?_cons, Option.some_inj]
      exact eq_comm
  have hnull : ∀ v : Str, '{' ∈ v → ¬ (v = null1 ∨ v = null2 ∨ v = nullopt) := by
    rintro v hv (rfl | rfl | rfl) <;> revert hv <;> decide
  unfold pyargDefault Verif.Fn.Spec.cppDefault
  dsimp only
  by_cases hh : (strip p.default).head? = some '{'
  · obtain ⟨h1, t, ht⟩ := h hh
    have hm := mem_of_strip_head hh
    have hn := hnull p.default hm
    have hn' := hnull (t ++ p.default) (by simp [hm])
    rw [if_pos (hb.2 hh), ht, List.head?_cons, Option.map_some, Option.map_some, if_neg hn']
    refine congrArg some ?_
    have e : ¬ (p.default = "NULL".toList ∨ p.default = "nullptr".toList ∨ p.default = "std::nullopt".toList) := hn
    rw [if_neg e, if_pos hh, if_neg (by simpa using h1), join_single]
  · rw [if_neg (fun e => hh (hb.1 e)), Option.map_some]
    refine congrArg some ?_
    by_cases hn : p.default = null1 ∨ p.default = null2 ∨ p.default = nullopt
    · have e : p.default = "NULL".toList ∨ p.default = "nullptr".toList ∨ p.default = "std::nullopt".toList := hn
      rw [if_pos hn, if_pos e]
    · have e : ¬ (p.default = "NULL".toList ∨ p.default = "nullptr".toList ∨ p.default = "std::nullopt".toList) := hn
      rw [if_neg hn, if_neg e, if_neg hh]

/-- `std::vector<int> v = {1, 2}` -/
example : (strip "{1, 2}".toList).head? = some '{' ∧
    pyargDefault demoO { name := "v".toList, type := { specifiers := [], typenames := ["std::vector<int>".toList], modifiers := [] }, arrayCode := [],
                         default := "{1, 2}".toList } = some "std::vector<int>{1, 2}".toList := by decide +kernel

/-! ### C64: null default values -/

/-- Full statement: in a stub, a parameter that is `None` by default has an optional type. -/
def C64_optional_statement : Prop :=
  ∀ (o : Options) (f : Func) (p : Param), stubDefault o f p = some "None".toList → startsWith (stubType o f p) "Optional[".toList = true

/-- Options in which `nullptr` is `None` in Python. -/
def noneO : Options := { demoO with valuePy := fun v => if v = null2 then "None".toList else v }

/-- `std::shared_ptr<Foo> p = nullptr` is shown as `p: std::shared_ptr<Foo> = None` (here with types that are not translated). -/
theorem C64_optional_fails : ¬ C64_optional_statement := by
  intro h
  have := h noneO demoF { name := "p".toList, type := { specifiers := [], typenames := ["std::shared_ptr<Foo>".toList], modifiers := [] },
                          arrayCode := [], default := null2 } (by decide +kernel)
  revert this
  decide +kernel

/-- A pointer that is null by default has an optional type. Missing: other types that may be null, vectorized functions, comparison
operators. -/
theorem C64_optional_partial (o : Options) (f : Func) (p : Param) (hs : star ∈ p.type.modifiers) (hd : p.default = null1 ∨ p.default = null2)
    (hm : isMethod f = false) (hv : f.vectorizeImpl = false) (ho : isOperator f.name = false) :
    stubType o f p = "Optional[".toList ++ o.typePy (o.paramType (print p.type)) ++ "]".toList := by
  have hc : f.cls = none := by
    unfold isMethod at hm
    cases h : f.cls with
    | none => rfl
    | some c => rw [h] at hm; cases hm
  unfold stubType withHierarchy
  dsimp only
  rw [if_neg (by rw [hm]; exact Bool.false_ne_true), if_neg (by rw [hv]; exact Bool.false_ne_true), if_neg (by rw [ho]; simp), hc]
  dsimp only
  rw [if_pos ⟨hs, hd⟩]

example : stubType noneO demoF { name := "p".toList, type := { specifiers := [], typenames := ["Foo".toList], modifiers := [star] },
                                 arrayCode := [], default := null2 } = "Optional[Foo *]".toList := by decide +kernel

end Verif.Fn.Props
