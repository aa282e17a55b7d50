import Verif.Pimpl.Texts

/-! C99: the glue code of a published class. -/

namespace Verif.Pimpl.Props
open Verif.Py Verif.Pimpl Verif.Print

/-- No placeholder of a template begins in the words of the type, the name, the parameters. -/
structure PlainFn (f : Fn) : Prop where
  name : Plain f.name
  params : ∀ p ∈ f.params, Plain p.code ∧ Plain p.name
  ret : ∀ t, f.ret = some t → ∀ w ∈ t.specifiers ++ t.typenames ++ t.modifiers, Plain w

theorem plain_words {sep : Str} (hs : Plain sep) {ws : List Str} (h : ∀ w ∈ ws, Plain w) : Plain (Type.joinRemoveEmpty sep ws) :=
  plain_join hs (fun w hw => h w (List.mem_filter.1 hw).1)

theorem plain_blank : Plain Type.blank := plain_of_no_open (by decide)

theorem mem_printed {l : List Str} {w : Str} (h : w ∈ Type.printedSpecifiers l) : w ∈ l := by
  unfold Type.printedSpecifiers at h
  split at h
  · simpa using List.mem_of_mem_erase (List.mem_reverse.1 h)
  · exact h

theorem plain_type {t : Type.CppType} (h : ∀ w ∈ t.specifiers ++ t.typenames ++ t.modifiers, Plain w) : Plain (Spec.typeText t) := by
  unfold Spec.typeText Type.strCode
  split
  · exact plain_of_no_open (by simp)
  · refine plain_append (plain_words plain_blank ?_) ?_
    · simp only [List.forall_mem_cons]
      refine ⟨plain_words plain_blank (fun w hw => h w ?_), plain_join plain_blank (fun w hw => h w ?_), plain_words plain_blank (fun w hw => h w ?_),
        fun _ h => (by cases h)⟩
      · simp [mem_printed hw]
      · simp [hw]
      · simp [hw]
    · unfold Type.finalConst
      split <;> exact plain_of_no_open (by decide +kernel)

theorem plain_params {ps : List Decl} (h : ∀ p ∈ ps, Plain p.code ∧ Plain p.name) : Plain (paramsCode ps) ∧ Plain (namesOnly ps) := by
  have hc : Plain ", ".toList := plain_of_no_open (by decide +kernel)
  constructor
  · refine plain_join hc (fun l hl => ?_)
    obtain ⟨p, hp, rfl⟩ := List.mem_map.1 hl
    exact (h p hp).1
  · refine plain_join hc (fun l hl => ?_)
    obtain ⟨p, hp, rfl⟩ := List.mem_map.1 hl
    exact (h p hp).2

/-- The names of the parameters, for the call. -/
def args (f : Fn) : Str := join ", ".toList (f.params.map (·.name))

/-- The return type in the definition: each of `static`, `inline` and `constexpr` is removed once. -/
def definitionType (t : Type.CppType) : Type.CppType :=
  { t with specifiers := ((t.specifiers.erase "static".toList).erase "inline".toList).erase "constexpr".toList }

theorem glue_ret (f : Fn) : (removeIncompatible (if isStatic f then removeSpecifier "static".toList f else f)) = { f with ret := f.ret.map definitionType } := by
  obtain ⟨k, tm, ret, n, ps, sp, ne, pv⟩ := f
  cases ret with
  | none => rfl
  | some t =>
    by_cases hs : t.specifiers.contains "static".toList = true
    · have h1 : isStatic ⟨k, tm, some t, n, ps, sp, ne, pv⟩ = true := hs
      rw [h1, if_pos rfl]
      rfl
    · have h1 : isStatic ⟨k, tm, some t, n, ps, sp, ne, pv⟩ = false := Bool.not_eq_true _ ▸ hs
      rw [h1, if_neg (by decide)]
      have h2 : t.specifiers.erase "static".toList = t.specifiers := List.erase_of_not_mem (fun hm => hs (List.contains_iff_mem.2 hm))
      show Fn.mk k tm (some { t with specifiers := _ }) n ps sp ne pv = Fn.mk k tm (some (definitionType t)) n ps sp ne pv
      unfold definitionType
      rw [h2]

/-- C99: the text of the definition of a method, exactly. -/
theorem C99_definition_exact (o : Options) (pub impl : Str) (f : Fn) (hf : PlainFn f) (hi : Plain o.indentStr) (hm : Plain o.member) (hpub : Plain pub)
    (himpl : Plain impl) :
    methodImpl o pub impl f = Spec.definition o.indentStr pub (if isStatic f then impl ++ "::".toList else o.member ++ "->".toList)
      (Spec.returnType (f.ret.map definitionType)) f.name (paramsCode f.params) (Spec.isConst f) (Spec.returns (f.ret.map definitionType)) (args f) := by
  have hps := plain_params hf.params
  have hret : Plain (retText { f with ret := f.ret.map definitionType }) := by
    unfold retText
    cases h : f.ret with
    | none => exact plain_of_no_open (v := []) (by decide)
    | some t =>
      refine plain_type (t := definitionType t) (fun w hw => hf.ret t h w ?_)
      rw [List.mem_append, List.mem_append] at hw ⊢
      rcases hw with (hw | hw) | hw
      · exact .inl (.inl (List.mem_of_mem_erase (List.mem_of_mem_erase (List.mem_of_mem_erase hw))))
      · exact .inl (.inr hw)
      · exact .inr hw
  have hmr : maybeReturn { f with ret := f.ret.map definitionType } = if Spec.returns (f.ret.map definitionType) then "return ".toList else [] := by
    unfold maybeReturn
    cases f.ret with
    | none => rfl
    | some t =>
      show (if _ then _ else _) = if (!decide _) = true then _ else _
      by_cases hc : (definitionType t).typenames = ["void".toList] ∧ (definitionType t).specifiers = [] ∧ (definitionType t).modifiers = []
      · rw [if_pos hc, if_neg (by rw [decide_eq_true hc]; decide)]
      · rw [if_neg hc, if_pos (by rw [decide_eq_false hc]; rfl)]
  have hmp : Plain (maybeReturn { f with ret := f.ret.map definitionType }) := by
    rw [hmr]
    split <;> exact plain_of_no_open (by decide +kernel)
  unfold methodImpl
  simp only
  rw [glue_ret]
  refine (method_fill (isStatic f) o.indentStr pub impl o.member _ f.name (paramsCode f.params) _ (namesOnly f.params) (Spec.isConst f)
    hi hpub himpl hm hret hf.name hps.1 hmp hps.2).trans ?_
  rw [hmr]
  have hre : retText { f with ret := f.ret.map definitionType } = Spec.returnType (f.ret.map definitionType) := by
    unfold retText
    cases f.ret <;> rfl
  rw [hre]
  unfold Spec.definition args namesOnly
  cases isStatic f
  · simp only [Bool.false_eq_true, if_false, List.append_assoc]
  · simp only [if_true, List.append_assoc]

/-- A method for the examples: `static inline int add(int a, int b)`. -/
def addFn : Fn :=
  { kind := .decl, template := none, ret := some ⟨["static".toList, "inline".toList], ["int".toList], []⟩, name := "add".toList,
    params := [⟨some "int".toList, "a".toList, [], [], []⟩, ⟨some "int".toList, "b".toList, [], [], []⟩], specifiers := [], noexcept := none,
    pureVirtual := false }

theorem addFn_plain : PlainFn addFn :=
  ⟨by decide +kernel, by decide +kernel, by
    intro t ht
    rw [← Option.some.inj ht]
    decide +kernel⟩

example : methodImpl defaultOptions "Person".toList "PersonPImpl".toList addFn =
    "int Person::add(int a, int b) {\n    return PersonPImpl::add(a, b); }".toList := by decide +kernel

/-- The full statement: the definition is the one of the method, out of the class: its return type without the specifiers that are written in the class only,
its parameters without their default values, and a call that returns the result of the implementation. -/
def C99_definition_statement : Prop := ∀ (o : Options) (pub impl : Str) (f : Fn), PlainFn f → Plain o.indentStr → Plain o.member → Plain pub → Plain impl →
  methodImpl o pub impl f = Spec.definition o.indentStr pub (if isStatic f then impl ++ "::".toList else o.member ++ "->".toList)
    (Spec.returnType (f.ret.map Spec.outOfClass)) f.name (paramsCode (f.params.map Spec.withoutDefault)) (Spec.isConst f)
    (Spec.returns (f.ret.map Spec.outOfClass)) (args f)

/-- `void wait(int ms = 10)`: the default value is repeated in the definition, which C++ refuses. -/
def waitFn : Fn :=
  { kind := .decl, template := none, ret := some ⟨[], ["void".toList], []⟩, name := "wait".toList,
    params := [⟨some "int".toList, "ms".toList, [], "10".toList, []⟩], specifiers := [], noexcept := none, pureVirtual := false }

theorem C99_definition_fails : ¬ C99_definition_statement := by
  intro h
  have := h defaultOptions "Person".toList "PersonPImpl".toList waitFn ⟨by decide +kernel, by decide +kernel, by
    intro t ht
    rw [← Option.some.inj ht]
    decide +kernel⟩ (by decide +kernel) (by decide +kernel) (by decide +kernel) (by decide +kernel)
  exact absurd this (by decide +kernel)

example : methodImpl defaultOptions "Person".toList "PersonPImpl".toList waitFn =
    "void Person::wait(int ms = 10) {\n    mPImpl->wait(ms); }".toList := by decide +kernel

/-- Another failure: `virtual` is kept, and with it the result of a `void` method is returned. -/
theorem C99_virtual_fails : ∃ f : Fn, f.params = [] ∧ methodImpl defaultOptions "Person".toList "PersonPImpl".toList f =
    "virtual void Person::update() {\n    return mPImpl->update(); }".toList :=
  ⟨{ kind := .decl, template := none, ret := some ⟨["virtual".toList], ["void".toList], []⟩, name := "update".toList, params := [], specifiers := [],
     noexcept := none, pureVirtual := false }, rfl, by decide +kernel⟩

theorem erase_filter {l : List Str} {s : Str} (h : l.count s ≤ 1) : l.erase s = l.filter (fun x => !(x == s)) := by
  induction l with
  | nil => rfl
  | cons x l ih =>
    by_cases hx : x = s
    · subst hx
      rw [List.erase_cons_head, List.filter_cons_of_neg (by simp)]
      have : x ∉ l := by
        rw [List.count_cons_self] at h
        exact List.count_eq_zero.1 (by omega)
      exact (List.filter_eq_self.2 (fun y hy => by
        have : y ≠ x := fun e => this (e ▸ hy)
        simpa using this)).symm
    · rw [List.erase_cons_tail (by simpa using hx), List.filter_cons_of_pos (by simpa using hx), ih (by rwa [List.count_cons_of_ne hx] at h)]

theorem definitionType_eq {t : Type.CppType} (h1 : ∀ s ∈ ["static", "inline", "constexpr"].map String.toList, t.specifiers.count s ≤ 1)
    (h2 : ∀ s ∈ ["virtual", "explicit", "friend"].map String.toList, s ∉ t.specifiers) : definitionType t = Spec.outOfClass t := by
  unfold definitionType Spec.outOfClass
  have e1 := erase_filter (h1 "static".toList (by simp))
  have e2 : (t.specifiers.erase "static".toList).count "inline".toList ≤ 1 :=
    Nat.le_trans (List.Sublist.count_le _ List.erase_sublist) (h1 "inline".toList (by simp))
  have e3 : ((t.specifiers.erase "static".toList).erase "inline".toList).count "constexpr".toList ≤ 1 :=
    Nat.le_trans (List.Sublist.count_le _ (List.erase_sublist.trans List.erase_sublist)) (h1 "constexpr".toList (by simp))
  rw [erase_filter e3, erase_filter e2, e1, List.filter_filter, List.filter_filter]
  congr 1
  refine List.filter_congr (fun x hx => ?_)
  have hv : ∀ s ∈ ["virtual", "explicit", "friend"].map String.toList, (x == s) = false := by
    intro s hs
    have : x ≠ s := fun e => h2 s hs (e ▸ hx)
    simpa using this
  have hv1 := hv "virtual".toList (by simp)
  have hv2 := hv "explicit".toList (by simp)
  have hv3 := hv "friend".toList (by simp)
  show _ = !([("static".toList : Str), "inline".toList, "constexpr".toList, "virtual".toList, "explicit".toList, "friend".toList].contains x)
  simp only [List.contains_cons, List.contains_nil, hv1, hv2, hv3, Bool.or_false, Bool.not_or]
  rw [Bool.and_comm, Bool.and_comm (!x == "constexpr".toList)]

/-- It holds for parameters without default values, and without `virtual`, `explicit`, `friend`. -/
theorem C99_definition_partial (o : Options) (pub impl : Str) (f : Fn) (hf : PlainFn f) (hi : Plain o.indentStr) (hm : Plain o.member) (hpub : Plain pub)
    (himpl : Plain impl) (hd : ∀ p ∈ f.params, p.init = [])
    (h1 : ∀ t, f.ret = some t → ∀ s ∈ ["static", "inline", "constexpr"].map String.toList, t.specifiers.count s ≤ 1)
    (h2 : ∀ t, f.ret = some t → ∀ s ∈ ["virtual", "explicit", "friend"].map String.toList, s ∉ t.specifiers) :
    methodImpl o pub impl f = Spec.definition o.indentStr pub (if isStatic f then impl ++ "::".toList else o.member ++ "->".toList)
      (Spec.returnType (f.ret.map Spec.outOfClass)) f.name (paramsCode (f.params.map Spec.withoutDefault)) (Spec.isConst f)
      (Spec.returns (f.ret.map Spec.outOfClass)) (args f) := by
  have e1 : f.ret.map definitionType = f.ret.map Spec.outOfClass := by
    cases h : f.ret with
    | none => rfl
    | some t => exact congrArg some (definitionType_eq (h1 t h) (h2 t h))
  have e2 : f.params.map Spec.withoutDefault = f.params := by
    refine (List.map_congr_left (fun p hp => ?_)).trans (List.map_id _)
    show { p with init := [] } = p
    rw [← hd p hp]
  rw [C99_definition_exact o pub impl f hf hi hm hpub himpl, e1, e2]

example : PlainFn addFn ∧ (∀ p ∈ addFn.params, p.init = []) := ⟨addFn_plain, by decide⟩

/-- C99: the text of the definition of a constructor, exactly: it makes the implementation with its parameters. -/
theorem C99_constructor_exact (o : Options) (pub impl : Str) (f : Fn) (hf : PlainFn f) (hi : Plain o.indentStr) (hm : Plain o.member) (hpub : Plain pub)
    (himpl : Plain impl) :
    ctorImpl o pub impl f = Spec.ctorDefinition o.indentStr pub impl o.member (paramsCode f.params) (args f) :=
  ctor_fill o.indentStr _ pub impl o.member _ hi (plain_params hf.params).1 hpub himpl hm (plain_params hf.params).2

/-- `Person(int age)` -/
def ctorFn : Fn :=
  { kind := .ctorDecl, template := none, ret := none, name := "PersonPImpl".toList, params := [⟨some "int".toList, "age".toList, [], [], []⟩],
    specifiers := [], noexcept := none, pureVirtual := false }

theorem ctorFn_plain : PlainFn ctorFn := ⟨by decide +kernel, by decide +kernel, fun _ h => (by cases h)⟩

example : ctorImpl defaultOptions "Person".toList "PersonPImpl".toList ctorFn =
    "Person::Person(int age)\n    : mPImpl(std::make_unique<PersonPImpl>(age)) { }".toList := by decide +kernel

/-- The definition of a function: of a constructor or of a method. -/
def definitionOf (o : Options) (pub impl : Str) (f : Fn) : Str :=
  match f.kind with
  | .decl | .defn => Spec.definition o.indentStr pub (if isStatic f then impl ++ "::".toList else o.member ++ "->".toList)
      (Spec.returnType (f.ret.map definitionType)) f.name (paramsCode f.params) (Spec.isConst f) (Spec.returns (f.ret.map definitionType)) (args f)
  | .ctorDecl | .ctor => Spec.ctorDefinition o.indentStr pub impl o.member (paramsCode f.params) (args f)

/-- The function that is published for an element, if there is one: the destructor is not. -/
def publishedFn : Elem → Option Fn
  | .fn _ f => if f.kind = .decl ∨ f.kind = .defn then (if f.name.head? = some '~' then none else some f) else some f
  | _ => none

/-- The functions of the public zones, in order, without the destructor. -/
def published (children : List Elem) : List Fn :=
  (children.flatMap (fun e => match e with
    | .access _ name _ l => if name = "public".toList then l else []
    | _ => [])).filterMap publishedFn

theorem publicChildren_eq : ∀ l : List Elem, publicChildren l = l.flatMap (fun e => match e with
    | .access _ name _ l => if name = "public".toList then l else []
    | _ => [])
  | [] => rfl
  | e :: l => by
    have ih := publicChildren_eq l
    rw [List.flatMap_cons, ← ih]
    cases e with
    | access c n d ch =>
      show (if _ then _ else _) = (if _ then _ else _) ++ _
      split <;> rfl
    | _ => rfl

theorem startsWith_tilde (n : Str) : startsWith n ['~'] = true ↔ n.head? = some '~' := by
  cases n with
  | nil => exact ⟨fun h => (by cases h), fun h => (by cases h)⟩
  | cons c n =>
    unfold startsWith
    rw [List.isPrefixOf_iff_prefix]
    simp [List.cons_prefix_cons, eq_comm]

theorem glueOf_none (o : Options) (pub impl : Str) (cm : Comments) (f : Fn) (h : publishedFn (.fn cm f) = none) : glueOf o pub impl (.fn cm f) = [] := by
  obtain ⟨k, tm, ret, n, ps, sp, ne, pv⟩ := f
  have key : (if n.head? = some '~' then none else some (Fn.mk k tm ret n ps sp ne pv)) = none →
      (if startsWith n ['~'] = true then [] else methodImpl o pub impl ⟨k, tm, ret, n, ps, sp, ne, pv⟩ ++ ['\n']) = [] := by
    intro h
    by_cases ht : n.head? = some '~'
    · rw [if_pos ((startsWith_tilde n).2 ht)]
    · rw [if_neg ht] at h
      cases h
  cases k with
  | decl => exact key h
  | defn => exact key h
  | ctorDecl => cases h
  | ctor => cases h

theorem glueOf_some (o : Options) (pub impl : Str) (cm : Comments) (f g : Fn) (h : publishedFn (.fn cm f) = some g) (hg : PlainFn g)
    (hi : Plain o.indentStr) (hm : Plain o.member) (hpub : Plain pub) (himpl : Plain impl) :
    glueOf o pub impl (.fn cm f) = definitionOf o pub impl g ++ ['\n'] := by
  obtain ⟨k, tm, ret, n, ps, sp, ne, pv⟩ := f
  have key : (if n.head? = some '~' then none else some (Fn.mk k tm ret n ps sp ne pv)) = some g →
      (if startsWith n ['~'] = true then [] else methodImpl o pub impl ⟨k, tm, ret, n, ps, sp, ne, pv⟩ ++ ['\n']) = methodImpl o pub impl g ++ ['\n'] ∧
      g.kind = k := by
    intro h
    by_cases ht : n.head? = some '~'
    · rw [if_pos ht] at h
      cases h
    · rw [if_neg ht] at h
      rw [if_neg (fun e => ht ((startsWith_tilde n).1 e)), ← Option.some.inj h]
      exact ⟨rfl, rfl⟩
  cases k with
  | decl =>
    obtain ⟨h1, h2⟩ := key h
    refine h1.trans ?_
    rw [C99_definition_exact o pub impl g hg hi hm hpub himpl]
    unfold definitionOf
    rw [h2]
  | defn =>
    obtain ⟨h1, h2⟩ := key h
    refine h1.trans ?_
    rw [C99_definition_exact o pub impl g hg hi hm hpub himpl]
    unfold definitionOf
    rw [h2]
  | ctorDecl =>
    have e : Fn.mk .ctorDecl tm ret n ps sp ne pv = g := Option.some.inj h
    subst e
    exact congrArg (· ++ ['\n']) (C99_constructor_exact o pub impl _ hg hi hm hpub himpl)
  | ctor =>
    have e : Fn.mk .ctor tm ret n ps sp ne pv = g := Option.some.inj h
    subst e
    exact congrArg (· ++ ['\n']) (C99_constructor_exact o pub impl _ hg hi hm hpub himpl)

/-- C99: the glue code has one definition for every function of the public zones, in order, and the one of the destructor. -/
theorem C99_glue (o : Options) (pub : Str) (c : Class) (hf : ∀ f ∈ published c.children, PlainFn f) (hi : Plain o.indentStr) (hm : Plain o.member)
    (hpub : Plain pub) (himpl : Plain c.name) :
    glueCode o pub c = (published c.children).flatMap (fun f => definitionOf o pub c.name f ++ ['\n']) ++
      (pub ++ "::~".toList ++ pub ++ "() = default;\n".toList) := by
  unfold glueCode
  congr 1
  unfold published at hf ⊢
  rw [publicChildren_eq]
  generalize c.children.flatMap _ = l at hf ⊢
  induction l with
  | nil => rfl
  | cons e l ih =>
    rw [List.flatMap_cons]
    cases e with
    | fn cm f =>
      cases hp : publishedFn (.fn cm f) with
      | none =>
        rw [List.filterMap_cons_none hp] at hf ⊢
        rw [ih hf, glueOf_none o pub c.name cm f hp]
        rfl
      | some g =>
        rw [List.filterMap_cons_some hp] at hf ⊢
        rw [List.flatMap_cons, ih (fun f hm => hf f (List.mem_cons_of_mem _ hm))]
        have hg := glueOf_some o pub c.name cm f g hp (hf g (by simp)) hi hm hpub himpl
        rw [hg]
    | _ => exact ih hf

example : published [.access ⟨[], [], false⟩ "public".toList false [.fn ⟨[], [], false⟩ ctorFn, .fn ⟨[], [], false⟩ addFn]] = [ctorFn, addFn] := by
  decide +kernel

example : glueCode defaultOptions "Person".toList ⟨true, "PersonPImpl".toList, ⟨[], [], false⟩,
      [.access ⟨[], [], false⟩ "public".toList false [.fn ⟨[], [], false⟩ ctorFn, .emptyLine, .fn ⟨[], [], false⟩ addFn]]⟩ =
    ("Person::Person(int age)\n    : mPImpl(std::make_unique<PersonPImpl>(age)) { }\n" ++
     "int Person::add(int a, int b) {\n    return PersonPImpl::add(a, b); }\nPerson::~Person() = default;\n").toList := by decide +kernel

/-- The full statement: a function that is deleted has no definition. -/
def C99_deleted_statement : Prop := ∀ (o : Options) (pub impl : Str) (cm : Comments) (f : Fn), "delete".toList ∈ f.specifiers →
  glueOf o pub impl (.fn cm f) = []

/-- It fails: a constructor `= delete` is defined. -/
theorem C99_deleted_fails : ¬ C99_deleted_statement := by
  intro h
  have := h defaultOptions "Person".toList "PersonPImpl".toList ⟨[], [], false⟩ { ctorFn with specifiers := ["delete".toList] } (by decide)
  exact absurd this (by decide +kernel)

end Verif.Pimpl.Props
