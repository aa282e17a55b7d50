import Verif.Publish.Lemmas
import Verif.Arr.Lemmas

/-! C44: the published functions. C48: operators. -/

namespace Verif.Publish.Props
open Verif.Py Verif.Publish.Spec

private def int_ : Ty := ⟨"int".toList, []⟩
private def apiVoid : Ty := ⟨"void".toList, ["MY_API".toList]⟩
private def opts : Options :=
  { excludeTemplateType := fun t => t.code = "Foo<char>".toList
    excludeName := fun n => n = "secret".toList
    excludeType := fun t => t = "va_list".toList
    excludeSignature := [("Select".toList, "int, int".toList), ("Reset".toList, [])]
    apiPrefixes := "MY_API|OTHER_API".toList
    excludeNonApi := true
    nonApiComment := "(private API)".toList }
private def fApi : Func := ⟨"Draw".toList, [], [int_], some apiVoid, false⟩
private def ctor : Func := ⟨"Widget".toList, [], [int_], none, true⟩

/-! ### C44: one function -/

/-- C44. A function is published exactly when it is not a destructor, not deleted, not an out-of-class definition, when neither its
name, nor a type nor its signature (of at least one parameter) is excluded, and, for functions with a return type, when it
carries an API prefix if there are prefixes and the other functions are excluded. -/
theorem C44_iff (o : Options) (f : Func) :
    publishable o f = true ↔
      NotExcluded o f ∧ ¬ (SignatureExcluded o f ∧ signature f ≠ []) ∧ (f.returnType = none ∨ ApiOk o f) := by
  rw [publishable_iff, apiCheck_iff]
  refine and_congr_right fun _ => and_congr_right fun _ => ?_
  unfold ApiOk
  cases f.returnType with
  | none => simp
  | some ret =>
    simp only [Option.some.injEq, forall_eq', Bool.false_eq_true, or_false, reduceCtorEq, false_or, exists_eq_left']

example : publishable opts fApi = true ∧ publishable opts ctor = true ∧
    publishable opts { fApi with name := "secret".toList } = false ∧
    publishable opts { fApi with specifiers := ["delete".toList] } = false ∧
    publishable opts { fApi with name := "A::Draw".toList } = false ∧
    publishable opts { fApi with params := [⟨"Foo<char>".toList, []⟩] } = false ∧
    publishable opts { fApi with returnType := some int_ } = false ∧
    publishable opts { fApi with name := "Select".toList, params := [int_, int_] } = false := by decide +kernel

/-- Every published function is accepted by all the options. -/
def C44_statement : Prop := ∀ (o : Options) (f : Func),
  publishable o f = true → NotExcluded o f ∧ ¬ SignatureExcluded o f ∧ ApiOk o f

/-- C44. It fails: constructors need no API prefix. -/
theorem C44_api_fails : ¬ C44_statement := by
  intro h
  obtain ⟨_, _, ha⟩ := h opts ctor (by decide +kernel)
  obtain ⟨r, hr, _⟩ := ha ⟨"MY_API".toList, by decide, by decide +kernel⟩ rfl
  simp [ctor] at hr

/-- C44. It fails in another way: an overload without parameters cannot be excluded by its signature. -/
theorem C44_signature_fails : ∃ (o : Options) (f : Func), SignatureExcluded o f ∧ f.params = [] ∧ publishable o f = true :=
  ⟨opts, { fApi with name := "Reset".toList, params := [] }, by unfold SignatureExcluded; decide +kernel, rfl, by decide +kernel⟩

/-- C44. It holds for functions with a return type and at least one parameter (whose type is not empty). -/
theorem C44_partial (o : Options) (f : Func) (hr : f.returnType ≠ none) (hp : signature f ≠ []) (h : publishable o f = true) :
    NotExcluded o f ∧ ¬ SignatureExcluded o f ∧ ApiOk o f := by
  obtain ⟨h1, h2, h3⟩ := (C44_iff o f).1 h
  exact ⟨h1, fun hs => h2 ⟨hs, hp⟩, h3.resolve_left hr⟩

example : fApi.returnType ≠ none ∧ signature fApi ≠ [] ∧ publishable opts fApi = true := by decide +kernel

/-- C44. The comment on the functions outside of the API is added exactly to the published functions that have a return type
without API prefix, when those functions are included and a comment is configured. -/
theorem C44_comment (o : Options) (f : Func) (c : Str) (h : publishable o f = true) :
    (withNonApiComment o f c = if c = [] then o.nonApiComment else c ++ '\n' :: o.nonApiComment) ∧ o.nonApiComment ≠ [] ∧
        o.excludeNonApi = false ∧ (∃ p, ApiPrefix o p) ∧ (∃ ret, f.returnType = some ret ∧ ¬ CarriesPrefix o ret) ∨
      withNonApiComment o f c = c ∧ (o.nonApiComment = [] ∨ o.excludeNonApi = true ∨ (¬ ∃ p, ApiPrefix o p) ∨
        f.returnType = none ∨ ∃ ret, f.returnType = some ret ∧ CarriesPrefix o ret) := by
  have h' := (publishable_iff o f false).1 h
  have hp : publishable o f true = apiCheck o f true := by
    cases ha : apiCheck o f true with
    | true => exact (publishable_iff o f true).2 ⟨h'.1, h'.2.1, ha⟩
    | false => exact Bool.eq_false_iff.2 fun hb => by rw [((publishable_iff o f true).1 hb).2.2] at ha; simp at ha
  unfold withNonApiComment
  rw [hp]
  cases h1 : o.excludeNonApi with
  | true => exact .inr ⟨by simp, .inr (.inl rfl)⟩
  | false =>
    by_cases h2 : ∃ p, ApiPrefix o p
    · rw [decide_eq_true (prefixes_pos.2 h2)]
      simp only [Bool.not_false, Bool.and_self, if_true]
      cases h3 : f.returnType with
      | none =>
        have : apiCheck o f true = true := by unfold apiCheck; rw [h3]
        rw [this]
        exact .inr ⟨by simp, .inr (.inr (.inr (.inl rfl)))⟩
      | some ret =>
        have he : apiCheck o f true = true ↔ CarriesPrefix o ret := by
          rw [apiCheck_iff, h3]
          simp [h2]
        by_cases h4 : CarriesPrefix o ret
        · rw [he.2 h4]
          exact .inr ⟨by simp, .inr (.inr (.inr (.inr ⟨ret, rfl, h4⟩)))⟩
        · have : apiCheck o f true = false := Bool.eq_false_iff.2 fun hb => h4 (he.1 hb)
          rw [this]
          by_cases h5 : o.nonApiComment = []
          · exact .inr ⟨by simp [h5], .inl h5⟩
          · refine .inl ⟨?_, h5, trivial, h2, ret, rfl, h4⟩
            have : o.nonApiComment.length > 0 := List.length_pos_iff.2 h5
            simp [this]
    · have : ¬ o.prefixes.length > 0 := fun hb => h2 (prefixes_pos.1 hb)
      rw [decide_eq_false this]
      exact .inr ⟨by simp, .inr (.inr (.inl h2))⟩

example : withNonApiComment { opts with excludeNonApi := false } { fApi with returnType := some int_ } "Draws".toList =
    "Draws\n(private API)".toList := by decide +kernel
example : publishable { opts with excludeNonApi := false } { fApi with returnType := some int_ } = true := by decide +kernel

/-! ### C44: blocks and classes -/

/-- C44. In a namespace or a file, each function is published or not on its own: the published ones are those that may be published
and are not unsupported operators, in the order of the file. -/
theorem C44_block (o : Options) (fs : List Func) :
    blockFunctions o fs = fs.filter (fun f => publishable o f && !raisesUnsupported f) := by
  unfold blockFunctions
  induction fs with
  | nil => rfl
  | cons f fs ih =>
    rw [List.filterMap_cons, List.filter_cons, ih]
    unfold blockChild
    cases publishable o f <;> cases raisesUnsupported f <;> rfl

example : blockFunctions opts [fApi, { fApi with name := "secret".toList }, { fApi with name := "operator+".toList }, ctor] =
    [fApi, ctor] := by decide +kernel

/-- A method excluded by its name and its class is not published. -/
def C44_member_statement : Prop := ∀ (o : ClassOptions) (c : Class) (fs : List Func), classMethods o c = some fs →
  ∀ f ∈ fs, o.excludeMember f.name = false

private def classOpts : ClassOptions := ⟨{ opts with excludeNonApi := false }, fun n => n = "Capacity".toList, true⟩
private def capacity : Func := ⟨"Capacity".toList, [], [], some int_, true⟩

/-- C44. It fails for protected methods that are exposed. -/
theorem C44_member_fails : ¬ C44_member_statement := by
  intro h
  have := h classOpts ⟨[], [capacity]⟩ [capacity] (by decide +kernel) capacity (by simp)
  exact absurd this (by decide +kernel)

/-- C44. It holds when protected methods are not exposed; then exactly the public methods that are not excluded, may be published
and are not unsupported operators are published. -/
theorem C44_member_partial (o : ClassOptions) (c : Class) (h : o.exposeProtected = false) :
    classMethods o c =
      some (c.publicMethods.filter (fun f => !o.excludeMember f.name && publishable o.base f && !raisesUnsupported f)) := by
  unfold classMethods protectedMethods
  rw [h]
  simp only [Bool.not_false, if_true, Option.map_some, List.append_nil, Option.some.injEq]
  generalize c.publicMethods = fs
  induction fs with
  | nil => rfl
  | cons f fs ih =>
    rw [List.filterMap_cons, List.filter_cons, ih]
    unfold publicChild blockChild
    cases o.excludeMember f.name <;> cases publishable o.base f <;> cases raisesUnsupported f <;> rfl

example : classMethods { classOpts with exposeProtected := false } ⟨[capacity, ctor], [capacity]⟩ = some [ctor] := by decide +kernel

/-- An unsupported method does not prevent the class from being published. -/
def C44_class_statement : Prop := ∀ (o : ClassOptions) (c : Class), ∃ fs, classMethods o c = some fs

private def protAssign : Func := ⟨"operator=".toList, [], [int_], some int_, true⟩

/-- C44. It fails: a protected assignment operator, in a class whose protected methods are exposed, removes the whole class. -/
theorem C44_class_fails : ¬ C44_class_statement := by
  intro h
  obtain ⟨fs, hfs⟩ := h classOpts ⟨[capacity, ctor], [protAssign]⟩
  rw [show classMethods classOpts ⟨[capacity, ctor], [protAssign]⟩ = none by decide +kernel] at hfs
  simp at hfs

/-- C44. It holds when no publishable protected method is an unsupported operator; unsupported public operators are skipped
alone. -/
theorem C44_class_partial (o : ClassOptions) (c : Class)
    (h : ∀ f ∈ c.protectedMethods, publishable o.base f = true → raisesUnsupported f = false) :
    classMethods o c = some (c.publicMethods.filter (fun f => !o.excludeMember f.name && publishable o.base f &&
      !raisesUnsupported f) ++ c.protectedMethods.filter (fun f => o.exposeProtected && publishable o.base f)) := by
  have h1 : c.publicMethods.filterMap (fun f => (publicChild o f).func) =
      c.publicMethods.filter (fun f => !o.excludeMember f.name && publishable o.base f && !raisesUnsupported f) := by
    have := C44_member_partial { o with exposeProtected := false } c rfl
    simpa [classMethods, protectedMethods, publicChild] using this
  have h2 : protectedMethods o c.protectedMethods =
      some (c.protectedMethods.filter (fun f => o.exposeProtected && publishable o.base f)) := by
    unfold protectedMethods
    cases o.exposeProtected with
    | false => simp
    | true =>
      simp only [Bool.not_true, Bool.false_eq_true, if_false, Bool.true_and]
      generalize hl : c.protectedMethods = l at h
      clear hl
      induction l with
      | nil => rfl
      | cons f l ih =>
        have ih := ih (fun x hx => h x (List.mem_cons_of_mem _ hx))
        rw [List.filter_cons]
        split
        · rename_i hp
          rw [List.mapM_cons, ih, h f (by simp) hp]
          rfl
        · exact ih
  unfold classMethods
  rw [h1, h2]
  rfl

example : classMethods classOpts ⟨[ctor, protAssign], [capacity]⟩ = some [ctor, capacity] := by decide +kernel

/-! ### C48: operators -/

private def op (s : String) (n : Nat) : Func := ⟨s.toList, [], List.replicate n int_, some int_, true⟩

/-- C48. An operator that is published has a Python name, that of its Python counterpart for its number of parameters (or is a
spaceship operator, see below): unary and binary operators are told apart. -/
theorem C48_right_name (f : Func) (ho : f.isOperator = true) (hr : raisesUnsupported f = false) :
    ∃ d, pythonOperatorName f = some d ∧ (isSpaceship f = false → Counterpart d f.operatorName f.params.length) ∧
      (isSpaceship f = true → f.params.length = 1) := by
  have hm : f.method = true := by
    unfold raisesUnsupported at hr
    rw [ho] at hr
    cases hm : f.method with
    | true => rfl
    | false => simp [hm] at hr
  unfold pythonOperatorName isSpaceship
  rw [hr, ho, hm]
  simp only [Bool.and_self, Bool.not_true, Bool.false_eq_true, if_false, Bool.true_and, decide_eq_false_iff_not, decide_eq_true_eq]
  by_cases hc : f.operatorName = "()".toList
  · rw [if_pos hc]
    exact ⟨_, rfl, fun _ => .inr ⟨rfl, hc⟩, fun h => by rw [hc] at h; exact absurd h (by decide)⟩
  · rw [if_neg hc]
    unfold raisesUnsupported at hr
    rw [ho, hm] at hr
    simp only [Bool.not_true, Bool.false_eq_true, if_false] at hr
    split at hr
    · simp at hr
    · have t0 : ∀ e ∈ zeroParamTable, (e.2, e.1, 0) ∈ pyMethods ∧ e.1 ≠ "<=>".toList := by decide +kernel
      have t1 : ∀ e ∈ oneParamTable, e.1 ≠ "<=>".toList → (e.2, e.1, 1) ∈ pyMethods := by decide +kernel
      split at hr
      · rename_i hl
        rw [hl]
        cases hd : dictGet zeroParamTable f.operatorName with
        | none => rw [hd] at hr; simp at hr
        | some d =>
          have := t0 _ (Overload.mem_of_dictGet _ _ _ hd)
          exact ⟨d, rfl, fun _ => .inl this.1, fun h => absurd h this.2⟩
      · rename_i hl
        rw [hl]
        cases hd : dictGet oneParamTable f.operatorName with
        | none => rw [hd] at hr; simp at hr
        | some d => exact ⟨d, rfl, fun h => .inl (t1 _ (Overload.mem_of_dictGet _ _ _ hd) h), fun _ => rfl⟩
      · simp at hr

example : pythonOperatorName (op "operator-" 0) = some "__neg__".toList ∧
    pythonOperatorName (op "operator-" 1) = some "__sub__".toList ∧
    pythonOperatorName (op "operator ()" 4) = some "__call__".toList ∧
    pythonOperatorName (op "operator bool" 0) = some "__bool__".toList := by decide +kernel

/-- C48. Different operators, or the same operator with other numbers of parameters, have different Python names (but all call
operators are overloads of `__call__`). -/
theorem C48_distinct (f g : Func) (d : Str) (hf : pythonOperatorName f = some d) (hg : pythonOperatorName g = some d) :
    f.operatorName = g.operatorName ∧ (f.params.length = g.params.length ∨ d = "__call__".toList) := by
  have key : ∀ h : Func, pythonOperatorName h = some d → (h.operatorName = "()".toList ∧ d = "__call__".toList) ∨
      (h.operatorName, d, h.params.length) ∈ zeroParamTable.map (fun e => (e.1, e.2, 0)) ++ oneParamTable.map (fun e => (e.1, e.2, 1)) := by
    intro h hd
    unfold pythonOperatorName at hd
    split at hd
    · simp at hd
    · split at hd
      · simp at hd
      · split at hd
        · rename_i hc
          exact .inl ⟨hc, by simpa using hd.symm⟩
        · split at hd
          · rename_i hl
            rw [hl]
            exact .inr (List.mem_append_left _ (List.mem_map.2 ⟨_, Overload.mem_of_dictGet _ _ _ hd, rfl⟩))
          · rename_i hl
            rw [hl]
            exact .inr (List.mem_append_right _ (List.mem_map.2 ⟨_, Overload.mem_of_dictGet _ _ _ hd, rfl⟩))
          · simp at hd
  have inj : ∀ a ∈ zeroParamTable.map (fun e => (e.1, e.2, 0)) ++ oneParamTable.map (fun e => (e.1, e.2, 1)),
      ∀ b ∈ zeroParamTable.map (fun e => (e.1, e.2, 0)) ++ oneParamTable.map (fun e => (e.1, e.2, 1)), a.2.1 = b.2.1 → a = b := by
    decide +kernel
  have nocall : ∀ a ∈ zeroParamTable.map (fun e => (e.1, e.2, 0)) ++ oneParamTable.map (fun e => (e.1, e.2, 1)),
      a.2.1 ≠ "__call__".toList := by decide +kernel
  rcases key f hf with ⟨h1, h2⟩ | h1 <;> rcases key g hg with ⟨h3, h4⟩ | h3
  · exact ⟨h1.trans h3.symm, .inr h2⟩
  · exact absurd h2 (nocall _ h3)
  · exact absurd h4 (nocall _ h1)
  · have := inj _ h1 _ h3 rfl
    simp only [Prod.mk.injEq, true_and] at this
    exact ⟨this.1, .inl this.2⟩

example : pythonOperatorName (op "operator+" 1) = some "__add__".toList ∧
    pythonOperatorName (op "operator +" 1) = some "__add__".toList := by decide +kernel

/-- Each operator with a Python counterpart is published under its name. -/
def C48_complete_statement : Prop := ∀ (f : Func) (d : Str), f.isOperator = true → f.method = true →
  Counterpart d f.operatorName f.params.length → pythonOperatorName f = some d

/-- C48. It fails: the operators on bits are refused, although Python has them. -/
theorem C48_complete_fails : ¬ C48_complete_statement := by
  intro h
  have := h (op "operator&" 1) "__and__".toList (by decide +kernel) rfl (.inl (by decide +kernel))
  exact absurd this (by decide +kernel)

/-- C48. It holds for all the others. -/
theorem C48_complete_partial (f : Func) (d : Str) (ho : f.isOperator = true) (hm : f.method = true)
    (hc : Counterpart d f.operatorName f.params.length) (hb : f.operatorName ∉ bitOperators) : pythonOperatorName f = some d := by
  unfold pythonOperatorName raisesUnsupported
  rw [ho, hm]
  simp only [Bool.and_self, Bool.not_true, Bool.false_eq_true, if_false]
  rcases hc with hc | ⟨rfl, hc⟩
  · have t : ∀ e ∈ pyMethods, e.2.1 ∉ bitOperators → e.2.1 ∉ knownUnsupported ∧ e.2.1 ≠ "()".toList ∧
        (e.2.2 = 0 ∧ dictGet zeroParamTable e.2.1 = some e.1 ∨ e.2.2 = 1 ∧ dictGet oneParamTable e.2.1 = some e.1) := by
      decide +kernel
    obtain ⟨h1, h2, h3⟩ := t _ hc hb
    simp only at h1 h2 h3
    rw [if_neg h1, if_neg h2, if_neg h2]
    rcases h3 with ⟨hl, h3⟩ | ⟨hl, h3⟩
    · rw [hl]; simp [h3]
    · rw [hl]; simp [h3]
  · rw [hc]
    have h1 : "()".toList ∉ knownUnsupported := by decide
    rw [if_neg h1, if_pos rfl, if_pos rfl]
    rfl

example : Counterpart "__imul__".toList (op "operator*=" 1).operatorName (op "operator*=" 1).params.length :=
  .inl (by decide +kernel)

/-- C48. Operators that are free functions, and operators (but calls) with two parameters or more, are not published. -/
theorem C48_refused (o : Options) (f : Func) (ho : f.isOperator = true)
    (h : f.method = false ∨ (f.params.length ≥ 2 ∧ f.operatorName ≠ "()".toList)) : (blockChild o f).func = none := by
  have hr : raisesUnsupported f = true := by
    unfold raisesUnsupported
    rw [ho]
    rcases h with h | ⟨h, h'⟩
    · simp [h]
    · simp only [Bool.not_true, Bool.false_eq_true, if_false]
      split
      · rfl
      · split
        · rfl
        · split
          · omega
          · omega
          · rfl
  unfold blockChild
  rw [hr]
  cases publishable o f <;> rfl

example : (op "operator+" 2).isOperator = true ∧ (op "operator+" 2).params.length ≥ 2 ∧
    (op "operator+" 2).operatorName ≠ "()".toList := by decide +kernel

/-- A function whose name is an identifier is not taken for an operator. -/
def C48_identifier_statement : Prop := ∀ f : Func, PlainIdentifier f.name → raisesUnsupported f = false

/-- C48. It fails: `operator_count` is dropped. -/
theorem C48_identifier_fails : ¬ C48_identifier_statement := by
  intro h
  have := h { op "operator_count" 0 with method := false } ⟨by decide, by decide⟩
  exact absurd this (by decide +kernel)

/-- C48. It holds for names that do not start with `operator`. -/
theorem C48_identifier_partial (f : Func) (h : ¬ ∃ rest, f.name = "operator".toList ++ rest) : raisesUnsupported f = false := by
  have : f.isOperator = false := Bool.eq_false_iff.2 fun hb => h (by
    unfold Func.isOperator startsWith at hb
    obtain ⟨r, hr⟩ := List.isPrefixOf_iff_prefix.1 hb
    exact ⟨r, hr.symm⟩)
  unfold raisesUnsupported
  rw [this]
  rfl

example : ¬ ∃ rest, "my_operator".toList = "operator".toList ++ rest := by
  rintro ⟨r, hr⟩
  simp at hr

/-- C48. Blanks around the symbol of an operator do not matter: `operator +` is `operator+`, of which the symbol is `+`. -/
theorem C48_symbol (f : Func) (w₁ sym w₂ : Str) (h1 : ∀ c ∈ w₁, isSpace c = true) (h2 : ∀ c ∈ w₂, isSpace c = true)
    (hs : ∃ c r, sym = c :: r ∧ isSpace c = false) (ht : ∃ a c, sym = a ++ [c] ∧ isSpace c = false)
    (hn : f.name = "operator".toList ++ (w₁ ++ sym ++ w₂)) : f.isOperator = true ∧ f.operatorName = sym := by
  constructor
  · unfold Func.isOperator startsWith
    rw [hn, List.isPrefixOf_iff_prefix]
    exact ⟨_, rfl⟩
  · unfold Func.operatorName
    rw [hn, List.drop_left]
    exact Arr.strip_tight h1 h2 ⟨hs, ht⟩

example : (op "operator  <= " 1).operatorName = "<=".toList := by decide +kernel

/-! ### The spaceship operator -/

/-- C48. A spaceship operator becomes one method for each comparison: each is published under the name of its comparison, with the
parameters and the specifiers of the operator, and its lambda applies that same comparison to the result of the spaceship
operator. -/
theorem C48_spaceship (f : Func) (hs : isSpaceship f = true) (hp : f.params.length = 1) :
    (splitSpaceship f).map (fun c => c.func.operatorName) = comparisons ∧
    ∀ c ∈ splitSpaceship f, raisesUnsupported c.func = false ∧ isSpaceship c.func = false ∧
      c.func.params = f.params ∧ c.func.specifiers = f.specifiers ∧ c.func.method = true ∧
      (∀ t, c.func.returnType = some t → t.code = "bool".toList) ∧
      (∃ d, pythonOperatorName c.func = some d ∧ (d, c.func.operatorName, 1) ∈ pyMethods) ∧
      c.test = " ".toList ++ c.func.operatorName ++ " 0".toList := by
  have hm : f.method = true := by
    unfold isSpaceship at hs
    simp only [Bool.and_eq_true] at hs
    exact hs.1.2
  have key : ∀ s ∈ comparisons, ∀ t : Str, (makeCmp f s t).func.operatorName = s ∧ (makeCmp f s t).func.isOperator = true := by
    intro s hs t
    simp only [comparisons, List.mem_cons, List.not_mem_nil, or_false] at hs
    rcases hs with rfl | rfl | rfl | rfl | rfl <;> exact ⟨by rfl, by rfl⟩
  have one : ∀ s ∈ comparisons, ∀ t : Str, raisesUnsupported (makeCmp f s t).func = false ∧ isSpaceship (makeCmp f s t).func = false ∧
      (makeCmp f s t).func.params = f.params ∧ (makeCmp f s t).func.specifiers = f.specifiers ∧
      (makeCmp f s t).func.method = true ∧ (∀ r, (makeCmp f s t).func.returnType = some r → r.code = "bool".toList) ∧
      (∃ d, pythonOperatorName (makeCmp f s t).func = some d ∧ (d, (makeCmp f s t).func.operatorName, 1) ∈ pyMethods) := by
    intro s hs t
    obtain ⟨k1, k2⟩ := key s hs t
    have km : (makeCmp f s t).func.method = true := hm
    have kp : (makeCmp f s t).func.params = f.params := rfl
    have tab : ∀ s ∈ comparisons, s ∉ knownUnsupported ∧ s ≠ "()".toList ∧ s ≠ "<=>".toList ∧ s ∉ bitOperators ∧
        ∃ e ∈ pyMethods, e.2 = (s, 1) := by decide +kernel
    obtain ⟨t1, t2, t3, t4, ⟨d, s', n⟩, he, hes⟩ := tab s hs
    simp only [Prod.mk.injEq] at hes
    obtain ⟨rfl, rfl⟩ := hes
    have hd := C48_complete_partial (makeCmp f s' t).func d k2 km (.inl (by rw [k1, kp, hp]; exact he)) (by rw [k1]; exact t4)
    refine ⟨?_, ?_, kp, rfl, km, ?_, d, hd, by rw [k1]; exact he⟩
    · unfold pythonOperatorName at hd
      rw [k2, km] at hd
      cases hr : raisesUnsupported (makeCmp f s' t).func with
      | false => rfl
      | true => simp [hr] at hd
    · unfold isSpaceship
      rw [k1, decide_eq_false t3]
      simp
    · intro r hr
      have hr : f.returnType.map (fun t => { t with code := "bool".toList }) = some r := hr
      obtain ⟨x, _, rfl⟩ := Option.map_eq_some_iff.1 hr
      rfl
  refine ⟨by rfl, ?_⟩
  intro c hc
  simp only [splitSpaceship, List.mem_cons, List.not_mem_nil, or_false] at hc
  have fin : ∀ s ∈ comparisons, ∀ t : Str, t = " ".toList ++ s ++ " 0".toList →
      (makeCmp f s t).test = " ".toList ++ (makeCmp f s t).func.operatorName ++ " 0".toList := by
    intro s hs t ht
    rw [(key s hs t).1]
    exact ht
  rcases hc with rfl | rfl | rfl | rfl | rfl
  all_goals
    refine ⟨(one _ (by decide) _).1, (one _ (by decide) _).2.1, (one _ (by decide) _).2.2.1, (one _ (by decide) _).2.2.2.1,
      (one _ (by decide) _).2.2.2.2.1, (one _ (by decide) _).2.2.2.2.2.1, (one _ (by decide) _).2.2.2.2.2.2,
      fin _ (by decide) _ (by decide)⟩

example : isSpaceship (op "operator<=>" 1) = true ∧ (op "operator<=>" 1).params.length = 1 := by decide +kernel

end Verif.Publish.Props
