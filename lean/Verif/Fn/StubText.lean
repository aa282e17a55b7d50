import Verif.Fn.StubProps
import Verif.Adapt.ModelReturn

/-! Properties of the stub of a function and of the policies found in comments: C65, C66, C67. -/

namespace Verif.Fn.Spec
open Verif.Py

/-- `token` occurs in `s` for the first time after `before`, and `after` follows it. -/
def FirstOccurrence (token s before after : Str) : Prop :=
  s = before ++ token ++ after ∧ ∀ b a, s = b ++ token ++ a → before.length ≤ b.length

/-- The longest beginning of a text without a white space. -/
def IsWord (s w : Str) : Prop :=
  (∀ c ∈ w, isSpace c = false) ∧ ∃ r, s = w ++ r ∧ ∀ c ∈ r.head?, isSpace c = true

/-- The policies of pybind11 and nanobind. -/
def policies : List Str :=
  ["automatic", "automatic_reference", "take_ownership", "copy", "move", "reference", "reference_internal", "none"].map String.toList

end Verif.Fn.Spec

namespace Verif.Fn.Props
open Verif.Py Verif.Type Verif.Adapt Verif.Fn
open Verif.Fn.Spec (FirstOccurrence IsWord)

/-! ### C65: the header -/

theorem flatten_withCommas (ps : List Str) : (withCommas ps).flatten = join commaSpace ps := by
  induction ps with
  | nil => rfl
  | cons p ps ih =>
    cases ps with
    | nil => simp [withCommas]
    | cons q r =>
      rw [withCommas, List.flatten_cons, ih, join_cons_cons]

/-- The header on one line: `def name(parameters) -> type:` and its comment. -/
def oneLine (o : Options) (f : Func) (params : List Str) (ret : Str) : Str :=
  "def ".toList ++ shownName o f ++ "(".toList ++ join ", ".toList params ++ ") -> ".toList ++
    (if f.vectorizeImpl then "np.ndarray".toList else ret) ++ ":".toList

/-- The header of a function is on one line if it is short enough or if there is no limit; else it has one parameter per line and the lines
make up the same text. The comment is at the end of the first line. -/
theorem C65_header (o : Options) (f : Func) (params : List Str) (ret : Str) :
    let n : Int := (oneLine o f params ret ++ headerComment o f).length
    (o.maxLineLength ≤ 0 ∨ n < o.maxLineLength → titleLines o f params ret = [oneLine o f params ret ++ headerComment o f]) ∧
    (¬ (o.maxLineLength ≤ 0 ∨ n < o.maxLineLength) → ∃ first rest, titleLines o f params ret = (first ++ headerComment o f) :: rest ∧
      (first :: rest).flatten = oneLine o f params ret ∧ rest.length = params.length + 1) := by
  have harrow : (if f.vectorizeImpl then ") -> np.ndarray:".toList else ") -> ".toList ++ ret ++ ":".toList) =
      ") -> ".toList ++ (if f.vectorizeImpl then "np.ndarray".toList else ret) ++ ":".toList := by
    cases f.vectorizeImpl
    · rfl
    · rfl
  have hone : "def ".toList ++ shownName o f ++ "(".toList ++ join commaSpace params ++
      (if f.vectorizeImpl then ") -> np.ndarray:".toList else ") -> ".toList ++ ret ++ ":".toList) = oneLine o f params ret := by
    rw [harrow]
    unfold oneLine
    simp only [List.append_assoc]
    rfl
  dsimp only
  unfold titleLines
  dsimp only
  rw [hone]
  constructor
  · intro h
    rw [if_pos h]
  · intro h
    rw [if_neg h]
    refine ⟨"def ".toList ++ shownName o f ++ "(".toList, withCommas params ++ [if f.vectorizeImpl then ") -> np.ndarray:".toList
      else ") -> ".toList ++ ret ++ ":".toList], rfl, ?_, ?_⟩
    · rw [← hone, List.flatten_cons, List.flatten_append, flatten_withCommas]
      simp only [List.append_assoc, List.flatten_cons, List.flatten_nil, List.append_nil]
    · have : ∀ ps : List Str, (withCommas ps).length = ps.length := by
        intro ps
        induction ps with
        | nil => rfl
        | cons p ps ih =>
          cases ps with
          | nil => rfl
          | cons q r => rw [withCommas, List.length_cons, ih, List.length_cons, List.length_cons, List.length_cons]
      rw [List.length_append, this, List.length_singleton]

example : titleLines { demoO with maxLineLength := 30 } demoM ["self".toList, "a: int".toList, "b: int = 2".toList] "int".toList =
    ["def add(".toList, "self, ".toList, "a: int, ".toList, "b: int = 2".toList, ") -> int:".toList] ∧
    titleLines demoO demoM ["self".toList, "a: int".toList, "b: int = 2".toList] "int".toList =
    ["def add(self, a: int, b: int = 2) -> int:".toList] := by decide +kernel

/-! ### C65: static methods -/

/-- In the stub of a method, the object is a parameter exactly when there is no `@staticmethod`. -/
theorem C65_self (o : Options) (f : Func) (ps : List Str) (hm : isMethod f = true) (h : stubParams o f = some ps) :
    ("@staticmethod".toList ∈ decorators o f ↔ staticRet f.aRet = true) ∧
    (staticRet f.aRet = false → ps.head? = some "self".toList) ∧
    (staticRet f.aRet = true → ps.length = (withoutCtorSelf o f (f.aParams.map (terse o))).length) := by
  refine ⟨?_, ?_, ?_⟩
  · unfold decorators
    dsimp only
    rw [hm]
    have hne : "@overload".toList ≠ "@staticmethod".toList := by decide
    cases hs : staticRet f.aRet
    · have e : ((f.inProxy && !true) || (true && false)) = false := by cases f.inProxy <;> rfl
      rw [e, if_neg Bool.false_ne_true, List.nil_append]
      constructor
      · intro h
        split at h
        · exact absurd (List.mem_singleton.1 h).symm hne
        · cases h
      · intro h; cases h
    · have e : ((f.inProxy && !true) || (true && true)) = true := by cases f.inProxy <;> rfl
      rw [e, if_pos rfl]
      exact ⟨fun _ => rfl, fun _ => List.mem_append_left _ (List.mem_singleton.2 rfl)⟩
  · intro hs
    unfold stubParams at h
    rw [Option.map_eq_some_iff] at h
    obtain ⟨r, _, rfl⟩ := h
    rw [if_pos (by rw [hm, hs]; rfl)]
    rfl
  · intro hs
    unfold stubParams at h
    rw [Option.map_eq_some_iff] at h
    obtain ⟨r, hr, rfl⟩ := h
    rw [if_neg (by rw [hm, hs]; simp), allSome_length _ _ hr, List.length_map]

example : isMethod demoM = true ∧ stubParams demoO (static demoM) = some ["a: int".toList, "b: int = 2".toList] ∧
    decorators demoO (static demoM) = ["@staticmethod".toList] := by decide +kernel

/-- Full statement: the binding and the stub agree on what is static. -/
def C65_static_statement : Prop :=
  ∀ (o : Options) (f : Func), isMethod f = true →
    (startsWith (creationPart o f) ".def_static(".toList = true ↔ "@staticmethod".toList ∈ decorators o f)

/-- `static bool next(int & i);` with the adapter that returns the modified parameters: the new return type has lost `static` (and shows it inside
`std::tuple`). -/
def tupleF : Func :=
  { demoM with
    ret := some { specifiers := ["static".toList], typenames := ["bool".toList], modifiers := [] }
    aRet := (Adapt.returnText true "static bool".toList [("int".toList, "i".toList)]).map
      (fun t => { specifiers := [], typenames := [t.1], modifiers := [] })
    lambdaToCall := some "add_adapt".toList }

theorem C65_static_fails : ¬ C65_static_statement ∧ fullReturnType demoO tupleF.aRet = some "std::tuple<static bool, int>".toList := by
  refine ⟨fun h => ?_, by decide +kernel⟩
  have := (h demoO tupleF (by decide +kernel)).1 (by decide +kernel)
  revert this
  decide +kernel

/-- They agree when the adapters keep `static`. -/
theorem C65_static_partial (o : Options) (f : Func) (hm : isMethod f = true) (hi : Blank o.indent) (hmv : Verif.Fn.Spec.Plain f.moduleVar)
    (hn : Verif.Fn.Spec.Plain (shownName o f)) (hl : LocationOk f) (hs : staticRet f.ret = staticRet f.aRet) :
    startsWith (creationPart o f) ".def_static(".toList = true ↔ "@staticmethod".toList ∈ decorators o f := by
  have hd : "@staticmethod".toList ∈ decorators o f ↔ staticRet f.aRet = true := by
    unfold decorators
    dsimp only
    rw [hm]
    have hne : "@overload".toList ≠ "@staticmethod".toList := by decide
    cases hs : staticRet f.aRet
    · have e : ((f.inProxy && !true) || (true && false)) = false := by cases f.inProxy <;> rfl
      rw [e, if_neg Bool.false_ne_true, List.nil_append]
      constructor
      · intro h
        split at h
        · exact absurd (List.mem_singleton.1 h).symm hne
        · cases h
      · intro h; cases h
    · have e : ((f.inProxy && !true) || (true && true)) = true := by cases f.inProxy <;> rfl
      rw [e, if_pos rfl]
      exact ⟨fun _ => rfl, fun _ => List.mem_append_left _ (List.mem_singleton.2 rfl)⟩
  rw [hd, creationPart_text o f hi hmv hn hl, ← hs, hm, Bool.and_true]
  have hr : receiver f = [] := by unfold receiver; rw [if_pos hm]
  unfold Verif.Fn.Spec.head startsWith
  rw [hr, List.nil_append, List.isPrefixOf_iff_prefix]
  cases staticRet f.ret
  · rw [if_neg Bool.false_ne_true]
    constructor
    · rintro ⟨t, ht⟩
      simp at ht
    · intro h; cases h
  · rw [if_pos rfl]
    refine ⟨fun _ => rfl, fun _ => ⟨['"'] ++ shownName o f ++ "\",".toList ++ location o f "//".toList, ?_⟩⟩
    simp

example : isMethod (static demoM) = true ∧ Verif.Fn.Spec.Plain (shownName demoO (static demoM)) ∧
    staticRet (static demoM).ret = staticRet (static demoM).aRet := by decide +kernel

/-! ### C66: policies in comments -/

theorem fromToken_some (token s t : Str) (hne : token ≠ []) (h : fromToken token s = some t) :
    ∃ b a, t = token ++ a ∧ FirstOccurrence token s b a := by
  induction s with
  | nil => simp [fromToken, hne] at h
  | cons c cs ih =>
    rw [fromToken] at h
    by_cases hp : token.isPrefixOf (c :: cs) = true
    · rw [if_pos hp] at h
      obtain ⟨a, ha⟩ := List.isPrefixOf_iff_prefix.1 hp
      refine ⟨[], a, by rw [ha]; exact (Option.some.inj h).symm, by simp [ha], ?_⟩
      intro b a _
      simp
    · rw [if_neg hp] at h
      obtain ⟨b, a, h1, h2, h3⟩ := ih h
      refine ⟨c :: b, a, h1, by rw [h2]; simp, ?_⟩
      intro b' a' e
      cases b' with
      | nil => exact absurd (List.isPrefixOf_iff_prefix.2 ⟨a', by simpa using e.symm⟩) hp
      | cons d b' =>
        have := h3 b' a' (by simpa using (List.cons.inj (by simpa using e)).2)
        simpa using this

theorem fromToken_none (token s : Str) (h : fromToken token s = none) : ¬ ∃ b a, s = b ++ token ++ a := by
  induction s with
  | nil =>
    rintro ⟨b, a, e⟩
    have : token = [] := by
      have := congrArg List.length e
      simp at this
      exact List.length_eq_zero_iff.1 (by omega)
    simp [fromToken, this] at h
  | cons c cs ih =>
    rw [fromToken] at h
    by_cases hp : token.isPrefixOf (c :: cs) = true
    · rw [if_pos hp] at h; cases h
    · rw [if_neg hp] at h
      rintro ⟨b, a, e⟩
      cases b with
      | nil => exact hp (List.isPrefixOf_iff_prefix.2 ⟨a, by simpa using e.symm⟩)
      | cons d b => exact ih h ⟨b, a, by simpa using (List.cons.inj (by simpa using e)).2⟩

theorem first_unique {token s b a b' a' : Str} (h : FirstOccurrence token s b a) (h' : FirstOccurrence token s b' a') :
    b = b' ∧ a = a' := by
  have hl : b.length = b'.length := Nat.le_antisymm (h.2 _ _ h'.1) (h'.2 _ _ h.1)
  have e := h.1.symm.trans h'.1
  rw [List.append_assoc, List.append_assoc] at e
  obtain ⟨h1, h2⟩ := List.append_inj e hl
  exact ⟨h1, List.append_cancel_left h2⟩

theorem fromToken_iff (token s a : Str) (hne : token ≠ []) :
    fromToken token s = some (token ++ a) ↔ ∃ b, FirstOccurrence token s b a := by
  constructor
  · intro h
    obtain ⟨b, a', h1, h2⟩ := fromToken_some token s _ hne h
    rw [List.append_cancel_left h1]
    exact ⟨b, h2⟩
  · rintro ⟨b, h⟩
    cases e : fromToken token s with
    | none => exact absurd ⟨b, a, h.1⟩ (fromToken_none token s e)
    | some t =>
      obtain ⟨b', a', h1, h2⟩ := fromToken_some token s t hne e
      rw [h1, (first_unique h h2).2]

theorem wordAfter_iff (s w : Str) : wordAfter s = w ↔ IsWord s w := by
  unfold wordAfter IsWord
  constructor
  · rintro rfl
    refine ⟨?_, s.dropWhile (fun c => !isSpace c), (List.takeWhile_append_dropWhile).symm, ?_⟩
    · intro c hc
      have := List.all_eq_true.1 (List.all_takeWhile (p := fun c => !isSpace c) (l := s)) c hc
      simpa using this
    · intro c hc
      have := List.head?_dropWhile_not (p := fun c => !isSpace c) s
      cases e : (s.dropWhile (fun c => !isSpace c)).head? with
      | none => rw [e] at hc; cases hc
      | some d =>
        rw [e] at hc this
        rw [← Option.some.inj hc]
        simpa using this
  · rintro ⟨h1, r, rfl, h2⟩
    induction w with
    | nil =>
      cases r with
      | nil => rfl
      | cons c cs => simp [h2 c (by simp)]
    | cons c cs ih =>
      rw [List.cons_append, List.takeWhile_cons, if_pos (by simp [h1 c (by simp)]), ih (fun x hx => h1 x (by simp [hx]))]

/-- The word after a token is the text without white space that follows the first occurrence of the token. -/
theorem C66_word (s token w : Str) (hne : token ≠ []) :
    findWordAfterToken s token = some w ↔ ∃ b a, FirstOccurrence token s b a ∧ IsWord a w := by
  unfold findWordAfterToken
  rw [Option.map_eq_some_iff]
  constructor
  · rintro ⟨t, ht, h⟩
    obtain ⟨b, a, rfl, h2⟩ := fromToken_some token s t hne ht
    rw [List.drop_left] at h
    exact ⟨b, a, h2, (wordAfter_iff _ _).1 h⟩
  · rintro ⟨b, a, h1, h2⟩
    exact ⟨token ++ a, (fromToken_iff token s a hne).2 ⟨b, h1⟩, by rw [List.drop_left]; exact (wordAfter_iff _ _).2 h2⟩

example : findWordAfterToken "the node. return_value_policy::reference rv".toList "return_value_policy::".toList = some "reference".toList := by
  decide +kernel

theorem findWord_none (s token : Str) (hne : token ≠ []) : findWordAfterToken s token = none ↔ ¬ ∃ b a, s = b ++ token ++ a := by
  unfold findWordAfterToken
  rw [Option.map_eq_none_iff]
  constructor
  · exact fromToken_none token s
  · intro h
    cases e : fromToken token s with
    | none => rfl
    | some t =>
      obtain ⟨b, a, _, h2⟩ := fromToken_some token s t hne e
      exact absurd ⟨b, a, h2.1⟩ h

/-- Where a policy is looked for: `return_value_policy::` in the comment at the end of the line, then in the comment before, then `rv_policy::` in
the same order. -/
theorem C66_order (previous eol : Str) (places : List (Str × Str))
    (hp : places = [(eol, "return_value_policy::".toList), (previous, "return_value_policy::".toList), (eol, "rv_policy::".toList),
      (previous, "rv_policy::".toList)]) (w : Str) :
    policyFromComments previous eol = some w ↔
      ∃ pre place post, places = pre ++ place :: post ∧ (∀ q ∈ pre, ¬ ∃ b a, q.1 = b ++ q.2 ++ a) ∧
        ∃ b a, FirstOccurrence place.2 place.1 b a ∧ IsWord a w := by
  subst hp
  have ne1 : "return_value_policy::".toList ≠ [] := by decide
  have ne2 : "rv_policy::".toList ≠ [] := by decide
  have key : ∀ (places : List (Str × Str)), (∀ q ∈ places, q.2 ≠ []) →
      ((places.findSome? (fun q => findWordAfterToken q.1 q.2)) = some w ↔
        ∃ pre place post, places = pre ++ place :: post ∧ (∀ q ∈ pre, ¬ ∃ b a, q.1 = b ++ q.2 ++ a) ∧
          ∃ b a, FirstOccurrence place.2 place.1 b a ∧ IsWord a w) := by
    intro places
    induction places with
    | nil =>
      intro _
      constructor
      · intro h; cases h
      · rintro ⟨pre, place, post, h, _⟩
        simp at h
    | cons q qs ih =>
      intro hne
      have ih := ih (fun x hx => hne x (by simp [hx]))
      have hq := hne q (by simp)
      rw [List.findSome?_cons]
      cases e : findWordAfterToken q.1 q.2 with
      | some v =>
        simp only
        constructor
        · intro h
          rw [Option.some.inj h] at e
          exact ⟨[], q, qs, rfl, by simp, (C66_word _ _ _ hq).1 e⟩
        · rintro ⟨pre, place, post, h1, h2, h3⟩
          cases pre with
          | nil =>
            have hpl : q = place := (List.cons.inj h1).1
            subst hpl
            rw [(C66_word _ _ _ hq).2 h3] at e
            exact e.symm
          | cons p pre =>
            have hpl : q = p := (List.cons.inj h1).1
            subst hpl
            have := (findWord_none q.1 q.2 hq).2 (h2 q (by simp))
            rw [this] at e
            cases e
      | none =>
        simp only
        rw [ih]
        have hno := (findWord_none q.1 q.2 hq).1 e
        constructor
        · rintro ⟨pre, place, post, h1, h2, h3⟩
          refine ⟨q :: pre, place, post, by rw [h1]; rfl, ?_, h3⟩
          intro x hx
          rcases List.mem_cons.1 hx with rfl | hx
          · exact hno
          · exact h2 x hx
        · rintro ⟨pre, place, post, h1, h2, h3⟩
          cases pre with
          | nil =>
            have hpl : q = place := (List.cons.inj h1).1
            subst hpl
            obtain ⟨b, a, h4, _⟩ := h3
            exact absurd ⟨b, a, h4.1⟩ hno
          | cons p pre =>
            exact ⟨pre, place, post, (List.cons.inj h1).2, fun x hx => h2 x (by simp [hx]), h3⟩
  rw [← key _ (by
    intro q hq
    simp only [List.mem_cons, List.not_mem_nil, or_false] at hq
    rcases hq with rfl | rfl | rfl | rfl <;> assumption)]
  unfold policyFromComments policyInComments
  simp only [List.findSome?_cons, List.findSome?_nil]
  generalize "return_value_policy::".toList = t1
  generalize "rv_policy::".toList = t2
  cases findWordAfterToken eol t1 <;> cases findWordAfterToken previous t1 <;> cases findWordAfterToken eol t2 <;>
    cases findWordAfterToken previous t2 <;> rfl

example : policyFromComments "py::return_value_policy::copy".toList " rv_policy::reference".toList = some "copy".toList := by decide +kernel

/-- Full statement: the policy found in a comment is one of the policies of the library. -/
def C66_policy_statement : Prop :=
  ∀ previous eol w, policyFromComments previous eol = some w → w ∈ Verif.Fn.Spec.policies

/-- `(py::return_value_policy::reference)` and `... return_value_policy::reference.`: the punctuation goes into the C++ code. -/
theorem C66_policy_fails : ¬ C66_policy_statement ∧
    policyFromComments "The node (py::return_value_policy::reference)".toList [] = some "reference)".toList ∧
    policyFromComments "Uses return_value_policy::reference.".toList [] = some "reference.".toList := by
  refine ⟨fun h => ?_, by decide +kernel, by decide +kernel⟩
  have := h "The node (py::return_value_policy::reference)".toList [] "reference)".toList (by decide +kernel)
  revert this
  decide +kernel

/-- A policy that is followed by a white space or by the end of the comment is found. -/
theorem C66_policy_partial (previous eol before after policy : Str) (he : eol = before ++ "return_value_policy::".toList ++ policy ++ after)
    (hfirst : ∀ b a, eol = b ++ "return_value_policy::".toList ++ a → before.length ≤ b.length) (hpol : policy ∈ Verif.Fn.Spec.policies)
    (hafter : ∀ c ∈ after.head?, isSpace c = true) : policyFromComments previous eol = some policy := by
  have hw : ∀ p ∈ Verif.Fn.Spec.policies, ∀ c ∈ p, isSpace c = false := by decide +kernel
  have : findWordAfterToken eol "return_value_policy::".toList = some policy :=
    (C66_word eol _ policy (by decide)).2 ⟨before, policy ++ after, ⟨by rw [he]; simp only [List.append_assoc], hfirst⟩, hw policy hpol, after, rfl, hafter⟩
  unfold policyFromComments policyInComments
  rw [this]

example : ∃ before after policy : Str, " py::return_value_policy::reference, really".toList ≠ [] ∧
    "x return_value_policy::copy y".toList = before ++ "return_value_policy::".toList ++ policy ++ after ∧ policy ∈ Verif.Fn.Spec.policies ∧
    (∀ c ∈ after.head?, isSpace c = true) := ⟨"x ".toList, " y".toList, "copy".toList, by decide +kernel⟩

/-- The options can force the policy `reference`, whatever the comment says; otherwise the policy is that of the comment. -/
theorem C66_forced (o : Options) (previous eol name : Str) (ret : Option CppType) :
    fillPolicy o previous eol name ret =
      if ∃ t ∈ ret, (o.referenceForPointers name = true ∧ t.modifiers = [star]) ∨ (o.referenceForReferences name = true ∧ t.modifiers = [amp])
      then "reference".toList else (policyFromComments previous eol).getD [] := by
  unfold fillPolicy
  dsimp only
  cases ret with
  | none =>
    rw [if_neg (by simp), if_neg (by simp)]
  | some t =>
    by_cases h : (o.referenceForPointers name = true ∧ t.modifiers = [star]) ∨ (o.referenceForReferences name = true ∧ t.modifiers = [amp])
    · rw [if_pos (by simpa using h), if_pos ⟨t, rfl, h⟩]
    · rw [if_neg (by simpa using h), if_neg]
      rintro ⟨t', ht', h'⟩
      rw [← Option.some.inj ht'] at h'
      exact h h'

example : fillPolicy { demoO with referenceForPointers := fun _ => true } "rv_policy::copy".toList [] "f".toList
    (some { specifiers := [], typenames := ["Foo".toList], modifiers := [star] }) = "reference".toList := by decide +kernel

/-! ### C66: keep_alive and call_guard -/

theorem upToParens_spec (x after : Str) (hx : '(' ∉ x) : upToParens (x ++ ['(', ')'] ++ after) = some (x ++ ['(', ')']) := by
  induction x with
  | nil => rfl
  | cons c cs ih =>
    rw [List.cons_append, List.cons_append, upToParens]
    have hp : ¬ ['(', ')'].isPrefixOf (c :: (cs ++ ['(', ')'] ++ after)) = true := by
      rw [List.isPrefixOf_iff_prefix]
      rintro ⟨t, ht⟩
      have : '(' = c := (List.cons.inj ht).1
      exact hx (by rw [this]; simp)
    rw [if_neg hp, ih (fun h => hx (by simp [h]))]
    rfl

/-- Full statement: what is taken from a comment is a call policy, `py::keep_alive<...>()`. -/
def C66_keep_statement : Prop :=
  ∀ (o : Options) (f : Func) (s : Str), o.nanobind = false → keepAlive o f = some s → ∃ args, '(' ∉ args ∧ s = "py::keep_alive<".toList ++ args ++ ">()".toList

/-- The comment `py::keep_alive is needed, see reset()` gives a text that is not C++; of two policies only the first is kept. -/
theorem C66_keep_fails : ¬ C66_keep_statement ∧
    keepAlive demoO { demoF with previous := "py::keep_alive is needed, see reset()".toList } = some "py::keep_alive is needed, see reset()".toList ∧
    keepAlive demoO { demoF with previous := "py::keep_alive<1, 2>() py::keep_alive<1, 3>()".toList } = some "py::keep_alive<1, 2>()".toList := by
  have h1 : keepAlive demoO { demoF with previous := "py::keep_alive is needed, see reset()".toList } =
    some "py::keep_alive is needed, see reset()".toList := by decide +kernel
  refine ⟨fun h => ?_, h1, by decide +kernel⟩
  obtain ⟨args, _, ha⟩ := h _ _ _ (by rfl) h1
  have h2 : ("py::keep_alive is needed, see reset()".toList)[14]? = some ' ' := by decide +kernel
  rw [ha] at h2
  simp at h2

/-- A policy that is written in full is taken as it is. Missing: more than one policy, the token in another place. -/
theorem C66_keep_partial (o : Options) (f : Func) (before args after : Str) (hn : o.nanobind = false) (ha : '(' ∉ args)
    (hc : commentsAsStr f = before ++ ("py::keep_alive<".toList ++ args ++ ">()".toList) ++ after)
    (hfirst : ∀ b a, commentsAsStr f = b ++ "py::keep_alive".toList ++ a → before.length ≤ b.length)
    (hnb : contains ("py::keep_alive<".toList ++ args ++ ">()".toList) "nb::".toList = false) :
    keepAlive o f = some ("py::keep_alive<".toList ++ args ++ ">()".toList) := by
  have hx : '(' ∉ "<".toList ++ args ++ [('>' : Char)] := by simp [ha]
  have htok : '(' ∉ "py::keep_alive".toList := by decide +kernel
  have hup := upToParens_spec ("py::keep_alive".toList ++ ("<".toList ++ args ++ ['>'])) after
    (fun h => (List.mem_append.1 h).elim htok hx)
  have hlt : "py::keep_alive<".toList = "py::keep_alive".toList ++ "<".toList := by decide +kernel
  have hgt : ">()".toList = ['>'] ++ ['(', ')'] := by decide +kernel
  have hsame : "py::keep_alive".toList ++ ("<".toList ++ args ++ ['>']) ++ ['(', ')'] = "py::keep_alive<".toList ++ args ++ ">()".toList := by
    rw [hlt, hgt]
    simp only [List.append_assoc]
  have hfrom : fromToken "py::keep_alive".toList (commentsAsStr f) =
      some ("py::keep_alive".toList ++ ("<".toList ++ args ++ ['>'] ++ ['(', ')'] ++ after)) := by
    rw [fromToken_iff _ _ _ (by decide +kernel)]
    refine ⟨before, ?_, hfirst⟩
    rw [hc, ← hsame]
    simp only [List.append_assoc]
  have hcp : callPolicy (commentsAsStr f) "py::keep_alive".toList = some ("py::keep_alive<".toList ++ args ++ ">()".toList) := by
    unfold callPolicy
    rw [hfrom, Option.bind_some, ← hsame]
    rw [← hup]
    simp only [List.append_assoc]
  have htok2 : "py::".toList ++ "keep_alive".toList = "py::keep_alive".toList := by decide +kernel
  unfold keepAlive policyNamed
  rw [htok2, hcp]
  dsimp only
  rw [Option.map_some]
  refine congrArg some ?_
  unfold replaceLib
  rw [if_neg (by rw [hn]; exact Bool.false_ne_true)]
  exact replace_of_not_contains hnb

example : keepAlive demoO { demoF with previous := "see py::keep_alive<1, 2>() and reset()".toList } = some "py::keep_alive<1, 2>()".toList ∧
    contains "py::keep_alive<1, 2>()".toList "nb::".toList = false := by decide +kernel

/-! ### C67: the docstring -/

/-- Full statement: the lines of a docstring are one Python string. -/
def C67_statement : Prop := ∀ doc : Str, docstringLines doc ≠ [] → Verif.Fn.Spec.IsDocstring (unlines (docstringLines doc))

/-- Three quotes in a comment, or a backslash at its end. -/
theorem C67_fails : ¬ C67_statement ∧ docstringLines "Like \"\"\" in Python".toList = ["\"\"\"Like \"\"\" in Python\"\"\"".toList] ∧
    docstringLines "Ends with \\".toList = ["\"\"\"Ends with \\\"\"\"".toList] := by
  have key : ¬ Verif.Fn.Spec.IsDocstring (unlines (docstringLines "Ends with \\".toList)) := by
    rintro ⟨r, h1, h2⟩
    have e : r = "Ends with \\\"\"\"".toList := by
      have : unlines (docstringLines "Ends with \\".toList) = ['"', '"', '"'] ++ "Ends with \\\"\"\"".toList := by decide +kernel
      rw [this] at h1
      exact (List.append_cancel_left h1).symm
    rw [e] at h2
    revert h2
    decide +kernel
  exact ⟨fun h => key (h _ (by decide +kernel)), by decide +kernel, by decide +kernel⟩

theorem endOfDocstring_step (c : Char) (cs : Str) (h1 : c ≠ '\\') (h2 : ¬ ['"', '"', '"'] <+: c :: cs) :
    Verif.Fn.Spec.endOfDocstring (c :: cs) = Verif.Fn.Spec.endOfDocstring cs := by
  conv => lhs; unfold Verif.Fn.Spec.endOfDocstring
  split
  · rename_i h; cases h
  · rename_i h; exact absurd (List.cons.inj h).1 h1
  · rename_i h; exact absurd (List.cons.inj h).1 h1
  · rename_i r h; exact absurd ⟨r, by rw [h]; rfl⟩ h2
  · rename_i h; rw [(List.cons.inj h).2]

theorem docstringValue_step (c : Char) (cs : Str) (h1 : c ≠ '\\') (h2 : ¬ ['"', '"', '"'] <+: c :: cs) :
    Verif.Fn.Spec.docstringValue (c :: cs) = (Verif.Fn.Spec.docstringValue cs).map (c :: ·) := by
  conv => lhs; unfold Verif.Fn.Spec.docstringValue
  split
  · rename_i h; cases h
  · rename_i r h; exact absurd ⟨r, by rw [h]; rfl⟩ h2
  · rename_i h
    obtain ⟨e1, e2⟩ := List.cons.inj h
    rw [← e1, ← e2, if_neg h1]

/-- Three quotes do not begin before the end of a text that has none and does not end with a quote. -/
theorem no_quotes_before (c : Char) (cs : Str) (h : ¬ ['"', '"', '"'] <:+: c :: cs) (hl : (c :: cs).getLast? ≠ some '"') :
    ¬ ['"', '"', '"'] <+: c :: (cs ++ ['"', '"', '"']) := by
  rintro ⟨t, ht⟩
  have hc : '"' = c := (List.cons.inj ht).1
  have ht1 := (List.cons.inj ht).2
  match cs, h, hl, ht1 with
  | [], _, hl, _ => exact hl (by rw [← hc]; rfl)
  | [d], h, hl, ht1 =>
    have hd : '"' = d := (List.cons.inj ht1).1
    exact hl (by rw [← hd]; rfl)
  | d :: e :: r, h, hl, ht1 =>
    have hd : '"' = d := (List.cons.inj ht1).1
    have he : '"' = e := (List.cons.inj (List.cons.inj ht1).2).1
    exact h ⟨[], r, by rw [← hc, ← hd, ← he]; rfl⟩

theorem docstring_body (x : Str) (hb : '\\' ∉ x) (hq : ¬ ['"', '"', '"'] <:+: x) (hl : x.getLast? ≠ some '"') :
    Verif.Fn.Spec.endOfDocstring (x ++ ['"', '"', '"']) = some [] ∧ Verif.Fn.Spec.docstringValue (x ++ ['"', '"', '"']) = some x := by
  induction x with
  | nil => decide
  | cons c cs ih =>
    have hc : c ≠ '\\' := fun e => hb (by simp [e])
    have hn := no_quotes_before c cs hq hl
    have hih := ih (fun h => hb (by simp [h])) (fun h => hq (h.trans (List.suffix_cons c cs).isInfix))
      (by
        cases cs with
        | nil => simp
        | cons d ds => rw [List.getLast?_cons_cons] at hl; exact hl)
    rw [List.cons_append, endOfDocstring_step c _ hc hn, docstringValue_step c _ hc hn, hih.1, hih.2]
    exact ⟨rfl, rfl⟩

/-- The comment between its quotes: a space separates it from them when it begins or ends with a quote, and a comment of several lines ends with
a new line. -/
def docBody (doc : Str) : Str :=
  let d := (if doc.head? = some '"' then [' '] else []) ++ doc ++ (if doc.getLast? = some '"' then [' '] else [])
  if '\n' ∈ d then d ++ ['\n'] else d

theorem infix_append_left {x : Str} (h : ¬ ['"', '"', '"'] <:+: x) (c : Char) (hc : c ≠ '"') : ¬ ['"', '"', '"'] <:+: c :: x := by
  rw [List.infix_cons_iff]
  rintro (⟨t, ht⟩ | h')
  · exact hc (List.cons.inj ht).1.symm
  · exact h h'

theorem infix_append_right {x : Str} (h : ¬ ['"', '"', '"'] <:+: x) (c : Char) (hc : c ≠ '"') : ¬ ['"', '"', '"'] <:+: x ++ [c] := by
  rw [List.infix_concat_iff]
  rintro (h' | h')
  · obtain ⟨t, ht⟩ := h'
    have := congrArg List.getLast? ht
    simp at this
    exact hc this.symm
  · exact h h'

/-- The comment with its spaces. -/
def padded (doc : Str) : Str :=
  (if doc.head? = some '"' then [' '] else []) ++ doc ++ (if doc.getLast? = some '"' then [' '] else [])

theorem startsWith_quote (s : Str) : startsWith s ['"'] = true ↔ s.head? = some '"' := by
  unfold startsWith
  cases s with
  | nil => simp
  | cons c cs =>
    rw [List.isPrefixOf, List.isPrefixOf_nil_left, Bool.and_true, beq_iff_eq, List.head?_cons, Option.some_inj]
    exact eq_comm

theorem endsWith_quote (s : Str) : endsWith s ['"'] = true ↔ s.getLast? = some '"' := by
  unfold endsWith
  rw [List.isSuffixOf_iff_suffix, List.getLast?_eq_some_iff]
  constructor
  · rintro ⟨t, rfl⟩; exact ⟨t, rfl⟩
  · rintro ⟨t, rfl⟩; exact ⟨t, rfl⟩

theorem docstringLines_padded (doc : Str) : docstringLines doc =
    if padded doc = [] then []
    else match lines (padded doc) with
      | [] => []
      | [l] => [['"', '"', '"'] ++ l ++ ['"', '"', '"']]
      | l :: r => (['"', '"', '"'] ++ l) :: r ++ [['"', '"', '"']] := by
  have h1 : (if startsWith doc ['"'] = true then [' '] ++ doc else doc) = (if doc.head? = some '"' then [' '] else []) ++ doc := by
    by_cases h : doc.head? = some '"'
    · rw [if_pos ((startsWith_quote doc).2 h), if_pos h]
    · rw [if_neg (fun e => h ((startsWith_quote doc).1 e)), if_neg h, List.nil_append]
  have hlast : ((if doc.head? = some '"' then [' '] else []) ++ doc : Str).getLast? = some '"' ↔ doc.getLast? = some '"' := by
    cases doc with
    | nil => simp
    | cons c cs => rw [List.getLast?_append_of_ne_nil _ (by simp)]
  have h2 : (if endsWith ((if doc.head? = some '"' then [' '] else []) ++ doc) ['"'] = true then
      ((if doc.head? = some '"' then [' '] else []) ++ doc : Str) ++ [' '] else (if doc.head? = some '"' then [' '] else []) ++ doc) = padded doc := by
    unfold padded
    by_cases h : doc.getLast? = some '"'
    · rw [if_pos ((endsWith_quote _).2 (hlast.2 h)), if_pos h]
    · rw [if_neg (fun e => h (hlast.1 ((endsWith_quote _).1 e))), if_neg h, List.append_nil]
  unfold docstringLines
  dsimp only
  rw [h1, h2]
  split
  · rfl
  · rcases lines (padded doc) with _ | ⟨a, _ | ⟨b, c⟩⟩ <;> rfl

theorem docBody_padded (doc : Str) : docBody doc = if '\n' ∈ padded doc then padded doc ++ ['\n'] else padded doc := rfl

theorem unlines_docstring (doc : Str) (h : docstringLines doc ≠ []) :
    unlines (docstringLines doc) = ['"', '"', '"'] ++ (docBody doc ++ ['"', '"', '"']) := by
  rw [docstringLines_padded] at h ⊢
  rw [docBody_padded]
  have hne : padded doc ≠ [] := by
    intro e
    rw [if_pos e] at h
    exact h rfl
  rw [if_neg hne]
  have hu := unlines_lines (padded doc)
  have hno : ∀ l ∈ lines (padded doc), '\n' ∉ l := fun l hl => not_mem_of_mem_lines hl
  generalize hl : lines (padded doc) = ls at hu hno
  rw [← hu]
  match ls, hu, hno with
  | [], hu, _ => exact absurd hl (lines_ne_nil _)
  | [l], _, hno =>
    have hn : '\n' ∉ unlines [l] := hno l (by simp)
    rw [if_neg hn]
    show ['"', '"', '"'] ++ l ++ ['"', '"', '"'] = _
    rw [List.append_assoc]
    rfl
  | l :: m :: r, _, _ =>
    have e : unlines (l :: m :: r) = l ++ ['\n'] ++ unlines (m :: r) := join_cons_cons _ _ _ _
    have hm : '\n' ∈ unlines (l :: m :: r) := by rw [e]; simp
    rw [if_pos hm]
    dsimp only
    have key : ∀ (q : Str) (xs : List Str), xs ≠ [] → unlines (xs ++ [q]) = unlines xs ++ ['\n'] ++ q := by
      intro q xs
      induction xs with
      | nil => intro h; exact absurd rfl h
      | cons x xs ih =>
        intro _
        cases xs with
        | nil => rfl
        | cons y ys =>
          have e1 : unlines (x :: (y :: ys ++ [q])) = x ++ ['\n'] ++ unlines (y :: ys ++ [q]) := join_cons_cons _ _ _ _
          have e2 : unlines (x :: y :: ys) = x ++ ['\n'] ++ unlines (y :: ys) := join_cons_cons _ _ _ _
          rw [List.cons_append, e1, ih (by simp), e2]
          simp only [List.append_assoc]
    have e3 : unlines ((['"', '"', '"'] ++ l) :: m :: r) = ['"', '"', '"'] ++ unlines (l :: m :: r) := by
      have : unlines ((['"', '"', '"'] ++ l) :: m :: r) = (['"', '"', '"'] ++ l) ++ ['\n'] ++ unlines (m :: r) := join_cons_cons _ _ _ _
      rw [this, e]
      simp only [List.append_assoc]
    have e4 := key ['"', '"', '"'] ((['"', '"', '"'] ++ l) :: m :: r) (by simp)
    rw [e3] at e4
    rw [List.cons_append] at e4 ⊢
    rw [e4]
    simp only [List.append_assoc]

/-- The docstring is a Python string whose value is the comment, up to spaces and a new line at its ends, for a comment without three quotes and
without a backslash. -/
theorem C67_partial (doc : Str) (hd : docstringLines doc ≠ []) (hb : '\\' ∉ doc) (hq : ¬ ['"', '"', '"'] <:+: doc) :
    Verif.Fn.Spec.IsDocstring (unlines (docstringLines doc)) ∧
    ∃ r, unlines (docstringLines doc) = ['"', '"', '"'] ++ r ∧ Verif.Fn.Spec.docstringValue r = some (docBody doc) := by
  have hu := unlines_docstring doc hd
  have hbody : '\\' ∉ docBody doc ∧ ¬ ['"', '"', '"'] <:+: docBody doc ∧ (docBody doc).getLast? ≠ some '"' := by
    rw [docBody_padded]
    have hp : '\\' ∉ padded doc ∧ ¬ ['"', '"', '"'] <:+: padded doc ∧ (padded doc).getLast? ≠ some '"' := by
      unfold padded
      have hpre : '\\' ∉ (if doc.head? = some '"' then [' '] else []) ++ doc ∧
          ¬ ['"', '"', '"'] <:+: ((if doc.head? = some '"' then [' '] else []) ++ doc : Str) := by
        split
        · exact ⟨by simp [hb], infix_append_left hq ' ' (by decide)⟩
        · exact ⟨by simpa using hb, hq⟩
      by_cases hl : doc.getLast? = some '"'
      · rw [if_pos hl]
        exact ⟨by simpa using hpre.1, infix_append_right hpre.2 ' ' (by decide), by simp⟩
      · rw [if_neg hl, List.append_nil]
        refine ⟨hpre.1, hpre.2, ?_⟩
        cases doc with
        | nil => simp
        | cons c cs =>
          rw [List.getLast?_append_of_ne_nil _ (by simp)]
          exact hl
    split
    · exact ⟨by simpa using hp.1, infix_append_right hp.2.1 '\n' (by decide), by simp⟩
    · exact hp
  obtain ⟨h1, h2⟩ := docstring_body (docBody doc) hbody.1 hbody.2.1 hbody.2.2
  exact ⟨⟨_, hu, h1⟩, _, hu, h2⟩

/-- two lines, the second ends with a quote -/
example : docBody "Adds \"a\"\nand \"b\"".toList = "Adds \"a\"\nand \"b\" \n".toList ∧
    docstringLines "Adds \"a\"\nand \"b\"".toList = ["\"\"\"Adds \"a\"".toList, "and \"b\" ".toList, "\"\"\"".toList] ∧
    '\\' ∉ "Adds \"a\"\nand \"b\"".toList := by decide +kernel

end Verif.Fn.Props
