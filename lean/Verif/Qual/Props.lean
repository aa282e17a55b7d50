import Verif.Qual.Lemmas
import Verif.Inst.Model

/-! C89: the qualified and terse forms of functions. -/

namespace Verif.Qual.Props
open Verif.Py Verif.Type Verif.Qual Spec

/-- The function has not been qualified yet. -/
structure Fresh (f : Func) : Prop where
  fn : f.qualified = []
  params : ∀ d ∈ f.params, d.cache = none

theorem fresh_ok {e : Env} {S : List Scope.CppScope} {f : Func} (h : Fresh f) : FnOk e S f := by
  refine ⟨fun d hd => ?_, fun k r hk => ?_⟩
  · unfold DeclOk
    rw [h.params d hd]
    trivial
  · rw [h.fn] at hk
    cases hk

theorem agree_one (e : Env) (s : Scope.CppScope) (p : ParamText) : Agree e [s] p := by
  intro s1 h1 s2 h2
  rw [List.mem_singleton.1 h1, List.mem_singleton.1 h2]

theorem inj_one (s : Scope.CppScope) : ∀ s1 ∈ [s], ∀ s2 ∈ [s], Scope.strCpp s1 = Scope.strCpp s2 → s1 = s2 := by
  intro s1 h1 s2 h2 _
  rw [List.mem_singleton.1 h1, List.mem_singleton.1 h2]

/-- All the names of the types and of the values are qualified, `void` is not a parameter, and nothing else changes; the function keeps its own text. -/
theorem C89_fresh (e : Env) (s : Scope.CppScope) (f : Func) (h : Fresh f) :
    showFn (result (qualifyFn e s f)) = (showFn f).noVoid.map (e.qualify s) ∧ showFn (qualifyFn e s f).1 = showFn f := by
  obtain ⟨h1, _, h3⟩ := qualifyFn_ok (inj_one s) (List.mem_singleton.2 rfl) (fresh_ok (e := e) h) (fun d _ => agree_one e s _)
  exact ⟨h3, h1⟩

/-! ### Several scopes -/

/-- The results of successive calls. -/
def calls (e : Env) : List Scope.CppScope → Func → List Func
  | [], _ => []
  | s :: l, f => result (qualifyFn e s f) :: calls e l (qualifyFn e s f).1

/-- The full statement: each call gives the form qualified in its scope. -/
def C89_history_statement : Prop := ∀ (e : Env) (scopes : List Scope.CppScope) (f : Func), (∀ s ∈ scopes, Scope.Spec.Path s) → Fresh f →
  (calls e scopes f).map showFn = scopes.map (fun s => (showFn f).noVoid.map (e.qualify s))

/-- The two scopes `A` and `B` have a type `T`: `void f(T x)`. -/
def twoScopes : Env := ⟨fun _ => false, ["A".toList, "A::T".toList, "B".toList, "B::T".toList]⟩

def param (t n : String) : Decl := .mk ⟨[], [t.toList], []⟩ n.toList [] [] none
def fn (r : String) (ps : List Decl) : Func := .mk (some ⟨[], [r.toList], []⟩) ps [] []

theorem path1 (s : String) (h1 : s.toList ≠ []) (h2 : ':' ∉ s.toList) : Scope.Spec.Path [s.toList] := by
  intro n hn
  rw [List.mem_singleton.1 hn]
  exact ⟨h1, h2⟩

/-- It fails: the declaration of a parameter keeps its first qualified form, whatever the scope: `A::T x` for the scope `B`. -/
theorem C89_history_fails : ¬ C89_history_statement := by
  intro h
  have := h twoScopes [["A".toList], ["B".toList]] (fn "void" [param "T" "x"]) (fun s hs => by
    rcases List.mem_cons.1 hs with rfl | hs
    · exact path1 "A" (by decide) (by decide)
    · rw [List.mem_singleton.1 hs]
      exact path1 "B" (by decide) (by decide)) ⟨rfl, fun d hd => (by rw [List.mem_singleton.1 hd]; rfl)⟩
  revert this
  decide +kernel

theorem calls_ok {e : Env} {S : List Scope.CppScope} (hS : ∀ s ∈ S, Scope.Spec.Path s) : ∀ (l : List Scope.CppScope) (f : Func), (∀ s ∈ l, s ∈ S) →
    FnOk e S f → (∀ p ∈ (showFn f).params, Agree e S p) → (calls e l f).map showFn = l.map (fun s => QF e s (showFn f))
  | [], _, _, _, _ => rfl
  | s :: l, f, hl, hf, ha => by
    have ha' : ∀ d ∈ f.params, Agree e S (showDecl d) := fun d hd => ha _ (List.mem_map.2 ⟨d, hd, rfl⟩)
    obtain ⟨h1, h2, h3⟩ := qualifyFn_ok (fun s hs s' hs' => strCpp_inj (hS s hs) (hS s' hs')) (hl s (by simp)) hf ha'
    have ih := calls_ok hS l (qualifyFn e s f).1 (fun s hs => hl s (List.mem_cons_of_mem _ hs)) h2 (by rw [h1]; exact ha)
    show showFn _ :: List.map _ (calls e l _) = _ :: List.map _ l
    rw [ih, h1, h3]

/-- It holds when the parameters are the same in all the scopes; the type of the result may differ. In particular for any number of calls in one scope. -/
theorem C89_history_partial (e : Env) (scopes : List Scope.CppScope) (f : Func) (hs : ∀ s ∈ scopes, Scope.Spec.Path s) (hf : Fresh f)
    (ha : ∀ s ∈ scopes, ∀ s' ∈ scopes, ∀ p ∈ (showFn f).params, p.map (e.qualify s) = p.map (e.qualify s')) :
    (calls e scopes f).map showFn = scopes.map (fun s => (showFn f).noVoid.map (e.qualify s)) :=
  calls_ok hs scopes f (fun _ h => h) (fresh_ok hf) (fun p hp s h s' h' => ha s h s' h' p hp)

example : (calls twoScopes [["A".toList], ["B".toList], ["A".toList]] (fn "T" [param "int" "x"])).map showFn =
    [⟨some ⟨[], "A::T".toList, []⟩, [⟨⟨[], "int".toList, []⟩, "x".toList, [], []⟩]⟩,
     ⟨some ⟨[], "B::T".toList, []⟩, [⟨⟨[], "int".toList, []⟩, "x".toList, [], []⟩]⟩,
     ⟨some ⟨[], "A::T".toList, []⟩, [⟨⟨[], "int".toList, []⟩, "x".toList, [], []⟩]⟩] := by decide +kernel

example : ∀ s ∈ [["A".toList], ["B".toList], ["A".toList]], ∀ s' ∈ [["A".toList], ["B".toList], ["A".toList]],
    ∀ p ∈ (showFn (fn "T" [param "int" "x"])).params, p.map (twoScopes.qualify s) = p.map (twoScopes.qualify s') := by decide +kernel

/-! ### Instances of templates -/

/-- The full statement: the method of an instance is the method of the template with the types in the place of the parameters, qualified. -/
def C89_instance_statement : Prop := ∀ (e : Env) (s : Scope.CppScope) (spec : CppType → Option CppType) (f : Func), Scope.Spec.Path s → Fresh f →
  showFn (instanceMethod e s spec f) = (showFn (specFn spec f)).noVoid.map (e.qualify s)

/-- The same for functions: the instance of the qualified function, qualified. -/
def C89_instance_function_statement : Prop := ∀ (e : Env) (s : Scope.CppScope) (spec : CppType → Option CppType) (f : Func), Scope.Spec.Path s → Fresh f →
  showFn (instanceFunction e s spec f) = (showFn (specFn spec f)).noVoid.map (e.qualify s)

/-- `CppType.with_specialized_template` of the parameter `T`. -/
def specT (t : String) (x : CppType) : Option CppType :=
  match Inst.specType (fun _ => false) [⟨⟨[], [t.toList], []⟩, "T".toList⟩] x with
  | .changed y => some y
  | _ => none

/-- `namespace N { enum class Mode; struct Foo; template<class T> struct Stack { void push(T value, Mode mode); }; }` -/
def stack : Env := ⟨fun _ => false, ["N".toList, "N::Mode".toList, "N::Foo".toList, "N::Stack".toList, "N::Stack::push".toList]⟩

def scopeStack : Scope.CppScope := ["N".toList, "Stack".toList]

theorem path2 : Scope.Spec.Path scopeStack := by
  intro n hn
  rcases List.mem_cons.1 hn with rfl | hn
  · exact ⟨by decide, by decide⟩
  · rw [List.mem_singleton.1 hn]
    exact ⟨by decide, by decide⟩

theorem fresh_fn (r : String) (a b : Decl) (h1 : a.cache = none) (h2 : b.cache = none) : Fresh (fn r [a, b]) := by
  refine ⟨rfl, fun d hd => ?_⟩
  rcases List.mem_cons.1 hd with rfl | hd
  · exact h1
  · rw [List.mem_singleton.1 hd]
    exact h2

/-- It fails: `push` of `Stack<int>` is `void push(T value, N::Mode mode)`, since the method of the template was qualified before, and the instance has a copy
of the cache. -/
theorem C89_instance_fails : ¬ C89_instance_statement ∧
    showFn (instanceMethod stack scopeStack (specT "int") (fn "void" [param "T" "value", param "Mode" "mode"])) =
      ⟨some ⟨[], "void".toList, []⟩, [⟨⟨[], "T".toList, []⟩, "value".toList, [], []⟩, ⟨⟨[], "N::Mode".toList, []⟩, "mode".toList, [], []⟩]⟩ := by
  refine ⟨fun h => ?_, by decide +kernel⟩
  have := h stack scopeStack (specT "int") (fn "void" [param "T" "value", param "Mode" "mode"]) path2 (fresh_fn _ _ _ rfl rfl)
  revert this
  decide +kernel

/-- It fails for functions: `T make(T value, Mode mode)` for `T = Foo` is `N::Foo make(Foo value, N::Mode mode)`. -/
theorem C89_instance_function_fails : ¬ C89_instance_function_statement ∧
    showFn (instanceFunction stack ["N".toList] (specT "Foo") (fn "T" [param "T" "value", param "Mode" "mode"])) =
      ⟨some ⟨[], "N::Foo".toList, []⟩, [⟨⟨[], "Foo".toList, []⟩, "value".toList, [], []⟩, ⟨⟨[], "N::Mode".toList, []⟩, "mode".toList, [], []⟩]⟩ := by
  refine ⟨fun h => ?_, by decide +kernel⟩
  have := h stack ["N".toList] (specT "Foo") (fn "T" [param "T" "value", param "Mode" "mode"]) (path1 "N" (by decide) (by decide))
    (fresh_fn _ _ _ rfl rfl)
  revert this
  decide +kernel

/-- A function that has no cache: what is in the caches after its qualification. -/
theorem fresh_step {e : Env} {s : Scope.CppScope} {f : Func} (h : Fresh f) :
    (qualifyFn e s f).1 = .mk f.ret (qualifyParams e s f.params).1 [(Scope.strCpp s, (qualifyFn e s f).2)] f.terse ∧
    ((qualifyFn e s f).2 = none ∧ (f.ret.bind (qualifyType e s)).isSome = false ∧ (qualifyParams e s f.params).2 = none ∨
      ((f.ret.bind (qualifyType e s)).isSome ∨ (qualifyParams e s f.params).2.isSome) ∧
      (qualifyFn e s f).2 = some (Func.mk (if (f.ret.bind (qualifyType e s)).isSome then f.ret.bind (qualifyType e s) else f.ret)
            ((qualifyParams e s f.params).2.getD (qualifyParams e s f.params).1) [] f.terse)) := by
  have hc : find (Scope.strCpp s) f.qualified = none := by rw [h.fn]; rfl
  by_cases hch : ((f.ret.bind (qualifyType e s)).isSome || (qualifyParams e s f.params).2.isSome) = true
  · have he : qualifyFn e s f = (.mk f.ret (qualifyParams e s f.params).1 ((Scope.strCpp s,
        some (Func.mk (if (f.ret.bind (qualifyType e s)).isSome then f.ret.bind (qualifyType e s) else f.ret)
          ((qualifyParams e s f.params).2.getD (qualifyParams e s f.params).1) f.qualified f.terse)) :: f.qualified) f.terse,
        some (Func.mk (if (f.ret.bind (qualifyType e s)).isSome then f.ret.bind (qualifyType e s) else f.ret)
          ((qualifyParams e s f.params).2.getD (qualifyParams e s f.params).1) f.qualified f.terse)) := by
      unfold qualifyFn
      rw [hc]
      simp only [hch, if_true]
    rw [he, h.fn]
    exact ⟨rfl, .inr ⟨Bool.or_eq_true _ _ ▸ hch, rfl⟩⟩
  · have he : qualifyFn e s f = (.mk f.ret (qualifyParams e s f.params).1 ((Scope.strCpp s, none) :: f.qualified) f.terse, none) := by
      unfold qualifyFn
      rw [hc]
      simp only [hch]
      rfl
    rw [he, h.fn]
    rw [Bool.not_eq_true, Bool.or_eq_false_iff] at hch
    refine ⟨rfl, .inl ⟨rfl, hch.1, ?_⟩⟩
    cases hp : (qualifyParams e s f.params).2 with
    | none => rfl
    | some x => rw [hp] at hch; cases hch.2

/-- The caches after the qualification of a function. -/
theorem result_caches {e : Env} {s : Scope.CppScope} {f : Func} (h : Fresh f) :
    (∀ d ∈ (result (qualifyFn e s f)).params, d.cache = none ∨ d.cache = some none) ∧
    ∀ k r, find k (result (qualifyFn e s f)).qualified = some r → k = Scope.strCpp s ∧ r = none := by
  obtain ⟨h1, h2⟩ := fresh_step (e := e) (s := s) h
  obtain ⟨_, hp⟩ := params_fresh (e := e) (s := s) h.params
  rcases h2 with ⟨h2, _, h4⟩ | ⟨_, h2⟩
  · have he : result (qualifyFn e s f) = .mk f.ret (qualifyParams e s f.params).1 [(Scope.strCpp s, none)] f.terse := by
      unfold result
      rw [h2, Option.getD_none, h1, h2]
    rw [he]
    rw [h4] at hp
    refine ⟨hp, fun k r hk => ?_⟩
    have hk : (if Scope.strCpp s = k then some none else none) = some r := hk
    split at hk
    · next hks => exact ⟨hks.symm, (Option.some.inj hk).symm⟩
    · cases hk
  · have he : result (qualifyFn e s f) = Func.mk (if (f.ret.bind (qualifyType e s)).isSome then f.ret.bind (qualifyType e s) else f.ret)
            ((qualifyParams e s f.params).2.getD (qualifyParams e s f.params).1) [] f.terse := by
      unfold result
      rw [h2, Option.getD_some]
    rw [he]
    exact ⟨hp, fun k r hk => (by cases hk)⟩

/-- When the qualification of a function changes nothing, the same is true of its parameters. -/
theorem QF_params {e : Env} {s : Scope.CppScope} {f : Sig} (h : QF e s f = f) : ∀ p ∈ f.params, Q e s p = p := by
  have hp : f.noVoid.params.map (Q e s) = f.params := congrArg Sig.params h
  by_cases hv : f.noVoid = f
  · rw [hv] at hp
    intro p hpm
    have : f.params.map (Q e s) = f.params.map id := by rw [hp, List.map_id]
    exact List.map_inj_left.1 this p hpm
  · have hn : f.noVoid.params = [] := by
      unfold Sig.noVoid at hv ⊢
      split
      · rfl
      · next hc => rw [if_neg hc] at hv; exact absurd rfl hv
    rw [hn] at hp
    intro p hpm
    rw [← hp] at hpm
    cases hpm

/-- The instance of a function is the qualified function with the types in the place of the parameters, when these types need no qualification. -/
theorem C89_instance_function_partial (e : Env) (s : Scope.CppScope) (spec : CppType → Option CppType) (f : Func) (h : Fresh f)
    (hq : (showFn (specFn spec (result (qualifyFn e s f)))).noVoid.map (e.qualify s) = showFn (specFn spec (result (qualifyFn e s f)))) :
    showFn (instanceFunction e s spec f) = showFn (specFn spec (result (qualifyFn e s f))) := by
  have hq : QF e s _ = _ := hq
  obtain ⟨h1, h2⟩ := result_caches (e := e) (s := s) h
  have hok : FnOk e [s] (specFn spec (result (qualifyFn e s f))) := by
    refine ⟨fun d hd => ?_, fun k r hk => ?_⟩
    · have hqd := QF_params hq (showDecl d) (List.mem_map.2 ⟨d, hd, rfl⟩)
      obtain ⟨d', hd', rfl⟩ := List.mem_map.1 hd
      unfold DeclOk
      rw [specDecl_cache]
      rcases h1 d' hd' with h' | h'
      · rw [h']; trivial
      · rw [h']
        intro s' hs'
        rw [List.mem_singleton.1 hs']
        exact hqd
    · obtain ⟨rfl, rfl⟩ := h2 k r hk
      exact ⟨s, List.mem_singleton.2 rfl, rfl, hq.symm⟩
  exact ((qualifyFn_ok (inj_one s) (List.mem_singleton.2 rfl) hok (fun d _ => agree_one e s _)).2.2).trans hq

example : showFn (instanceFunction stack ["N".toList] (specT "int") (fn "T" [param "T" "value", param "Mode" "mode"])) =
      ⟨some ⟨[], "int".toList, []⟩, [⟨⟨[], "int".toList, []⟩, "value".toList, [], []⟩, ⟨⟨[], "N::Mode".toList, []⟩, "mode".toList, [], []⟩]⟩ ∧
    (showFn (specFn (specT "int") (result (qualifyFn stack ["N".toList] (fn "T" [param "T" "value", param "Mode" "mode"]))))).noVoid.map
        (stack.qualify ["N".toList]) =
      showFn (specFn (specT "int") (result (qualifyFn stack ["N".toList] (fn "T" [param "T" "value", param "Mode" "mode"])))) := by decide +kernel

theorem unchanged {e : Env} {s : Scope.CppScope} {f : Func} (h : Fresh f) (hq : QF e s (showFn f) = showFn f) : (qualifyFn e s f).2 = none := by
  obtain ⟨_, h2⟩ := fresh_step (e := e) (s := s) h
  rcases h2 with ⟨h2, _⟩ | ⟨h2, _⟩
  · exact h2
  exfalso
  rcases h2 with h2 | h2
  · cases hr : f.ret with
    | none => rw [hr] at h2; cases h2
    | some t =>
      rw [hr] at h2
      have hret : (f.ret.map showType).map (TypeText.map (e.qualify s)) = f.ret.map showType := by
        have := congrArg Sig.ret hq
        rw [← noVoid_ret (showFn f)] at this
        have this : (showFn f).noVoid.ret.map _ = _ := this
        rw [noVoid_ret] at this
        exact this
      rw [hr] at hret
      have hw : e.qualify s (typeText t) = typeText t := congrArg TypeText.words (Option.some.inj hret)
      have h2 : (qualifyType e s t).isSome := h2
      unfold qualifyType at h2
      split at h2
      · cases h2
      · simp only at h2
        rw [if_neg (fun h => h hw)] at h2
        cases h2
  · have hps := QF_params hq
    by_cases hv : ∃ p, f.params = [p] ∧ Adapt.isVoidType p.type = true
    · obtain ⟨p, hp, hp'⟩ := hv
      have := congrArg Sig.params hq
      have hn : (showFn f).noVoid.params = [] := by
        unfold Sig.noVoid
        have hs : (showFn f).params = [showDecl p] := by show f.params.map showDecl = _; rw [hp]; rfl
        rw [if_pos ⟨by rw [hs]; rfl, by rw [hs]; simpa using (void_iff p).1 hp'⟩]
      have this : (showFn f).noVoid.params.map (Q e s) = f.params.map showDecl := this
      rw [hn, hp] at this
      cases this
    · have hv' : ∀ p, f.params ≠ [p] ∨ Adapt.isVoidType p.type = false := by
        intro p
        by_cases h : f.params = [p]
        · right
          cases h' : Adapt.isVoidType p.type with
          | false => rfl
          | true => exact absurd ⟨p, h, h'⟩ hv
        · exact .inl h
      rw [qualifyParams_eq e s f.params hv'] at h2
      simp only at h2
      split at h2
      · next ha =>
        obtain ⟨r, hr, hr'⟩ := List.any_eq_true.1 ha
        obtain ⟨d, hd, rfl⟩ := List.mem_map.1 hr
        obtain ⟨n, hn⟩ := Option.isSome_iff_exists.1 hr'
        exact ((qualifyDecl_fresh (h.params d hd)).2.1 n hn).2.2 (hps _ (List.mem_map.2 ⟨d, hd, rfl⟩))
      · cases h2

/-- The method of an instance is right when neither the method of the template nor that of the instance need any qualification. -/
theorem C89_instance_partial (e : Env) (s : Scope.CppScope) (spec : CppType → Option CppType) (f : Func) (h : Fresh f)
    (hq : (showFn f).noVoid.map (e.qualify s) = showFn f)
    (hq' : (showFn (specFn spec f)).noVoid.map (e.qualify s) = showFn (specFn spec f)) :
    showFn (instanceMethod e s spec f) = (showFn (specFn spec f)).noVoid.map (e.qualify s) := by
  have hn := unchanged h hq
  obtain ⟨h1, _⟩ := fresh_step (e := e) (s := s) h
  obtain ⟨⟨cs, h3, h4⟩, _⟩ := params_fresh (e := e) (s := s) h.params
  rw [hq']
  have hfind : find (Scope.strCpp s) (specFn spec (qualifyFn e s f).1).qualified = some none := by
    rw [h1, hn]
    show (if Scope.strCpp s = Scope.strCpp s then _ else _) = _
    rw [if_pos rfl]
  have he : qualifyFn e s (specFn spec (qualifyFn e s f).1) = (specFn spec (qualifyFn e s f).1, none) := by
    unfold qualifyFn at hfind ⊢
    rw [hfind]
  unfold instanceMethod
  rw [he]
  show showFn (specFn spec (qualifyFn e s f).1) = _
  rw [h1]
  show Sig.mk _ (((qualifyParams e s f.params).1.map (specDecl spec)).map showDecl) = Sig.mk _ ((f.params.map (specDecl spec)).map showDecl)
  rw [h3, zip_show spec cs f.params h4]
  rfl

example : showFn (instanceMethod stack scopeStack (specT "int") (fn "void" [param "T" "value", param "bool" "now"])) =
      ⟨some ⟨[], "void".toList, []⟩, [⟨⟨[], "int".toList, []⟩, "value".toList, [], []⟩, ⟨⟨[], "bool".toList, []⟩, "now".toList, [], []⟩]⟩ ∧
    (showFn (fn "void" [param "T" "value", param "bool" "now"])).noVoid.map (stack.qualify scopeStack) =
      showFn (fn "void" [param "T" "value", param "bool" "now"]) ∧
    (showFn (specFn (specT "int") (fn "void" [param "T" "value", param "bool" "now"]))).noVoid.map (stack.qualify scopeStack) =
      showFn (specFn (specT "int") (fn "void" [param "T" "value", param "bool" "now"])) := by decide +kernel

/-! ### Terse forms -/

/-- The terse form of a name of a type: it is qualified in the scope of the function, then the given scope is removed. -/
def terseWords (e : Env) (own scope : Scope.CppScope) (w : Str) : Str := Scope.makeTerseCode e.u (e.qualify own w) (Scope.strCppPrefix scope)

/-- The values are not qualified. -/
def terseParam (e : Env) (own scope : Scope.CppScope) (p : ParamText) : ParamText :=
  { p with type := p.type.map (terseWords e own scope), value := Scope.makeTerseCode e.u p.value (Scope.strCppPrefix scope) }

def terseSig (e : Env) (own scope : Scope.CppScope) (f : Sig) : Sig :=
  ⟨f.ret.map (TypeText.map (terseWords e own scope)), f.params.map (terseParam e own scope)⟩

/-- The scope in which a function is shortened: for a method, that of its class, without the class. -/
def shortScope (cls : Option Str) (scope : Scope.CppScope) : Scope.CppScope :=
  if ∃ c, cls = some c ∧ scope.getLast? = some c then scope.dropLast else scope

theorem terseScope_eq (cls : Option Str) (scope : Scope.CppScope) : terseScope cls scope = shortScope cls scope := by
  unfold terseScope shortScope
  cases cls with
  | none => rw [if_neg]; rintro ⟨c, h, _⟩; cases h
  | some c =>
    cases hl : scope.getLast? with
    | none => rw [if_neg]; rintro ⟨c', _, h⟩; cases h
    | some l =>
      by_cases hlc : l = c
      · rw [if_pos ⟨c, rfl, by rw [hlc]⟩]
        exact if_pos hlc
      · rw [if_neg]
        · exact if_neg hlc
        · rintro ⟨c', h1, h2⟩
          exact hlc ((Option.some.inj h2).trans (Option.some.inj h1).symm)

theorem terseType_show (e : Env) (own scope : Scope.CppScope) (t : CppType) :
    showType ((terseType e own scope t).getD t) = (showType t).map (terseWords e own scope) := by
  have hw : typeText ((qualifyType e own t).getD t) = e.qualify own (typeText t) := congrArg TypeText.words (qualifyType_show e own t)
  unfold terseType
  simp only
  rw [hw]
  split
  · exact congrArg (fun w => TypeText.mk t.specifiers w t.modifiers) (join_split _)
  · next h => exact congrArg (fun w => TypeText.mk t.specifiers w t.modifiers) (Classical.byContradiction h).symm

theorem terseDecl_show (e : Env) (own scope : Scope.CppScope) (d : Decl) :
    showDecl ((terseDecl e own scope d).getD d) = terseParam e own scope (showDecl d) := by
  unfold terseDecl
  simp only
  split
  · rw [Option.getD_some, showDecl_new, terseType_show]
    rfl
  · next h =>
    rw [Bool.or_eq_true, decide_eq_true_iff] at h
    have h1 : terseType e own scope d.type = none := by
      cases h' : terseType e own scope d.type with
      | none => rfl
      | some t => exact absurd (.inl (by rw [h']; rfl)) h
    have h2 : Scope.makeTerseCode e.u d.value (Scope.strCppPrefix scope) = d.value := Classical.byContradiction (fun h' => h (.inr h'))
    have h3 := terseType_show e own scope d.type
    rw [h1] at h3
    show ParamText.mk _ _ _ _ = ParamText.mk _ _ _ _
    rw [show (showDecl d).type.map (terseWords e own scope) = showType d.type from h3.symm]
    rw [show Scope.makeTerseCode e.u (showDecl d).value (Scope.strCppPrefix scope) = d.value from h2]
    rfl

theorem terseParams_show (e : Env) (own scope : Scope.CppScope) (ps : List Decl) :
    ((terseParams e own scope ps).getD ps).map showDecl = (ps.map showDecl).map (terseParam e own scope) := by
  have key : (ps.map (fun p => (terseDecl e own scope p).getD p)).map showDecl = (ps.map showDecl).map (terseParam e own scope) := by
    rw [List.map_map, List.map_map]
    exact List.map_congr_left (fun d _ => terseDecl_show e own scope d)
  rw [← key]
  unfold terseParams
  simp only
  split
  · rw [Option.getD_some, List.map_map, List.map_map, List.map_map]
    rfl
  · next h =>
    rw [Option.getD_none]
    congr 1
    refine (List.map_id ps).symm.trans (List.map_congr_left (fun d hd => ?_))
    refine (getD_none _ ?_).symm
    cases hx : (terseDecl e own scope d).isSome with
    | false => rfl
    | true => exact absurd (List.any_eq_true.2 ⟨(d, terseDecl e own scope d), List.mem_map.2 ⟨d, hd, rfl⟩, hx⟩) h

/-- The entries of the cache of terse forms are the form for the scope. -/
def TerseOk (e : Env) (own : Scope.CppScope) (cls : Option Str) (scope : Scope.CppScope) (f : Func) : Prop :=
  ∀ k r, find k f.terse = some r → showFn (r.getD f) = terseSig e own (shortScope cls scope) (showFn f)

theorem terseFn_ok {e : Env} {own scope : Scope.CppScope} {cls : Option Str} {f : Func} (h : TerseOk e own cls scope f) :
    showFn (result (terseFn e own cls scope f)) = terseSig e own (shortScope cls scope) (showFn f) ∧
      showFn (terseFn e own cls scope f).1 = showFn f ∧ TerseOk e own cls scope (terseFn e own cls scope f).1 := by
  cases hc : find (Scope.strCpp scope) f.terse with
  | some r =>
    have he : terseFn e own cls scope f = (f, r) := by unfold terseFn; rw [hc]
    rw [he]
    exact ⟨h _ _ hc, rfl, h⟩
  | none =>
    have hret : ((if (f.ret.bind (terseType e own (shortScope cls scope))).isSome then f.ret.bind (terseType e own (shortScope cls scope)) else f.ret)).map showType =
        (f.ret.map showType).map (TypeText.map (terseWords e own (shortScope cls scope))) := by
      cases f.ret with
      | none => rfl
      | some t =>
        have := terseType_show e own (shortScope cls scope) t
        rw [Option.bind_some]
        cases h : terseType e own (shortScope cls scope) t with
        | none => rw [h] at this; exact congrArg some this
        | some t' => rw [h] at this; exact congrArg some this
    have hpar := terseParams_show e own (shortScope cls scope) f.params
    have hnew : ∀ q t, showFn (Func.mk (if (f.ret.bind (terseType e own (shortScope cls scope))).isSome then
        f.ret.bind (terseType e own (shortScope cls scope)) else f.ret)
        ((terseParams e own (shortScope cls scope) f.params).getD f.params) q t) = terseSig e own (shortScope cls scope) (showFn f) := by
      intro q t
      show Sig.mk (Option.map showType (if _ then _ else _)) (List.map showDecl (Option.getD _ _)) = Sig.mk _ _
      rw [hret, hpar]
      rfl
    by_cases hch : ((f.ret.bind (terseType e own (shortScope cls scope))).isSome || (terseParams e own (shortScope cls scope) f.params).isSome) = true
    · have he : terseFn e own cls scope f = (.mk f.ret f.params f.qualified ((Scope.strCpp (shortScope cls scope),
          some (Func.mk (if (f.ret.bind (terseType e own (shortScope cls scope))).isSome then
            f.ret.bind (terseType e own (shortScope cls scope)) else f.ret)
            ((terseParams e own (shortScope cls scope) f.params).getD f.params) f.qualified f.terse)) :: f.terse),
          some (Func.mk (if (f.ret.bind (terseType e own (shortScope cls scope))).isSome then
            f.ret.bind (terseType e own (shortScope cls scope)) else f.ret)
            ((terseParams e own (shortScope cls scope) f.params).getD f.params) f.qualified f.terse)) := by
        unfold terseFn
        rw [hc]
        simp only [terseScope_eq, hch, if_true]
      rw [he]
      refine ⟨hnew _ _, rfl, fun k r hk => ?_⟩
      have hk : (if Scope.strCpp (shortScope cls scope) = k then _ else find k f.terse) = some r := hk
      split at hk
      · rw [← Option.some.inj hk]
        exact hnew _ _
      · have := h k r hk
        cases r with
        | none => exact this
        | some x => exact this
    · have he : terseFn e own cls scope f = (.mk f.ret f.params f.qualified ((Scope.strCpp (shortScope cls scope), none) :: f.terse), none) := by
        unfold terseFn
        rw [hc]
        simp only [terseScope_eq, hch]
        rfl
      rw [Bool.not_eq_true, Bool.or_eq_false_iff] at hch
      have hsame : showFn f = terseSig e own (shortScope cls scope) (showFn f) := by
        rw [hch.1] at hret
        rw [getD_none _ hch.2] at hpar
        show Sig.mk _ _ = Sig.mk _ _
        rw [show (showFn f).ret.map (TypeText.map (terseWords e own (shortScope cls scope))) = f.ret.map showType from hret.symm]
        rw [show (showFn f).params.map (terseParam e own (shortScope cls scope)) = f.params.map showDecl from hpar.symm]
      rw [he]
      refine ⟨hsame, rfl, fun k r hk => ?_⟩
      have hk : (if Scope.strCpp (shortScope cls scope) = k then some none else find k f.terse) = some r := hk
      split at hk
      · rw [← Option.some.inj hk]
        exact hsame
      · have := h k r hk
        cases r with
        | none => exact this
        | some x => exact this

/-- The results of successive calls of `with_terse_types`. -/
def terseCalls (e : Env) (own : Scope.CppScope) (cls : Option Str) : List Scope.CppScope → Func → List Func
  | [], _ => []
  | s :: l, f => result (terseFn e own cls s f) :: terseCalls e own cls l (terseFn e own cls s f).1

theorem terse_repeat {e : Env} {own scope : Scope.CppScope} {cls : Option Str} : ∀ (n : Nat) (f : Func), TerseOk e own cls scope f →
    (terseCalls e own cls (List.replicate n scope) f).map showFn = List.replicate n (terseSig e own (shortScope cls scope) (showFn f))
  | 0, _, _ => rfl
  | n + 1, f, h => by
    obtain ⟨h1, h2, h3⟩ := terseFn_ok h
    have ih := terse_repeat n _ h3
    rw [h2] at ih
    show showFn _ :: List.map _ (terseCalls e own cls (List.replicate n scope) _) = _ :: List.replicate n _
    rw [h1, ih]

/-- The full statement: each call gives the form for its scope. -/
def C89_terse_statement : Prop := ∀ (e : Env) (own : Scope.CppScope) (cls : Option Str) (scopes : List Scope.CppScope) (f : Func),
  (∀ s ∈ scopes, Scope.Spec.Path s) → f.terse = [] →
  (terseCalls e own cls scopes f).map showFn = scopes.map (fun s => terseSig e own (shortScope cls s) (showFn f))

/-- It holds for any number of calls in the same scope: the types are qualified in the scope of the function and shortened in the given scope (without the
class of a method), the values are shortened as they are. -/
theorem C89_terse_partial (e : Env) (own scope : Scope.CppScope) (cls : Option Str) (n : Nat) (f : Func) (h : f.terse = []) :
    (terseCalls e own cls (List.replicate n scope) f).map showFn = List.replicate n (terseSig e own (shortScope cls scope) (showFn f)) :=
  terse_repeat n f (fun k r hk => by rw [h] at hk; cases hk)

example : showFn (result (terseFn stack scopeStack (some "Stack".toList) scopeStack (fn "Foo" [param "N::Foo" "value", param "bool" "now"]))) =
    ⟨some ⟨[], "Foo".toList, []⟩, [⟨⟨[], "Foo".toList, []⟩, "value".toList, [], []⟩, ⟨⟨[], "bool".toList, []⟩, "now".toList, [], []⟩]⟩ := by
  decide +kernel

/-- It fails for several scopes: the form for the scope `S::S` of a method of the class `S` is stored under the name `S`, and is given for the scope `S`,
which is shortened to the empty scope. -/
theorem C89_terse_fails : ¬ C89_terse_statement := by
  intro h
  have := h ⟨fun _ => false, ["S".toList, "S::S".toList, "S::T".toList]⟩ ["S".toList, "S".toList] (some "S".toList)
    [["S".toList, "S".toList], ["S".toList]] (fn "void" [param "S::T" "x"]) (fun s hs => by
      rcases List.mem_cons.1 hs with rfl | hs
      · intro n hn
        have : n = "S".toList := by rcases List.mem_cons.1 hn with h | h; exact h; exact List.mem_singleton.1 h
        rw [this]
        exact ⟨by decide, by decide⟩
      · rw [List.mem_singleton.1 hs]
        exact path1 "S" (by decide) (by decide)) rfl
  revert this
  decide +kernel

end Verif.Qual.Props
