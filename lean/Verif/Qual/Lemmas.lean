import Verif.Qual.Model
import Verif.Qual.Spec
import Verif.Scope.Lemmas

/-! The caches of declarations and functions. -/

namespace Verif.Qual
open Verif.Py Verif.Type Spec

def showType (t : CppType) : TypeText := ⟨t.specifiers, typeText t, t.modifiers⟩
def showDecl (d : Decl) : ParamText := ⟨showType d.type, d.name, d.array, d.value⟩
def showFn (f : Func) : Sig := ⟨f.ret.map showType, f.params.map showDecl⟩

theorem join_split (s : Str) : join [' '] (split s [' ']) = s := by
  unfold split
  rw [Scope.join_splitAux [' '] (by decide) s 0 [] (Nat.zero_le _)]
  rfl

theorem qualify_nil (e : Env) (s : Scope.CppScope) : e.qualify s [] = [] := rfl

theorem qualifyType_some {e : Env} {s : Scope.CppScope} {t t' : CppType} (h : qualifyType e s t = some t') :
    showType t' = (showType t).map (e.qualify s) := by
  unfold qualifyType at h
  split at h
  · cases h
  simp only at h
  split at h
  · rw [← Option.some.inj h]
    exact congrArg (fun w => TypeText.mk t.specifiers w t.modifiers) (join_split (e.qualify s (typeText t)))
  · cases h

theorem qualifyType_none {e : Env} {s : Scope.CppScope} {t : CppType} (h : qualifyType e s t = none) :
    (showType t).map (e.qualify s) = showType t := by
  unfold qualifyType at h
  split at h
  · next ht =>
    have hw : typeText t = [] := by
      show join [' '] t.typenames = []
      rw [ht]
      rfl
    refine congrArg (fun w => TypeText.mk t.specifiers w t.modifiers) ?_
    show e.qualify s (typeText t) = typeText t
    rw [hw, qualify_nil]
  simp only at h
  split at h
  · cases h
  · next hn =>
    exact congrArg (fun w => TypeText.mk t.specifiers w t.modifiers) (Classical.byContradiction hn)

theorem qualifyType_show (e : Env) (s : Scope.CppScope) (t : CppType) : showType ((qualifyType e s t).getD t) = (showType t).map (e.qualify s) := by
  cases h : qualifyType e s t with
  | none => exact (qualifyType_none h).symm
  | some t' => exact qualifyType_some h

theorem qualifyValue_eq (e : Env) (s : Scope.CppScope) (v : Str) : qualifyValue e s v = e.qualify s v := by
  unfold qualifyValue
  split
  · next h => rw [h, qualify_nil]
  · rfl

/-- The qualified form of a declaration. -/
def Q (e : Env) (s : Scope.CppScope) (p : ParamText) : ParamText := p.map (e.qualify s)

/-- The cache of a declaration gives its qualified form in all the scopes of the list. -/
def DeclOk (e : Env) (S : List Scope.CppScope) (d : Decl) : Prop :=
  match d.cache with
  | none => True
  | some none => ∀ s ∈ S, Q e s (showDecl d) = showDecl d
  | some (some n) => ∀ s ∈ S, showDecl n = Q e s (showDecl d)

/-- The qualified form of the parameter is the same in all the scopes. -/
def Agree (e : Env) (S : List Scope.CppScope) (p : ParamText) : Prop := ∀ s ∈ S, ∀ s' ∈ S, Q e s p = Q e s' p

theorem showDecl_cache (d : Decl) (c : Option (Option Decl)) : showDecl (d.withCache c) = showDecl d := by cases d; rfl

theorem cache_cache (d : Decl) (c : Option (Option Decl)) : (d.withCache c).cache = c := by cases d; rfl

theorem showDecl_new (d : Decl) (t : CppType) (v : Str) :
    showDecl ((d.withType t).withValue v) = { showDecl d with type := showType t, value := v } := by cases d; rfl

theorem qualifyDecl_ok {e : Env} {S : List Scope.CppScope} {s : Scope.CppScope} (hs : s ∈ S) {d : Decl} (hd : DeclOk e S d) (ha : Agree e S (showDecl d)) :
    showDecl (qualifyDecl e s d).1 = showDecl d ∧ DeclOk e S (qualifyDecl e s d).1 ∧
      showDecl ((qualifyDecl e s d).2.getD (qualifyDecl e s d).1) = Q e s (showDecl d) ∧
      (qualifyDecl e s d).1.type = d.type := by
  cases hc : d.cache with
  | some r =>
    have he : qualifyDecl e s d = (d, r) := by unfold qualifyDecl; rw [hc]
    rw [he]
    refine ⟨rfl, hd, ?_, rfl⟩
    unfold DeclOk at hd
    rw [hc] at hd
    cases r with
    | none => exact (hd s hs).symm
    | some n => exact hd s hs
  | none =>
    by_cases hch : ((qualifyType e s d.type).isSome || decide (qualifyValue e s d.value ≠ d.value)) = true
    · have he : qualifyDecl e s d =
          (d.withCache (some (some ((d.withType ((qualifyType e s d.type).getD d.type)).withValue (qualifyValue e s d.value)))),
            some ((d.withType ((qualifyType e s d.type).getD d.type)).withValue (qualifyValue e s d.value))) := by
        unfold qualifyDecl
        rw [hc]
        simp only [hch, if_true]
      have hn : showDecl ((d.withType ((qualifyType e s d.type).getD d.type)).withValue (qualifyValue e s d.value)) = Q e s (showDecl d) := by
        rw [showDecl_new, qualifyType_show, qualifyValue_eq]
        rfl
      rw [he]
      refine ⟨showDecl_cache _ _, ?_, hn, by cases d; rfl⟩
      unfold DeclOk
      rw [cache_cache]
      intro s' hs'
      rw [showDecl_cache, hn]
      exact ha s hs s' hs'
    · have he : qualifyDecl e s d = (d.withCache (some none), none) := by
        unfold qualifyDecl
        rw [hc]
        simp only [hch]
        rfl
      rw [Bool.or_eq_true] at hch
      have h1 : qualifyType e s d.type = none := by
        cases h : qualifyType e s d.type with
        | none => rfl
        | some t => exact absurd (.inl (by rw [h]; rfl)) hch
      have h2 : e.qualify s d.value = d.value := by
        rw [← qualifyValue_eq]
        exact Classical.byContradiction (fun h => hch (.inr (decide_eq_true h)))
      have hq : Q e s (showDecl d) = showDecl d := by
        show ParamText.mk _ _ _ _ = ParamText.mk _ _ _ _
        rw [show (showDecl d).type.map (e.qualify s) = showType d.type from qualifyType_none h1, show e.qualify s (showDecl d).value = d.value from h2]
        rfl
      rw [he]
      refine ⟨showDecl_cache _ _, ?_, (showDecl_cache _ _).trans hq.symm, by cases d; rfl⟩
      unfold DeclOk
      rw [cache_cache]
      intro s' hs'
      rw [showDecl_cache]
      exact (ha s' hs' s hs).trans hq

theorem void_iff (d : Decl) : Adapt.isVoidType d.type = true ↔ (showDecl d).type = ⟨[], "void".toList, []⟩ := by
  have key : ∀ l : List Str, join [' '] l = "void".toList ↔ l = ["void".toList]
    | [] => by decide
    | [x] => by simp [join]
    | x :: y :: l => by
      refine ⟨fun h => ?_, fun h => (by cases h)⟩
      have : ' ' ∈ join [' '] (x :: y :: l) := by simp [join]
      rw [h] at this
      exact absurd this (by decide)
  unfold Adapt.isVoidType
  rw [Bool.and_eq_true, Bool.and_eq_true, decide_eq_true_iff, decide_eq_true_iff, decide_eq_true_iff]
  constructor
  · rintro ⟨⟨h1, h2⟩, h3⟩
    show TypeText.mk _ _ _ = _
    rw [h2, h3, show typeText d.type = _ from (key _).2 h1]
  · intro h
    injection h with h1 h2 h3
    exact ⟨⟨(key _).1 h2, h1⟩, h3⟩

theorem noVoid_params (r : Option TypeText) (ps : List ParamText) (h : ∀ p, ps ≠ [p] ∨ p.type ≠ ⟨[], "void".toList, []⟩) :
    (Sig.mk r ps).noVoid = ⟨r, ps⟩ := by
  unfold Sig.noVoid
  split
  · next hc =>
    obtain ⟨h1, h2⟩ := hc
    obtain ⟨p, hp⟩ := List.length_eq_one_iff.1 h1
    have hp : ps = [p] := hp
    rw [show (Sig.mk r ps).params = [p] from hp] at h2
    rcases h p with h | h
    · exact absurd hp h
    · exact absurd (by simpa using h2) h
  · rfl

theorem getD_some {α : Type} {o : Option α} (a b : α) (h : o.isSome) : o.getD a = o.getD b := by
  cases o with
  | none => cases h
  | some x => rfl

theorem getD_none {α : Type} {o : Option α} (a : α) (h : o.isSome = false) : o.getD a = a := by
  cases o with
  | none => rfl
  | some x => cases h

/-- Several parameters, one after the other. -/
theorem params_map {e : Env} {S : List Scope.CppScope} {s : Scope.CppScope} (hs : s ∈ S) : ∀ {ps : List Decl}, (∀ d ∈ ps, DeclOk e S d) →
    (∀ d ∈ ps, Agree e S (showDecl d)) →
    ((ps.map (qualifyDecl e s)).map Prod.fst).map showDecl = ps.map showDecl ∧ (∀ d ∈ (ps.map (qualifyDecl e s)).map Prod.fst, DeclOk e S d) ∧
    ((ps.map (qualifyDecl e s)).map (fun r => r.2.getD r.1)).map showDecl = (ps.map showDecl).map (Q e s)
  | [], _, _ => ⟨rfl, fun _ h => (by cases h), rfl⟩
  | d :: ps, hd, ha => by
    obtain ⟨h1, h2, h3, _⟩ := qualifyDecl_ok hs (hd d (by simp)) (ha d (by simp))
    obtain ⟨i1, i2, i3⟩ := params_map hs (fun d h => hd d (List.mem_cons_of_mem _ h)) (fun d h => ha d (List.mem_cons_of_mem _ h))
    refine ⟨?_, ?_, ?_⟩
    · rw [List.map_cons, List.map_cons, List.map_cons, h1, i1, List.map_cons]
    · intro x hx
      rw [List.map_cons, List.map_cons] at hx
      rcases List.mem_cons.1 hx with rfl | hx
      · exact h2
      · exact i2 x hx
    · rw [List.map_cons, List.map_cons, List.map_cons, h3, i3, List.map_cons, List.map_cons]

theorem qualifyParams_eq (e : Env) (s : Scope.CppScope) (ps : List Decl) (h : ∀ p, ps ≠ [p] ∨ Adapt.isVoidType p.type = false) :
    qualifyParams e s ps = ((ps.map (qualifyDecl e s)).map Prod.fst,
      if (ps.map (qualifyDecl e s)).any (fun r => r.2.isSome) then some ((ps.map (qualifyDecl e s)).map (fun r => r.2.getD r.1)) else none) := by
  match ps, h with
  | [], _ => rfl
  | [p], h =>
    have hp : Adapt.isVoidType p.type = false := (h p).resolve_left (fun h => h rfl)
    show (if Adapt.isVoidType p.type = true then ([p], some [])
      else ([(qualifyDecl e s p).1], Option.map (fun x => [x]) (qualifyDecl e s p).2)) = _
    rw [if_neg (show ¬ Adapt.isVoidType p.type = true by rw [hp]; decide)]
    cases hr : (qualifyDecl e s p).2 with
    | none => simp [hr]
    | some x => simp [hr]
  | p :: q :: l, _ => rfl

theorem qualifyParams_ok {e : Env} {S : List Scope.CppScope} {s : Scope.CppScope} (hs : s ∈ S) {ps : List Decl} (hd : ∀ d ∈ ps, DeclOk e S d)
    (ha : ∀ d ∈ ps, Agree e S (showDecl d)) (r : Option TypeText) :
    (qualifyParams e s ps).1.map showDecl = ps.map showDecl ∧ (∀ d ∈ (qualifyParams e s ps).1, DeclOk e S d) ∧
      (Sig.mk r (((qualifyParams e s ps).2.getD (qualifyParams e s ps).1).map showDecl)) =
        ⟨r, ((Sig.mk r (ps.map showDecl)).noVoid.params).map (Q e s)⟩ := by
  by_cases hv : ∃ p, ps = [p] ∧ Adapt.isVoidType p.type = true
  · obtain ⟨p, rfl, hp⟩ := hv
    have he : qualifyParams e s [p] = ([p], some []) := by
      show (if Adapt.isVoidType p.type = true then ([p], some [])
        else ([(qualifyDecl e s p).1], Option.map (fun x => [x]) (qualifyDecl e s p).2)) = _
      rw [if_pos hp]
    rw [he]
    refine ⟨rfl, hd, ?_⟩
    have : (Sig.mk r ([p].map showDecl)).noVoid = ⟨r, []⟩ := by
      unfold Sig.noVoid
      rw [if_pos ⟨rfl, by simpa using (void_iff p).1 hp⟩]
    rw [this]
    rfl
  · have hv' : ∀ p, ps ≠ [p] ∨ Adapt.isVoidType p.type = false := by
      intro p
      by_cases h : ps = [p]
      · right
        cases h' : Adapt.isVoidType p.type with
        | false => rfl
        | true => exact absurd ⟨p, h, h'⟩ hv
      · exact .inl h
    obtain ⟨h1, h2, h3⟩ := params_map hs hd ha
    rw [qualifyParams_eq e s ps hv']
    refine ⟨h1, h2, ?_⟩
    have hn : (Sig.mk r (ps.map showDecl)).noVoid = ⟨r, ps.map showDecl⟩ := by
      refine noVoid_params r _ ?_
      intro x
      by_cases h : ps.map showDecl = [x]
      · right
        obtain ⟨p, hp, hx⟩ := List.map_eq_singleton_iff.1 h
        rw [← hx]
        intro hc
        have := (void_iff p).2 hc
        rcases hv' p with h' | h'
        · exact h' hp
        · rw [h'] at this
          cases this
      · exact .inl h
    rw [hn]
    show Sig.mk _ _ = Sig.mk _ _
    congr 1
    rw [← h3]
    show List.map showDecl (Option.getD _ _) = _
    split
    · rfl
    · next h =>
      rw [Option.getD_none]
      congr 1
      refine List.map_congr_left (fun x hx => ?_)
      refine (getD_none _ ?_).symm
      cases hx' : x.2.isSome with
      | false => rfl
      | true => exact absurd (List.any_eq_true.2 ⟨x, hx, hx'⟩) h

/-! ### Functions -/

/-- The qualified form of a function. -/
def QF (e : Env) (s : Scope.CppScope) (f : Sig) : Sig := f.noVoid.map (e.qualify s)

/-- The caches of the function are right for the scopes of the list. -/
structure FnOk (e : Env) (S : List Scope.CppScope) (f : Func) : Prop where
  params : ∀ d ∈ f.params, DeclOk e S d
  cache : ∀ k r, find k f.qualified = some r → ∃ s ∈ S, k = Scope.strCpp s ∧ showFn (r.getD f) = QF e s (showFn f)

theorem strCpp_inj {s s' : Scope.CppScope} (h1 : Scope.Spec.Path s) (h2 : Scope.Spec.Path s') (h : Scope.strCpp s = Scope.strCpp s') : s = s' :=
  Scope.text_inj h1 h2 (by rw [← Scope.strCpp_eq, ← Scope.strCpp_eq]; exact h)

theorem noVoid_ret (s : Sig) : s.noVoid.ret = s.ret := by
  unfold Sig.noVoid
  split <;> rfl

theorem ret_show (e : Env) (s : Scope.CppScope) (r : Option CppType) :
    ((if (r.bind (qualifyType e s)).isSome then r.bind (qualifyType e s) else r)).map showType = (r.map showType).map (TypeText.map (e.qualify s)) := by
  cases r with
  | none => rfl
  | some t =>
    have := qualifyType_show e s t
    rw [Option.bind_some]
    cases h : qualifyType e s t with
    | none => rw [h] at this; exact congrArg some this
    | some t' => rw [h] at this; exact congrArg some this

theorem ret_same {e : Env} {s : Scope.CppScope} {r : Option CppType} (h : (r.bind (qualifyType e s)).isSome = false) :
    (r.map showType).map (TypeText.map (e.qualify s)) = r.map showType := by
  have := ret_show e s r
  rw [h] at this
  exact this.symm

theorem qualifyFn_ok {e : Env} {S : List Scope.CppScope} (hS : ∀ s ∈ S, ∀ s' ∈ S, Scope.strCpp s = Scope.strCpp s' → s = s')
    {s : Scope.CppScope} (hs : s ∈ S) {f : Func} (hf : FnOk e S f)
    (ha : ∀ d ∈ f.params, Agree e S (showDecl d)) :
    showFn (qualifyFn e s f).1 = showFn f ∧ FnOk e S (qualifyFn e s f).1 ∧ showFn (result (qualifyFn e s f)) = QF e s (showFn f) := by
  cases hc : find (Scope.strCpp s) f.qualified with
  | some r =>
    have he : qualifyFn e s f = (f, r) := by unfold qualifyFn; rw [hc]
    rw [he]
    refine ⟨rfl, hf, ?_⟩
    obtain ⟨s', hs', h1, h2⟩ := hf.cache _ _ hc
    rw [hS s hs s' hs' h1]
    exact h2
  | none =>
    obtain ⟨p1, p2, p3⟩ := qualifyParams_ok hs hf.params ha (f.ret.map showType)
    by_cases hch : ((f.ret.bind (qualifyType e s)).isSome || (qualifyParams e s f.params).2.isSome) = true
    · have he : qualifyFn e s f = (.mk f.ret (qualifyParams e s f.params).1 ((Scope.strCpp s,
          some (Func.mk (if (f.ret.bind (qualifyType e s)).isSome then f.ret.bind (qualifyType e s) else f.ret)
            ((qualifyParams e s f.params).2.getD (qualifyParams e s f.params).1) f.qualified f.terse)) :: f.qualified) f.terse,
          some (Func.mk (if (f.ret.bind (qualifyType e s)).isSome then f.ret.bind (qualifyType e s) else f.ret)
            ((qualifyParams e s f.params).2.getD (qualifyParams e s f.params).1) f.qualified f.terse)) := by
        unfold qualifyFn
        rw [hc]
        simp only [hch, if_true]
      have hq : showFn (Func.mk (if (f.ret.bind (qualifyType e s)).isSome then f.ret.bind (qualifyType e s) else f.ret)
            ((qualifyParams e s f.params).2.getD (qualifyParams e s f.params).1) f.qualified f.terse) = QF e s (showFn f) := by
        show Sig.mk _ _ = Sig.mk _ _
        rw [noVoid_ret]
        show Sig.mk (Option.map showType (if _ then _ else _)) _ = _
        rw [ret_show]
        have := congrArg Sig.params p3
        exact congrArg (Sig.mk _) this
      have hsh : ∀ q t, showFn (.mk f.ret (qualifyParams e s f.params).1 q t) = showFn f := by
        intro q t
        show Sig.mk _ _ = Sig.mk _ _
        exact congrArg (Sig.mk _) p1
      rw [he]
      refine ⟨hsh _ _, ⟨p2, ?_⟩, hq⟩
      intro k r hk
      rw [hsh]
      have hk : (if Scope.strCpp s = k then _ else find k f.qualified) = some r := hk
      split at hk
      · next hks =>
        refine ⟨s, hs, hks.symm, ?_⟩
        rw [← Option.some.inj hk]
        exact hq
      · obtain ⟨s', hs', h1, h2⟩ := hf.cache k r hk
        refine ⟨s', hs', h1, ?_⟩
        cases r with
        | none => exact (hsh _ _).trans h2
        | some x => exact h2
    · have he : qualifyFn e s f = (.mk f.ret (qualifyParams e s f.params).1 ((Scope.strCpp s, none) :: f.qualified) f.terse, none) := by
        unfold qualifyFn
        rw [hc]
        simp only [hch]
        rfl
      rw [Bool.not_eq_true, Bool.or_eq_false_iff] at hch
      have hq : QF e s (showFn f) = showFn f := by
        have h3 := congrArg Sig.params p3
        rw [getD_none _ hch.2] at h3
        have h3 : ((qualifyParams e s f.params).1.map showDecl) = (Sig.mk (f.ret.map showType) (f.params.map showDecl)).noVoid.params.map (Q e s) := h3
        rw [p1] at h3
        show Sig.mk _ _ = Sig.mk _ _
        rw [noVoid_ret]
        show Sig.mk (Option.map _ (f.ret.map showType)) _ = _
        rw [ret_same hch.1]
        exact congrArg (Sig.mk _) h3.symm
      have hsh : ∀ q t, showFn (.mk f.ret (qualifyParams e s f.params).1 q t) = showFn f := by
        intro q t
        show Sig.mk _ _ = Sig.mk _ _
        exact congrArg (Sig.mk _) p1
      rw [he]
      refine ⟨hsh _ _, ⟨p2, ?_⟩, (hsh _ _).trans hq.symm⟩
      intro k r hk
      rw [hsh]
      have hk : (if Scope.strCpp s = k then some none else find k f.qualified) = some r := hk
      split at hk
      · next hks =>
        refine ⟨s, hs, hks.symm, ?_⟩
        rw [← Option.some.inj hk]
        exact (hsh _ _).trans hq.symm
      · obtain ⟨s', hs', h1, h2⟩ := hf.cache k r hk
        refine ⟨s', hs', h1, ?_⟩
        cases r with
        | none => exact (hsh _ _).trans h2
        | some x => exact h2

theorem showDecl_type (d : Decl) (t : CppType) : showDecl (d.withType t) = { showDecl d with type := showType t } := by cases d; rfl

theorem specDecl_cache (spec : CppType → Option CppType) (d : Decl) : (specDecl spec d).cache = d.cache := by
  unfold specDecl
  split
  · rfl
  · cases d; rfl

theorem specDecl_withCache (spec : CppType → Option CppType) (d : Decl) (c : Option (Option Decl)) :
    showDecl (specDecl spec (d.withCache c)) = showDecl (specDecl spec d) := by
  cases d with
  | mk t n a v c' =>
    unfold specDecl
    show showDecl (match spec t with | none => _ | some t' => _) = showDecl (match spec t with | none => _ | some t' => _)
    cases spec t <;> rfl

/-- A declaration that has no cache: the element gets one, the result is in it. -/
theorem qualifyDecl_fresh {e : Env} {s : Scope.CppScope} {d : Decl} (h : d.cache = none) :
    (∃ c, (qualifyDecl e s d).1 = d.withCache c) ∧
    (∀ n, (qualifyDecl e s d).2 = some n → n.cache = none ∧ showDecl n = Q e s (showDecl d) ∧ Q e s (showDecl d) ≠ showDecl d) ∧
    ((qualifyDecl e s d).2 = none → (qualifyDecl e s d).1 = d.withCache (some none)) := by
  by_cases hch : ((qualifyType e s d.type).isSome || decide (qualifyValue e s d.value ≠ d.value)) = true
  · have he : qualifyDecl e s d =
        (d.withCache (some (some ((d.withType ((qualifyType e s d.type).getD d.type)).withValue (qualifyValue e s d.value)))),
          some ((d.withType ((qualifyType e s d.type).getD d.type)).withValue (qualifyValue e s d.value))) := by
      unfold qualifyDecl
      rw [h]
      simp only [hch, if_true]
    rw [he]
    refine ⟨⟨_, rfl⟩, ?_, fun h' => (by cases h')⟩
    intro n hn
    rw [← Option.some.inj hn]
    have hq : showDecl ((d.withType ((qualifyType e s d.type).getD d.type)).withValue (qualifyValue e s d.value)) = Q e s (showDecl d) := by
      rw [showDecl_new, qualifyType_show, qualifyValue_eq]
      rfl
    refine ⟨by cases d; exact h, hq, ?_⟩
    intro hc
    rcases Bool.or_eq_true _ _ ▸ hch with h1 | h1
    · have hw := congrArg (fun p => p.type.words) hc
      have hw : e.qualify s (typeText d.type) = typeText d.type := hw
      unfold qualifyType at h1
      split at h1
      · cases h1
      · simp only at h1
        rw [if_neg (fun h => h hw)] at h1
        cases h1
    · have hv := congrArg ParamText.value hc
      have hv : e.qualify s d.value = d.value := hv
      rw [decide_eq_true_iff, qualifyValue_eq] at h1
      exact h1 hv
  · have he : qualifyDecl e s d = (d.withCache (some none), none) := by
      unfold qualifyDecl
      rw [h]
      simp only [hch]
      rfl
    rw [he]
    exact ⟨⟨_, rfl⟩, fun n hn => (by cases hn), fun _ => rfl⟩

/-- The element given by the qualification of parameters that have no cache. -/
theorem params_fresh {e : Env} {s : Scope.CppScope} {ps : List Decl} (h : ∀ d ∈ ps, d.cache = none) :
    (∃ cs : List (Option (Option Decl)), (qualifyParams e s ps).1 = List.zipWith (fun c d => d.withCache c) cs ps ∧ cs.length = ps.length) ∧
    (∀ d ∈ (qualifyParams e s ps).2.getD (qualifyParams e s ps).1, d.cache = none ∨ d.cache = some none) := by
  by_cases hv : ∃ p, ps = [p] ∧ Adapt.isVoidType p.type = true
  · obtain ⟨p, rfl, hp⟩ := hv
    have he : qualifyParams e s [p] = ([p], some []) := by
      show (if Adapt.isVoidType p.type = true then ([p], some [])
        else ([(qualifyDecl e s p).1], Option.map (fun x => [x]) (qualifyDecl e s p).2)) = _
      rw [if_pos hp]
    rw [he]
    refine ⟨⟨[none], ?_, rfl⟩, fun d hd => (by cases hd)⟩
    have := h p (by simp)
    cases p with
    | mk t n a v c =>
      have : c = none := this
      subst this
      rfl
  · have hv' : ∀ p, ps ≠ [p] ∨ Adapt.isVoidType p.type = false := by
      intro p
      by_cases h : ps = [p]
      · right
        cases h' : Adapt.isVoidType p.type with
        | false => rfl
        | true => exact absurd ⟨p, h, h'⟩ hv
      · exact .inl h
    rw [qualifyParams_eq e s ps hv']
    clear hv hv'
    refine ⟨?_, ?_⟩
    · show ∃ cs, (ps.map (qualifyDecl e s)).map Prod.fst = _ ∧ _
      induction ps with
      | nil => exact ⟨[], rfl, rfl⟩
      | cons d ps ih =>
        obtain ⟨cs, h1, h2⟩ := ih (fun d hd => h d (List.mem_cons_of_mem _ hd))
        obtain ⟨⟨c, hc⟩, _⟩ := qualifyDecl_fresh (e := e) (s := s) (h d (by simp))
        refine ⟨c :: cs, ?_, by simp [h2]⟩
        rw [List.map_cons, List.map_cons, List.zipWith_cons_cons, h1, hc]
    · have key : ∀ d ∈ ps, ∀ x, x = (qualifyDecl e s d).2.getD (qualifyDecl e s d).1 → x.cache = none ∨ x.cache = some none := by
        intro d hd x hx
        obtain ⟨_, h1, h2⟩ := qualifyDecl_fresh (e := e) (s := s) (h d hd)
        cases hr : (qualifyDecl e s d).2 with
        | none =>
          rw [hr] at hx
          rw [hx, Option.getD_none, h2 hr, cache_cache]
          exact .inr rfl
        | some n =>
          rw [hr] at hx
          rw [hx]
          exact .inl (h1 n hr).1
      intro x hx
      simp only at hx
      split at hx
      · rw [Option.getD_some] at hx
        obtain ⟨r, hr, rfl⟩ := List.mem_map.1 hx
        obtain ⟨d, hd, rfl⟩ := List.mem_map.1 hr
        exact key d hd _ rfl
      · next hn =>
        rw [Option.getD_none] at hx
        obtain ⟨r, hr, rfl⟩ := List.mem_map.1 hx
        obtain ⟨d, hd, rfl⟩ := List.mem_map.1 hr
        refine key d hd _ (getD_none _ ?_).symm
        cases hx' : (qualifyDecl e s d).2.isSome with
        | false => rfl
        | true => exact absurd (List.any_eq_true.2 ⟨_, List.mem_map.2 ⟨d, hd, rfl⟩, hx'⟩) hn

theorem zip_show (spec : CppType → Option CppType) : ∀ (cs : List (Option (Option Decl))) (ps : List Decl), cs.length = ps.length →
    ((List.zipWith (fun c d => Decl.withCache c d) cs ps).map (specDecl spec)).map showDecl = (ps.map (specDecl spec)).map showDecl
  | [], [], _ => rfl
  | c :: cs, p :: ps, h => by
    have ih := zip_show spec cs ps (Nat.succ.inj h)
    rw [List.zipWith_cons_cons, List.map_cons, List.map_cons, List.map_cons, List.map_cons, ih, specDecl_withCache]

end Verif.Qual
