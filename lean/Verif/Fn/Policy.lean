import Verif.Fn.StubText
import Verif.Fn.PropsDoc

/-! Properties of the policies of both libraries (C66) and of the addresses of functions (C63). -/

namespace Verif.Fn.Spec
open Verif.Py

/-- The text of a call policy for a library, cut before each name of the library: `py::call_guard<py::gil_scoped_release>()` is made of
`call_guard<` and `gil_scoped_release>`. -/
def policyOf (nanobind : Bool) (pieces : List Str) : Str := pieces.flatMap (fun q => libOf nanobind ++ "::".toList ++ q) ++ "()".toList

/-- What can be bound: the name of a function, an address, or a vectorized function. -/
def Bindable (t : Str) : Prop :=
  ∃ q, '(' ∉ q ∧ (t = q ∨ t = "py::vectorize(".toList ++ q ++ ")".toList)

end Verif.Fn.Spec

namespace Verif.Fn.Props
open Verif.Py Verif.Type Verif.Adapt Verif.Fn
open Verif.Fn.Spec (policyOf libOf Bindable)

/-! ### C66: the policies of both libraries -/

/-- A text that begins with two characters that are not colons, or is empty. -/
def NoColons (s : Str) : Prop := (∀ c ∈ s.head?, c ≠ ':') ∧ ∀ c ∈ (s.drop 1).head?, c ≠ ':'

theorem replaceAux_over (a b : Char) (new q rest : Str) (hq : ':' ∉ q) (hr : NoColons rest) :
    replaceAux [a, b, ':', ':'] new 0 (q ++ rest) = q ++ replaceAux [a, b, ':', ':'] new 0 rest := by
  induction q with
  | nil => rfl
  | cons c q ih =>
    have hp : ¬ [a, b, ':', ':'].isPrefixOf (c :: (q ++ rest)) = true := by
      rw [List.isPrefixOf_iff_prefix]
      rintro ⟨t, ht⟩
      simp only [List.cons_append, List.nil_append, List.cons.injEq] at ht
      have h2 := ht.2
      match q, h2 with
      | [], h2 =>
        rw [List.nil_append] at h2
        refine hr.2 ':' ?_ rfl
        rw [← h2]
        rfl
      | [x], h2 =>
        simp only [List.cons_append, List.nil_append, List.cons.injEq] at h2
        refine hr.1 ':' ?_ rfl
        rw [← h2.2]
        rfl
      | x :: y :: q, h2 =>
        simp only [List.cons_append, List.cons.injEq] at h2
        exact hq (by rw [h2.2.1]; simp)
    rw [List.cons_append, replaceAux, if_neg hp, ih (fun h => hq (by simp [h]))]
    rfl

theorem policyOf_noColons (n : Bool) (ps : List Str) : NoColons (policyOf n ps) := by
  unfold policyOf libOf
  cases ps with
  | nil => exact ⟨by rintro c ⟨⟩; decide, by rintro c ⟨⟩; decide⟩
  | cons q ps => cases n <;> exact ⟨by rintro c ⟨⟩; decide, by rintro c ⟨⟩; decide⟩

theorem policyOf_cons (n : Bool) (q : Str) (ps : List Str) : policyOf n (q :: ps) = libOf n ++ "::".toList ++ (q ++ policyOf n ps) := by
  unfold policyOf
  rw [List.flatMap_cons]
  simp only [List.append_assoc]

theorem replace_policy (w n : Bool) (ps : List Str) (h : ∀ q ∈ ps, ':' ∉ q) :
    replace (policyOf w ps) (libOf (!n) ++ "::".toList) (libOf n ++ "::".toList) = policyOf n ps := by
  unfold replace
  induction ps with
  | nil => cases w <;> cases n <;> decide +kernel
  | cons q ps ih =>
    have ih' := ih (fun x hx => h x (by simp [hx]))
    have hq := h q (by simp)
    rw [policyOf_cons, policyOf_cons]
    have hover : ∀ (a b : Char) (new : Str), replaceAux [a, b, ':', ':'] new 0 (q ++ policyOf w ps) =
        q ++ replaceAux [a, b, ':', ':'] new 0 (policyOf w ps) := fun a b new => replaceAux_over a b new q _ hq (policyOf_noColons w ps)
    cases w <;> cases n
    · have := hover 'n' 'b' "py::".toList
      show replaceAux ['n', 'b', ':', ':'] "py::".toList 0 ('p' :: 'y' :: ':' :: ':' :: (q ++ policyOf false ps)) = "py::".toList ++ _
      conv_rhs => rw [← ih']
      show _ = "py::".toList ++ (q ++ replaceAux ['n', 'b', ':', ':'] "py::".toList 0 (policyOf false ps))
      rw [← this]
      rfl
    · have := hover 'p' 'y' "nb::".toList
      show replaceAux ['p', 'y', ':', ':'] "nb::".toList 0 ('p' :: 'y' :: ':' :: ':' :: (q ++ policyOf false ps)) = "nb::".toList ++ _
      conv_rhs => rw [← ih']
      show _ = "nb::".toList ++ (q ++ replaceAux ['p', 'y', ':', ':'] "nb::".toList 0 (policyOf false ps))
      rw [← this]
      rfl
    · have := hover 'n' 'b' "py::".toList
      show replaceAux ['n', 'b', ':', ':'] "py::".toList 0 ('n' :: 'b' :: ':' :: ':' :: (q ++ policyOf true ps)) = "py::".toList ++ _
      conv_rhs => rw [← ih']
      show _ = "py::".toList ++ (q ++ replaceAux ['n', 'b', ':', ':'] "py::".toList 0 (policyOf true ps))
      rw [← this]
      rfl
    · have := hover 'p' 'y' "nb::".toList
      show replaceAux ['p', 'y', ':', ':'] "nb::".toList 0 ('n' :: 'b' :: ':' :: ':' :: (q ++ policyOf true ps)) = "nb::".toList ++ _
      conv_rhs => rw [← ih']
      show _ = "nb::".toList ++ (q ++ replaceAux ['p', 'y', ':', ':'] "nb::".toList 0 (policyOf true ps))
      rw [← this]
      rfl

theorem replaceLib_policy (o : Options) (w : Bool) (ps : List Str) (h : ∀ q ∈ ps, ':' ∉ q) :
    replaceLib o (policyOf w ps) = policyOf o.nanobind ps := by
  unfold replaceLib
  cases hn : o.nanobind
  · rw [if_neg Bool.false_ne_true]
    exact replace_policy w false ps h
  · rw [if_pos rfl]
    exact replace_policy w true ps h

/-- A policy that is written in full in a comment, for either library, is written for the library of the options. Missing, as in
`C66_keep_partial`: more than one policy, the token in another place. -/
theorem C66_library_partial (o : Options) (f : Func) (what first before after : Str) (rest : List Str) (w : Bool)
    (hps : ∀ q ∈ (what ++ first) :: rest, ':' ∉ q ∧ '(' ∉ q)
    (hc : commentsAsStr f = before ++ policyOf w ((what ++ first) :: rest) ++ after)
    (hfirst : ∀ b a, commentsAsStr f = b ++ (libOf w ++ "::".toList ++ what) ++ a → before.length ≤ b.length)
    (hother : w = true → ¬ ∃ b a, commentsAsStr f = b ++ ("py::".toList ++ what) ++ a) :
    policyNamed o (commentsAsStr f) what = some (policyOf o.nanobind ((what ++ first) :: rest)) := by
  have hlib : '(' ∉ libOf w ++ "::".toList := by cases w <;> decide +kernel
  have hbody : '(' ∉ ((what ++ first) :: rest).flatMap (fun q => libOf w ++ "::".toList ++ q) := by
    intro hm
    obtain ⟨q, hq, hc⟩ := List.mem_flatMap.1 hm
    rcases List.mem_append.1 hc with h | h
    · exact hlib h
    · exact (hps q hq).2 h
  have hup := upToParens_spec (((what ++ first) :: rest).flatMap (fun q => libOf w ++ "::".toList ++ q)) after hbody
  have htext : policyOf w ((what ++ first) :: rest) ++ after =
      (libOf w ++ "::".toList ++ what) ++ (first ++ policyOf w rest ++ after) := by
    rw [policyOf_cons]
    simp only [List.append_assoc]
  have hne : libOf w ++ "::".toList ++ what ≠ [] := by cases w <;> simp [libOf]
  have hfrom : fromToken (libOf w ++ "::".toList ++ what) (commentsAsStr f) = some (policyOf w ((what ++ first) :: rest) ++ after) := by
    rw [htext, fromToken_iff _ _ _ hne]
    refine ⟨before, ?_, hfirst⟩
    rw [hc, List.append_assoc, htext]
    simp only [List.append_assoc]
  have hcp : callPolicy (commentsAsStr f) (libOf w ++ "::".toList ++ what) = some (policyOf w ((what ++ first) :: rest)) := by
    unfold callPolicy
    rw [hfrom, Option.bind_some]
    exact hup
  have hr := replaceLib_policy o w _ (fun q hq => (hps q hq).1)
  unfold policyNamed
  cases w
  · have e : libOf false ++ "::".toList ++ what = "py::".toList ++ what := by
      have : libOf false ++ "::".toList = "py::".toList := by decide
      rw [this]
    rw [e] at hcp
    rw [hcp]
    dsimp only
    rw [Option.map_some, hr]
  · have e : libOf true ++ "::".toList ++ what = "nb::".toList ++ what := by
      have : libOf true ++ "::".toList = "nb::".toList := by decide
      rw [this]
    have hnone : callPolicy (commentsAsStr f) ("py::".toList ++ what) = none := by
      unfold callPolicy
      cases hf : fromToken ("py::".toList ++ what) (commentsAsStr f) with
      | none => rfl
      | some t =>
        obtain ⟨b, a, rfl, h2⟩ := fromToken_some _ _ _ (by simp) hf
        exact absurd ⟨b, a, h2.1⟩ (hother rfl)
    rw [e] at hcp
    rw [hnone, hcp]
    dsimp only
    rw [Option.map_some, hr]

/-- a call guard written for nanobind, with pybind11 -/
example : policyOf true ["call_guard<".toList, "gil_scoped_release>".toList] = "nb::call_guard<nb::gil_scoped_release>()".toList ∧
    policyNamed demoO "see nb::call_guard<nb::gil_scoped_release>() here".toList "call_guard".toList =
      some "py::call_guard<py::gil_scoped_release>()".toList := by decide +kernel

/-! ### C63: what is bound is a function -/

/-- Full statement: what is bound is a name, an address or a vectorized function; what is cast is a name or an address. -/
def C63_bindable_statement : Prop :=
  ∀ (o : Options) (f : Func), '(' ∉ Verif.Fn.Spec.qualifiedName f →
    match callableOf o f with
    | .address t => Bindable t
    | .cast _ _ _ t => '(' ∉ t
    | _ => True

/-- A vectorized method is bound as `&py::vectorize(Foo::add)`, which is not C++ (the address of a temporary); a vectorized overload is bound as
`py::overload_cast<int, int>(py::vectorize(add))`, which pybind11 does not accept. -/
theorem C63_bindable_fails : ¬ C63_bindable_statement ∧
    functionPointer demoO { demoM with vectorizeImpl := true } = "&py::vectorize(Ns::Foo::add)".toList ∧
    functionPointer demoO { demoF with vectorizeImpl := true, overloaded := true } =
      "py::overload_cast<int, int>(py::vectorize(Ns::add))".toList := by
  refine ⟨fun h => ?_, by decide +kernel, by decide +kernel⟩
  have := h demoO { demoF with vectorizeImpl := true, overloaded := true } (by decide +kernel)
  revert this
  show ¬ '(' ∉ _
  decide +kernel

/-- It holds for functions that are not vectorized and for vectorized free functions without overloads. -/
theorem C63_bindable_partial (o : Options) (f : Func) (hq : '(' ∉ Verif.Fn.Spec.qualifiedName f)
    (h : f.vectorizeImpl = false ∨ (f.cls = none ∧ f.overloaded = false ∧ o.forceOverload f.name = false)) :
    match callableOf o f with
    | .address t => Bindable t
    | .cast _ _ _ t => '(' ∉ t
    | _ => True := by
  have hname : f.vectorizeImpl = false → '(' ∉ addressOf f := by
    intro hv
    rw [addressOf_spec]
    unfold Verif.Fn.Spec.addressText
    rw [hv, if_neg Bool.false_ne_true]
    intro hm
    rcases List.mem_append.1 hm with hm | hm
    · revert hm
      cases f.cls.isSome <;> decide
    · exact hq hm
  unfold callableOf
  by_cases ho : (f.overloaded || o.forceOverload f.name) = true
  · rw [if_pos ho]
    rcases h with hv | ⟨_, h1, h2⟩
    · by_cases hm : (isMethod f && decide (f.params = [])) = true
      · rw [if_pos hm]
        trivial
      · rw [if_neg hm]
        exact hname hv
    · rw [h1, h2] at ho
      cases ho
  · rw [if_neg ho]
    show Bindable _
    rcases h with hv | ⟨hc, _, _⟩
    · exact ⟨_, hname hv, .inl rfl⟩
    · cases hv : f.vectorizeImpl
      · exact ⟨_, hname hv, .inl rfl⟩
      · refine ⟨Verif.Fn.Spec.qualifiedName f, hq, .inr ?_⟩
        rw [addressOf_spec]
        unfold Verif.Fn.Spec.addressText
        rw [hv, if_pos rfl, hc]
        rfl

example : '(' ∉ Verif.Fn.Spec.qualifiedName demoM ∧ addressOf { demoF with vectorizeImpl := true } = "py::vectorize(Ns::add)".toList := by
  decide +kernel

end Verif.Fn.Props
