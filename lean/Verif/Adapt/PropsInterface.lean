import Verif.Adapt.Props
import Verif.Adapt.Interface

/-! C55: the parameters that Python sees. -/

namespace Verif.Adapt.Props
open Verif.Py Verif.Type Spec

/-- C55: each lambda shows to Python, in the place of the parameters of what it calls, the parameters that its name announces. -/
theorem C55_interface (o : Options) (f g : Fn) (hf : Fresh f) (h : applyAll o f = .ok g) (i : Nat) (l : Lambda)
    (hl : g.lambdas[i]? = some l) :
    ∃ suffix, l.name = f.name ++ suffix ∧ StageSeen o f.name (calledParams f.params g.lambdas i) l.params suffix :=
  stage_seen ((applyAll_from hf.1 hf.2 h).calls i l hl).1

example : Fresh (fn mixed) ∧ applyAll demo (fn mixed) = .ok mixedResult ∧
    mixedResult.lambdas.map (fun l => l.params.map fun p => String.ofList (print p.type) ++ " " ++ String.ofList p.name) =
    [["const py::array & values", "int stride", "bool & on", "int v", "const Foo & foo", "const char * items", "int n", "int secret"],
     ["const py::array & values", "int stride", "bool & on", "int v", "const Foo & foo", "const char * items", "int n"],
     ["const py::array & values", "int stride", "bool & on", "int v", "const std::optional<const Foo> & foo", "const char * items", "int n"],
     ["const py::array & values", "int stride", "bool & on", "Boxed_int & v_0", "Boxed_int & v_1", "const std::optional<const Foo> & foo",
      "const char * items", "int n"],
     ["const py::array & values", "int stride", "Boxed_bool & on", "Boxed_int & v_0", "Boxed_int & v_1",
      "const std::optional<const Foo> & foo", "const char * items", "int n"],
     ["const py::array & values", "int stride", "Boxed_bool & on", "Boxed_int & v_0", "Boxed_int & v_1",
      "const std::optional<const Foo> & foo", "const std::vector<std::string> & items"]] :=
  ⟨⟨rfl, rfl⟩, mixed_ok, by decide +kernel⟩

/-- C55: if no adapter applies, the function is bound as it is, or, if the options ask for a lambda, through one lambda that passes
each parameter on. -/
theorem C55_unchanged (o : Options) (f g : Fn) (hf : Fresh f) (h : applyAll o f = .ok g)
    (hno : ∀ a ∈ adapters o, a f = .ok none) :
    (o.forceLambda f.name = false → g = f) ∧
    (o.forceLambda f.name = true → g.params = f.params ∧ ∃ l, g.lambdas = [l] ∧ l.name = f.name ++ "_adapt_force_lambda".toList ∧
      l.callee = none ∧ l.params = f.params ∧ l.args = f.params.map (fun p => .var p.name) ∧ l.input = [] ∧ l.output = [] ∧
      l.ret = .forward) := by
  have key : ∀ gs : List (Fn → Except Err (Option Adapter)), (∀ a ∈ gs, a f = .ok none) → applyList gs f = .ok f := by
    intro gs
    induction gs with
    | nil => intro _; rfl
    | cons a r ih =>
      intro hall
      unfold applyList applyOne
      rw [hall a List.mem_cons_self]
      exact ih fun b hb => hall b (List.mem_cons_of_mem _ hb)
  unfold applyAll at h
  rw [key _ hno] at h
  simp only [Except.ok.injEq] at h
  unfold maybeForceLambda at h
  rw [hf.2] at h
  constructor
  · intro hfl
    rw [hfl] at h
    exact h.symm
  · intro hfl
    rw [hfl] at h
    simp only [Option.isNone_none, Bool.and_self, if_true] at h
    subst h
    refine ⟨by simp [applyAdapter, forceLambda, collect, keep, List.flatMap_map], ?_⟩
    simp only [applyAdapter, hf.1, List.nil_append, List.cons.injEq, and_true]
    refine ⟨_, rfl, rfl, hf.2, ?_, ?_, ?_, ?_, rfl⟩
    · simp [forceLambda, collect, keep, List.flatMap_map]
    · simp only [forceLambda, collect, keep, List.flatMap_map]
      rw [List.map_eq_flatMap]
    · simp [forceLambda, collect, keep, List.flatMap_map]
    · simp [forceLambda, collect, keep, List.flatMap_map]

/-- `void f(int a, float b)` -/
def simple : List Param := [par "a" tInt, par "b" (ty [] ["float"] [])]

example : Fresh (fn simple) ∧ (∀ a ∈ adapters demo, a (fn simple) = .ok none) ∧
    applyAll demo (fn simple) = .ok (fn simple) := ⟨⟨rfl, rfl⟩, by decide +kernel, by decide +kernel⟩

end Verif.Adapt.Props
