import Verif.Gen.Props

/-! C47: the glue code. -/

namespace Verif.Gen
open Verif.Py

/-- `/repo/src/litgen/litgen_generator.py:128-137` `has_boxed_types` and `has_glue_code` -/
def hasGlueCode {C : Type} (e : Env C) (g : Generator C) : Bool :=
  ((e.boxed g.ctx).isSome && !e.omitBoxed) || decide ((e.virtualGlue g.ctx).length > 0) || decide ((e.protectedGlue g.ctx).length > 0)

namespace Props
variable {C : Type}

/-- C47: the glue code is the structs of the boxed types, but when they are omitted, then the trampolines of the virtual methods, then the
publicists of the protected methods, of all headers. -/
theorem C47_glue (e : Env C) (g : Generator C) :
    (e.omitBoxed = true → glueCode e g = e.virtualGlue g.ctx ++ e.protectedGlue g.ctx) ∧
      (e.omitBoxed = false → glueCode e g = e.boxedCpp g.ctx ++ (e.virtualGlue g.ctx ++ e.protectedGlue g.ctx)) := by
  unfold glueCode
  constructor
  · intro h; rw [h]; rfl
  · intro h; rw [h, List.append_assoc]; rfl

/-- C47: `has_glue_code` tells whether there is some, when the boxed types have code exactly if some were met. -/
theorem C47_has_glue (e : Env C) (g : Generator C) (h : e.boxedCpp g.ctx ≠ [] ↔ (e.boxed g.ctx).isSome = true) :
    hasGlueCode e g = true ↔ glueCode e g ≠ [] := by
  have hl : ∀ s : Str, s.length > 0 ↔ s ≠ [] := fun s => List.length_pos_iff
  unfold hasGlueCode
  rw [Bool.or_eq_true, Bool.or_eq_true, Bool.and_eq_true, decide_eq_true_iff, decide_eq_true_iff, hl, hl, ← h]
  cases ho : e.omitBoxed with
  | true =>
    simp only [(C47_glue e g).1 ho, ne_eq, List.append_eq_nil_iff]
    by_cases a : e.virtualGlue g.ctx = [] <;> simp [a]
  | false =>
    simp only [(C47_glue e g).2 ho, ne_eq, List.append_eq_nil_iff]
    by_cases b : e.boxedCpp g.ctx = [] <;> by_cases a : e.virtualGlue g.ctx = [] <;> simp [a, b]

/-- Boxed types, trampolines and publicists, whatever the context. -/
def glueEnv : Env Nat where
  process := fun n _ _ => (([], []), n)
  boxed := fun _ => some ([], [])
  boxedCpp := fun _ => "struct BoxedInt {};\n".toList
  virtualGlue := fun _ => "class A_trampoline {};\n".toList
  protectedGlue := fun _ => "class A_publicist {};\n".toList
  black := id
  runBlack := false
  nbParents := 0
  postprocessPydef := none
  postprocessStub := none
  omitBoxed := false

example : (glueEnv.boxedCpp 0 ≠ [] ↔ (glueEnv.boxed 0).isSome = true) ∧ hasGlueCode glueEnv ⟨0, []⟩ = true ∧
    glueCode glueEnv ⟨0, []⟩ = "struct BoxedInt {};\nclass A_trampoline {};\nclass A_publicist {};\n".toList ∧
    glueCode { glueEnv with omitBoxed := true } ⟨0, []⟩ = "class A_trampoline {};\nclass A_publicist {};\n".toList := by decide +kernel

end Props
end Verif.Gen
