import Verif.Iter.Props
import Verif.Cls.PropsContents

/-! Property C126: the iterable classes in the binding and in the stub. -/

namespace Verif.Iter.Props
open Verif.Py Verif.Cls
open Verif.Cls.Spec (ink)

/-- C126. For every class, with the options after any calls of `add_iterable_class`: if no call matches the Python name of the class, neither the
binding nor the stub has something to iterate with; otherwise both have it, and the items in the stub have the type of the first call that
matches. -/
theorem C126_class (calls : List ((Str → Bool) × Str)) (o : Options) (c : Class) (ho : o.iterable = pythonIterableType (afterCalls calls))
    (hi : '{' ∉ o.indent) (hq : '{' ∉ Cls.Spec.className c) :
    ((∀ d ∈ calls, d.1 c.pyName = false) → iterableCode o c = [] ∧ iterableStub o c = []) ∧
    ∀ a d b, calls = a ++ d :: b → (∀ x ∈ a, x.1 c.pyName = false) → d.1 c.pyName = true →
      ink (iterableCode o c) = ink (unlines (Cls.Spec.iterableLines o.nanobind (Cls.Spec.className c))) ∧
      iterableStub o c = ["def __iter__(self) -> Iterator[".toList ++ d.2 ++ "]:".toList, o.indent ++ "pass".toList,
        "def __len__(self) -> int:".toList, o.indent ++ "pass".toList] := by
  have h := Cls.Props.C75_iterable o c hi hq
  constructor
  · intro hn
    apply h.1
    rw [ho, ← Option.not_isSome_iff_eq_none]
    intro hs
    obtain ⟨t, ht⟩ := Option.isSome_iff_exists.1 hs
    obtain ⟨a, d, b, e, _, hd, _⟩ := (C126_first calls c.pyName t).1 ht
    have := hn d (by rw [e]; exact List.mem_append_right _ (List.mem_cons_self ..))
    rw [hd] at this
    exact Bool.noConfusion this
  · intro a d b e ha hd
    exact h.2 d.2 (by rw [ho]; exact (C126_first calls c.pyName d.2).2 ⟨a, d, b, e, ha, hd, rfl⟩)

/-- Options after one call that matches the class. -/
example :
    let calls : List ((Str → Bool) × Str) := [(fun n => n == Cls.demoClass.pyName, ['i', 'n', 't'])]
    let o := { Cls.demoO with iterable := pythonIterableType (afterCalls calls) }
    '{' ∉ o.indent ∧ '{' ∉ Cls.Spec.className Cls.demoClass ∧ o.iterable Cls.demoClass.pyName = some ['i', 'n', 't'] := by decide +kernel

end Verif.Iter.Props
