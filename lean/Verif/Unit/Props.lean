import Verif.Unit.Binding

/-! C76: the binding of a unit has each element in the module of its namespace, and creates each module once, before it is used. -/

namespace Verif.Unit.Props
open Verif.Py Spec Verif.Unit Verif.Template Verif.Template.Spec

/-- The comments of the namespaces do not contain the placeholders of the code that creates a module. -/
def PlainDocs (o : Options) (els : List El) : Prop :=
  ∀ x ∈ spacesAll o [] els, Inert "module_name".toList (docOneLine o x.comment) ∧ Inert "maybe_comma".toList (docOneLine o x.comment)

theorem lead_main {o : Options} {els : List El} (h : Regular o els) (b : Bool) : Tree.Lead (orEmpty (o.main b)) := by
  cases hm : o.main b with
  | none => exact .inl rfl
  | some s =>
    right
    have := h.main b s hm
    cases s with
    | nil => cases this
    | cons c s =>
      have : c = '\n' := Option.some.inj this
      subst this
      exact ⟨s, rfl⟩

theorem rows_main (m : Option Str) : rows (orEmpty m) = rows? m := by cases m <;> rfl

/-- C76: the binding of a unit. What stands in no namespace, or in root namespaces only, comes first. Then comes each module once, in the order
of first occurrence: a block that creates the module in its parent, and then has the elements of all the namespaces of this name in the order of
the source, and then the modules inside it. The custom code of the main module comes last. Nothing else is in the binding. -/
theorem C76_partial (o : Options) (els : List El) (h : Regular o els) (hd : PlainDocs o els) :
    ∃ text, unitPydef o els = some text ∧ rows text = binding o els := by
  obtain ⟨c, h1, h2, h3⟩ := rows_modules o els (stored o) ⟨.pydef, o.roots, o.cppIndent, o.nsName⟩ rfl (fun c hc => (h.cpp c hc).1)
    (fun hc => (h.cpp _ hc).2 rfl) (fun n hn => ⟨(h.names n hn).1, (h.names n hn).2.1⟩) h.consistent (fun n hn => (h.names n hn).2.2.1)
    (fun q => shift o.cppIndent (rows (declaration o q (q.getLast?.getD []) (comment o els q)) ++ items .binding o els q))
    (bindingModule o els)
    (by
      intro p n hn
      obtain ⟨x, xs, r, e1, e2, e3, e4, e5, e6, e7, e8, e9⟩ := module_occs hn
      rw [e1, created_rows (stored o) o.cppIndent _ _ (stored_rows o (fun c hc => (h.cpp c hc).1) (fun hc => (h.cpp _ hc).2 rfl)) x xs,
        items_module _ _ _ (by simp), e1, List.getLast?_concat, e9, e5, e3]
      have := submoduleCode_eq o r n x.comment e4 (fun m hm => (h.names m (e6 m hm)).2.2.2) (h.pyNames n (e6 n (by simp))).2 (hd _ e8)
      rw [this, ← e5, e7]
      rfl)
    (by
      intro p n _ h0
      unfold shift at h0
      rw [List.map_eq_nil_iff, List.append_eq_nil_iff] at h0
      exact rows_ne_nil (s := _ ++ "\")".toList) (c := ';') (by decide) (by
        rw [← h0.1]
        unfold declaration
        rw [List.append_assoc]
        rfl))
    (fun _ _ => rfl)
    (by
      intro d p n
      dsimp only
      rw [List.getLast?_concat]
      rfl)
  unfold unitPydef
  rw [blockPydef_eq, h1]
  refine ⟨_, rfl, ?_⟩
  dsimp only
  rw [rows_append (lead_main h true), rows_append h2, h3, rows_main]
  unfold binding
  refine congrArg (fun a => a ++ _ ++ _) ?_
  rw [items_main, ← innerAll_rows o els none]
  split
  · rename_i h0
    rw [List.length_eq_zero_iff.1 h0]
    rfl
  · rw [← rows_unlines]
    exact rows_append_nl _

/-! ### Examples and limits -/

/-- Options with the root namespace `Root`. -/
def o1 : Options :=
  ⟨false, ["Root".toList], "    ".toList, "    ".toList, false, id, id, fun _ _ _ => none, fun _ => none, fun _ => false, fun _ => false,
    fun _ => false, fun _ => true, fun _ => true⟩

/-- A function of a name. -/
def fn1 (n : Str) : El := .leaf .func n ⟨none, ["def ".toList ++ n ++ "(): ...".toList]⟩ ["def(\"".toList ++ n ++ "\");".toList]

/-- Functions in `Root`, in `Root::A`, which is opened twice, and in `Root::A::B`. -/
def u1 : List El :=
  [fn1 "a".toList,
   .ns "Root".toList [] [] [fn1 "b".toList,
     .ns "A".toList "In A".toList [] [fn1 "c".toList, .ns "B".toList [] [] [fn1 "d".toList]], fn1 "e".toList],
   .ns "Root".toList [] [] [.ns "A".toList "Again".toList [] [fn1 "f".toList]]]

theorem u1_regular : Regular o1 u1 := by
  refine ⟨?_, ?_, by decide +kernel, by decide +kernel, ?_, ?_⟩
  · unfold Blank; decide +kernel
  · unfold Blank; decide +kernel
  · unfold Consistent; decide +kernel
  · intro b s h
    cases h

theorem u1_docs : PlainDocs o1 u1 := by
  have : ∀ x ∈ spacesAll o1 [] u1, '{' ∉ docOneLine o1 x.comment := by decide +kernel
  exact fun x hx => ⟨inert_of_no_open (this x hx), inert_of_no_open (this x hx)⟩

/-- The hypotheses of `C76_partial` are met. -/
example : ∃ text, unitPydef o1 u1 = some text ∧ rows text = binding o1 u1 := C76_partial o1 u1 u1_regular u1_docs

example : binding o1 u1 =
    ["def(\"a\");".toList, "def(\"b\");".toList, "def(\"e\");".toList,
     "{ // <namespace A>".toList,
     "    py::module_ pyNsA = m.def_submodule(\"A\", \"In A\");".toList,
     "    def(\"c\");".toList, "    def(\"f\");".toList,
     "    { // <namespace B>".toList,
     "        py::module_ pyNsA_NsB = pyNsA.def_submodule(\"B\", \"\");".toList,
     "        def(\"d\");".toList,
     "    } // </namespace B>".toList,
     "} // </namespace A>".toList] := by decide +kernel

/-- C76 as one would state it: a module is created once, whatever namespaces the unit has. -/
def C76_created_once_statement : Prop :=
  ∀ (o : Options) (els : List El) (p : List Str) (text : Str), unitPydef o els = some text →
    ((rows text).filter (fun l => startsWith (strip l) ("py::module_ ".toList ++ var p ++ " = ".toList))).length ≤ 1

/-- C76 fails if a module is written both inside and outside a root namespace: `namespace A { … } namespace Root { namespace A { … } }` declares
the variable `pyNsA` twice in the same block. -/
theorem C76_created_once_fails : ¬ C76_created_once_statement := by
  intro h
  have e : ∃ text, unitPydef o1 [.ns "A".toList [] [] [], .ns "Root".toList [] [] [.ns "A".toList [] [] []]] = some text ∧
      ((rows text).filter (fun l => startsWith (strip l) ("py::module_ ".toList ++ var ["A".toList] ++ " = ".toList))).length = 2 :=
    ⟨_, rfl, by decide +kernel⟩
  obtain ⟨text, h1, h2⟩ := e
  have := h _ _ ["A".toList] _ h1
  omega

/-- C76 as one would state it: the elements are bound in the order of the source, so that a base class is bound before the classes derived from
it. -/
def C76_source_order_statement : Prop :=
  ∀ (o : Options) (els : List El) (text : Str), unitPydef o els = some text →
    ((placedAll .binding o [] els).flatMap (·.2)).Sublist ((rows text).map lstrip)

/-- C76 fails: in `namespace A { struct Base {}; } struct Derived : A::Base {};` the class `Derived` is bound before its base class. -/
theorem C76_source_order_fails : ¬ C76_source_order_statement := by
  intro h
  have e : ∃ text, unitPydef o1 [.ns "A".toList [] [] [.leaf .cls [] ⟨none, []⟩ ["py::class_<A::Base>(pyNsA, \"Base\");".toList]],
      .leaf .cls [] ⟨none, []⟩ ["py::class_<Derived, A::Base>(m, \"Derived\");".toList]] = some text ∧
      ¬ (["py::class_<A::Base>(pyNsA, \"Base\");".toList, "py::class_<Derived, A::Base>(m, \"Derived\");".toList]).Sublist
        ((rows text).map lstrip) := ⟨_, rfl, by decide +kernel⟩
  obtain ⟨text, h1, h2⟩ := e
  exact h2 (h _ _ _ h1)

/-- C76: without the condition on names: a namespace whose name is `A::B` (`namespace A::B { … }`) gets a variable that is no identifier and a
module whose name is no identifier. -/
theorem C76_nested_name : (unitPydef o1 [.ns "A::B".toList [] [] []]).map rows = some
    ["{ // <namespace B>".toList, "    py::module_ pyNsA::B = m.def_submodule(\"A::B\", \"\");".toList, "} // </namespace B>".toList] := by
  decide +kernel

/-- C76: if both parts of such a name are root namespaces, nothing is written (`IndexError`). -/
theorem C76_nested_roots :
    unitPydef { o1 with roots := ["A".toList, "B".toList] } [.ns "A::B".toList [] [] []] = none := by decide +kernel

end Verif.Unit.Props
