import Verif.Unit.PropsStub

/-! C78: which elements of a unit are published. -/

namespace Verif.Unit.Props
open Verif.Py Spec Verif.Unit

theorem globals_eq (o : Options) (ds : List (Str × Option Code)) :
    globals o ds = (wantedDecls o ds).map (fun c => .leaf .other [] c.stub c.pydef) := by
  unfold wantedDecls
  induction ds with
  | nil => rfl
  | cons d ds ih =>
    obtain ⟨n, c⟩ := d
    unfold globals
    rw [List.filter_cons]
    cases h : o.includeGlobal n with
    | false => rw [if_neg (by simp), if_neg (by simp)]; exact ih
    | true =>
      rw [if_pos rfl, if_pos rfl, List.map_cons]
      cases c with
      | none => rfl
      | some c =>
        dsimp only
        rw [List.takeWhile_cons, if_pos (show (some c).isSome = true from rfl), List.filterMap_cons]
        dsimp only [id_eq]
        rw [List.map_cons, ih]

mutual
theorem fillChild_eq (o : Options) : ∀ ch : Child, fillChild o ch = some (visible o ch)
  | .emptyLine => by unfold fillChild visible; rfl
  | .comment text => by unfold fillChild visible; rfl
  | .conditionMacro p c e => by unfold fillChild visible; rfl
  | .struct name c => by
    unfold fillChild visible leaf? wanted
    cases c with
    | none => unfold leafOf; dsimp only; first | rfl | (split <;> rfl)
    | some c => unfold leafOf; dsimp only; first | rfl | (split <;> rfl)
  | .function name b c => by
    unfold fillChild visible leaf? wanted
    cases c with
    | none => unfold leafOf; dsimp only; cases b <;> rfl
    | some c => unfold leafOf; dsimp only; cases b <;> rfl
  | .define name b c => by
    unfold fillChild visible leaf? wanted
    cases c with
    | none => unfold leafOf; dsimp only; first | rfl | (split <;> rfl)
    | some c => unfold leafOf; dsimp only; first | rfl | (split <;> rfl)
  | .enum_ name c => by
    unfold fillChild visible leaf? wanted
    cases c with
    | none => unfold leafOf; dsimp only; first | rfl | (split <;> rfl)
    | some c => unfold leafOf; dsimp only; first | rfl | (split <;> rfl)
  | .namespace_ name pr eo b children => by
    unfold fillChild visible wanted
    rw [fillChildren_eq o children]
    have e : (b && !o.excludeNs name && !decide (name = [])) = (b && !o.excludeNs name && decide (name ≠ [])) := by
      by_cases hn : name = [] <;> simp [hn]
    dsimp only
    rw [e]
    split
    · show Option.map _ (Overload.groupOverloaded overloadKey (visibleAll o children)) = _
      rw [Overload.Props.C32_refines]
      rfl
    · rfl
  | .decls ds => by
    unfold fillChild visible
    rw [globals_eq]
theorem fillChildren_eq (o : Options) : ∀ cs : List Child, fillChildren o cs = some (visibleAll o cs)
  | [] => by unfold fillChildren visibleAll; rfl
  | c :: cs => by
    unfold fillChildren visibleAll
    rw [fillChild_eq o c, fillChildren_eq o cs]
    rfl
end

/-- C78: a block has, in the order of the source but with the overloads of a function grouped at the first one, an element for each empty line,
comment and condition macro; for each class, function, macro and enumeration that is wanted and that could be adapted; for each global variable
that is wanted, up to the first one of its statement that could not be adapted; for each namespace that has a name and a block and is not
excluded, with what this says of its own block. It always succeeds. -/
theorem C78_refines (o : Options) (cs : List Child) : fillBlock o cs = some (Overload.Spec.grouped overloadKey (visibleAll o cs)) := by
  unfold fillBlock
  rw [fillChildren_eq]
  exact Overload.Props.C32_refines _ _

/-- C78: no element is lost or invented by the grouping. -/
theorem C78_elements (o : Options) (cs : List Child) (els : List El) (h : fillBlock o cs = some els) : els.Perm (visibleAll o cs) := by
  unfold fillBlock at h
  rw [fillChildren_eq] at h
  exact Overload.Props.C32_permutation overloadKey _ _ h

/-- C78: a namespace without a name, without a block or excluded gives nothing, whatever is in it. -/
theorem C78_hidden (o : Options) (name previous eol : Str) (hasBlock : Bool) (children : List Child)
    (h : name = [] ∨ hasBlock = false ∨ o.excludeNs name = true) :
    fillChild o (.namespace_ name previous eol hasBlock children) = some [] := by
  rw [fillChild_eq]
  unfold visible wanted
  rcases h with h | h | h <;> simp [h]

/-- C78: from the children of a unit to the rows of its binding. -/
theorem C78_binding (o : Options) (cs : List Child) (els : List El) (h : fillBlock o cs = some els) (hr : Regular o els) (hd : PlainDocs o els) :
    ∃ text, unitPydef o els = some text ∧ rows text = binding o (Overload.Spec.grouped overloadKey (visibleAll o cs)) := by
  rw [C78_refines] at h
  rw [Option.some.inj h]
  exact C76_partial o els hr hd

/-- C78: from the children of a unit to the rows of its stub. -/
theorem C78_stub (o : Options) (cs : List Child) (els : List El) (h : fillBlock o cs = some els) (hr : Regular o els) :
    ∃ text, unitStub o els = some text ∧
      rows text = stub o (shown (shownEls (Overload.Spec.grouped overloadKey (visibleAll o cs)))) := by
  rw [C78_refines] at h
  rw [Option.some.inj h]
  exact C77_partial o els hr

/-- A unit: overloads of `f`, of which the second one is after a class, in the namespace `A`; an excluded class; an anonymous namespace. -/
def unit1 : List Child :=
  let f := fun (sig : Str) => some (⟨⟨some ⟨true, sig, "f".toList⟩, ["@overload".toList, sig]⟩, [".def(\"f\", ".toList ++ sig ++ ")".toList]⟩ : Code)
  [.comment " A unit".toList,
   .namespace_ "A".toList " Of A".toList [] true
     [.function "f".toList true (f "def f(x: int): ...".toList), .struct "S".toList (some ⟨⟨none, ["class S: ...".toList]⟩, ["class S".toList]⟩),
      .function "f".toList true (f "def f(x: str): ...".toList), .function "g".toList true none,
      .struct "Hidden".toList (some ⟨⟨none, ["class Hidden: ...".toList]⟩, ["class Hidden".toList]⟩)],
   .namespace_ [] [] [] true [.function "h".toList true (f "def h(): ...".toList)]]

def o2 : Options := { o1 with excludeClass := fun n => n = "Hidden".toList }

theorem unit1_regular : Regular o2 (Overload.Spec.grouped overloadKey (visibleAll o2 unit1)) := by
  refine ⟨?_, ?_, by decide +kernel, by decide +kernel, ?_, ?_⟩
  · unfold Blank; decide +kernel
  · unfold Blank; decide +kernel
  · unfold Consistent; decide +kernel
  · intro b s h
    cases h

/-- The hypotheses of `C78_stub` are met. -/
example : ∃ text, unitStub o2 (Overload.Spec.grouped overloadKey (visibleAll o2 unit1)) = some text ∧
    rows text = stub o2 (shown (shownEls (Overload.Spec.grouped overloadKey (visibleAll o2 unit1)))) :=
  C78_stub o2 unit1 _ (C78_refines o2 unit1) unit1_regular

/-- The hypotheses of `C78_binding` are met. -/
example : ∃ text, unitPydef o2 (Overload.Spec.grouped overloadKey (visibleAll o2 unit1)) = some text ∧
    rows text = binding o2 (Overload.Spec.grouped overloadKey (visibleAll o2 unit1)) := by
  have h : ∀ x ∈ spacesAll o2 [] (Overload.Spec.grouped overloadKey (visibleAll o2 unit1)), '{' ∉ docOneLine o2 x.comment := by decide +kernel
  exact C78_binding o2 unit1 _ (C78_refines o2 unit1) unit1_regular
    fun x hx => ⟨Template.inert_of_no_open (h x hx), Template.inert_of_no_open (h x hx)⟩

example : stub o2 (shown (shownEls (Overload.Spec.grouped overloadKey (visibleAll o2 unit1)))) =
    ["# A unit".toList, "# <submodule A>".toList,
     "class A:  # Proxy class that introduces typings for the *submodule* A".toList,
     "    pass  # (This corresponds to a C++ namespace. All methods are static!)".toList,
     "    \"\"\" Of A\"\"\"".toList,
     "    @overload".toList, "    def f(x: int): ...".toList, "    @overload".toList, "    def f(x: str): ...".toList, "    class S: ...".toList,
     "# </submodule A>".toList] := by decide +kernel

example : fillChild o1 (.namespace_ [] [] [] true [.struct "S".toList (some ⟨⟨none, []⟩, []⟩)]) = some [] := C78_hidden _ _ _ _ _ _ (.inl rfl)

/-- C78 as one would state it: an element that cannot be adapted does not affect the others. -/
def C78_isolation_statement : Prop :=
  ∀ (o : Options) (ds : List (Str × Option Code)) (n : Str) (c : Code), (n, some c) ∈ ds → o.includeGlobal n = true →
    ∃ els, fillBlock o [.decls ds] = some els ∧ .leaf .other [] c.stub c.pydef ∈ els

/-- C78 fails for the declarations of one statement: those after one that cannot be adapted are lost with it. -/
theorem C78_isolation_fails : ¬ C78_isolation_statement := by
  intro h
  obtain ⟨els, h1, h2⟩ := h o1 [("a".toList, none), ("b".toList, some ⟨⟨none, []⟩, []⟩)] "b".toList ⟨⟨none, []⟩, []⟩ (by simp) rfl
  have : els = [] := (Option.some.inj h1).symm.trans (by decide +kernel)
  rw [this] at h2
  cases h2

end Verif.Unit.Props
