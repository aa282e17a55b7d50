import Verif.Unit.Stub
import Verif.Unit.Props

/-! C77: the stub of a unit has each element in the class of its namespace, once. -/

namespace Verif.Unit.Props
open Verif.Py Spec Verif.Unit

theorem created_rows_stub (f : Occ → Bool → Str) (ind : Str) (a d g : Occ → List Str)
    (h : ∀ x b, rows (f x b) = (if b then a x else []) ++ shift ind ((if b then d x else []) ++ g x)) (x : Occ) (xs : List Occ) :
    (created1 f true (x :: xs)).flatMap rows = a x ++ shift ind (d x ++ (x :: xs).flatMap g) := by
  unfold created1
  have e : (xs.map (fun y => f y false)).flatMap rows = shift ind (xs.flatMap g) := by
    rw [List.flatMap_map]
    unfold shift
    rw [List.map_flatMap]
    refine Tree.flatMap_congr' (fun y _ => ?_)
    rw [h]
    rfl
  rw [List.flatMap_cons, e, h, if_pos rfl, if_pos rfl, List.flatMap_cons, List.append_assoc, ← shift_append, List.append_assoc]

/-- C77: the stub of a unit. What stands in no namespace, or in root namespaces only, comes first. Then comes each module once, in the order of
first occurrence: a class, inside it the comment of the first namespace of this name as a docstring, the elements of all the namespaces of this
name in the order of the source, and the modules inside it. In each block, an overload whose signature in Python is one of an earlier overload
is left out (`shown`). Nothing else is in the stub. -/
theorem C77_partial (o : Options) (els : List El) (h : Regular o els) :
    ∃ text, unitStub o els = some text ∧ rows text = stub o (shown (shownEls els)) := by
  have hspaces : spacesAll o [] (shown (shownEls els)) = spacesAll o [] els := by rw [spacesAll_shown, spacesAll_shownEls]
  have hoccs : occsAll o [] (shown (shownEls els)) = (occsAll o [] els).map Occ.shown := by rw [occsAll_shown, occsAll_shownEls]
  have hinside : ∀ p, inside o (shown (shownEls els)) p = inside o els p := by intro p; unfold inside; rw [hspaces]
  have hcomment : ∀ p, comment o (shown (shownEls els)) p = comment o els p := by intro p; unfold comment first; rw [hspaces]
  have hdepth : depth o (shown (shownEls els)) = depth o els := by unfold depth; rw [hspaces]
  obtain ⟨c, h1, h2, h3⟩ := rows_modules o els (storedStub o) ⟨.stub, o.roots, o.pyIndent, o.nsName⟩ rfl (fun c hc => (h.py c hc).1)
    (fun hc => (h.py _ hc).2 rfl) (fun n hn => ⟨(h.names n hn).1, (h.names n hn).2.1⟩) h.consistent (fun n hn => (h.pyNames n hn).1)
    (fun q => proxy o (q.getLast?.getD []) ++
      shift o.pyIndent (rowsOf (Fn.docstringLines (o.comment (comment o els q))) ++ items .stub o (shown (shownEls els)) q))
    (stubModule o (shown (shownEls els)))
    (by
      intro p n hn
      obtain ⟨x, xs, r, e1, e2, e3, e4, e5, e6, e7, e8, e9⟩ := module_occs hn
      rw [e1, created_rows_stub (storedStub o) o.pyIndent _ _ _ (storedStub_rows o h.py) x xs, items_module _ _ _ (by simp), hoccs,
        List.filter_map, List.getLast?_concat, e9, e3]
      have e10 : List.filter ((fun x => decide (path o x.scope = p ++ [n])) ∘ Occ.shown) (occsAll o [] els) = x :: xs := e1
      rw [e10, List.flatMap_map, proxy_rows o n (h.pyNames n (e6 n (by simp))).1 h.py]
      rfl)
    (by
      intro p n _ h0
      rw [List.append_eq_nil_iff] at h0
      have h1 := h0.1
      unfold proxy rowsOf at h1
      rw [List.flatMap_cons, List.flatMap_cons, List.append_eq_nil_iff, List.append_eq_nil_iff] at h1
      refine rows_ne_nil (s := o.pyIndent ++ "pass  # (This corresponds to a C++ namespace. All methods are static!".toList) (c := ')') (by decide) ?_
      refine Eq.trans ?_ h1.2.1
      rw [List.append_assoc]
      refine congrArg rows (congrArg (o.pyIndent ++ ·) ?_)
      decide +kernel)
    (fun _ _ => rfl)
    (by
      intro d p n
      rw [← hinside (p ++ [n])]
      dsimp only
      rw [List.getLast?_concat, ← hcomment]
      show ["# <submodule ".toList ++ o.nsName n ++ ">".toList] ++ proxy o n ++ _ ++ _ ++ _ = _ ++ (proxy o n ++ _) ++ _ ++ _
      simp only [List.append_assoc]
      rfl)
  unfold unitStub
  rw [elsStub_eq, h1]
  refine ⟨_, rfl, ?_⟩
  dsimp only
  rw [rows_append (lead_main h false), rows_append h2, h3, rows_main]
  unfold stub
  rw [hdepth, hinside, items_main, rows_unlines, stubBlock_rows]

/-- The hypotheses of `C77_partial` are met. -/
example : ∃ text, unitStub o1 u1 = some text ∧ rows text = stub o1 (shown (shownEls u1)) := C77_partial o1 u1 u1_regular

example : stub o1 (shown (shownEls u1)) =
    ["def a(): ...".toList, "def b(): ...".toList, "def e(): ...".toList,
     "# <submodule A>".toList,
     "class A:  # Proxy class that introduces typings for the *submodule* A".toList,
     "    pass  # (This corresponds to a C++ namespace. All methods are static!)".toList,
     "    \"\"\"In A\"\"\"".toList,
     "    def c(): ...".toList, "    def f(): ...".toList,
     "    # <submodule B>".toList,
     "    class B:  # Proxy class that introduces typings for the *submodule* B".toList,
     "        pass  # (This corresponds to a C++ namespace. All methods are static!)".toList,
     "        def d(): ...".toList,
     "    # </submodule B>".toList,
     "# </submodule A>".toList] := by decide +kernel

/-- C77 as one would state it: the comment of a namespace is the docstring of its class, that is the first statement of the class. -/
def C77_docstring_statement : Prop :=
  ∀ (o : Options) (els : List El) (p : List Str) (n : Str) (d : Nat), n ∈ inside o els p →
    comment o els (p ++ [n]) ≠ [] → ∃ r, stubModule o els (d + 1) p n =
      ["# <submodule ".toList ++ o.nsName n ++ ">".toList,
       "class ".toList ++ o.nsName n ++ ":  # Proxy class that introduces typings for the *submodule* ".toList ++ o.nsName n] ++
      shift o.pyIndent (rowsOf (Fn.docstringLines (o.comment (comment o els (p ++ [n]))))) ++ r

/-- C77 fails: the statement `pass` comes before it. -/
theorem C77_docstring_fails : ¬ C77_docstring_statement := by
  intro h
  obtain ⟨r, hr⟩ := h o1 u1 [] "A".toList 0 (by decide +kernel) (by decide +kernel)
  have h2 := congrArg (fun l => l[2]?) hr
  have e1 : (stubModule o1 u1 1 [] "A".toList)[2]? =
      some "    pass  # (This corresponds to a C++ namespace. All methods are static!)".toList := by decide +kernel
  have e2 : ∀ r : List Str, (["# <submodule ".toList ++ o1.nsName "A".toList ++ ">".toList,
       "class ".toList ++ o1.nsName "A".toList ++ ":  # Proxy class that introduces typings for the *submodule* ".toList ++
         o1.nsName "A".toList] ++
      shift o1.pyIndent (rowsOf (Fn.docstringLines (o1.comment (comment o1 u1 ([] ++ ["A".toList]))))) ++ r)[2]? =
      some "    \"\"\"In A\"\"\"".toList := by
    intro r
    rw [List.getElem?_append_left (by decide +kernel)]
    decide +kernel
  rw [e1, e2] at h2
  revert h2
  decide +kernel

end Verif.Unit.Props
