import Verif.Elem.Lemmas

/-! C49: parents, depth and scope of the elements. -/

namespace Verif.Elem.Props
open Verif.Py Verif.Elem Spec

/-- **C49.** Filling the parents of a tree never fails; afterwards every element has as parent the element that
immediately encloses it (`None` for the root), and no other object is touched. -/
theorem C49_parents (t : Forest) (hd : Distinct t) (ps : Parents) :
    ∃ ps', fillParents ps none t = some ps' ∧ (∀ path i, At t path i → ps' i = some path.getLast?) ∧
      ∀ i, i ∉ ids t → ps' i = ps i :=
  ⟨_, fillParents_eq ps none t, fun path i h => by rw [filled_at h none ps hd, lastOr_none],
    fun i h => filled_other t none ps i h⟩

/-- A unit (0) with a namespace (1) whose block (2) holds a class (3) and an enum (4) with its block (5) and a member (6). -/
def sample : Forest := .cons 0 (.cons 1 (.cons 2 (.cons 3 .nil (.cons 4 (.cons 5 (.cons 6 .nil .nil) .nil) .nil)) .nil) .nil) .nil

def sampleKinds : Kinds := fun
  | 1 => .namespace_ "N".toList
  | 2 => .block
  | 3 => .struct "C".toList []
  | 4 => .enum_ false "E".toList
  | 5 => .block
  | 6 => .decl
  | _ => .other

theorem sample_distinct : Distinct sample := by unfold Distinct; decide +kernel

theorem sample_at : At sample [0, 1, 2, 4, 5] 6 :=
  .down _ _ (.down _ _ (.down _ _ (.next _ _ (.down _ _ (.down _ _ (.here _ _ _))))))

/-- **C49.** Filling again the parents below an element (which every setter of the code does), with its own parent on
top, gives the elements below it the same parents. -/
theorem C49_refill (t : Forest) (hd : Distinct t) (ps : Parents) (top : Nat) :
    ∃ ps', fillParents ps (some top) t = some ps' ∧
      (∀ path i, At t path i → ps' i = some (some (path.getLast?.getD top))) ∧ ∀ i, i ∉ ids t → ps' i = ps i := by
  refine ⟨_, fillParents_eq ps (some top) t, fun path i h => ?_, fun i h => filled_other t (some top) ps i h⟩
  rw [filled_at h (some top) ps hd]
  unfold lastOr
  cases path.getLast? <;> rfl

/-- **C49.** A traversal meets every element exactly once, a parent before its children, and gives the visitor the number
of enclosing elements as depth. -/
theorem C49_visit (t : Forest) :
    (visit 0 t).filterMap onId = ids t ∧
    ∀ i d, Event.onElement i d ∈ visit 0 t ↔ ∃ path, At t path i ∧ path.length = d := by
  refine ⟨visit_ids t 0, fun i d => ?_⟩
  rw [visit_on]
  constructor
  · rintro ⟨p, h, e⟩; exact ⟨p, h, by omega⟩
  · rintro ⟨p, h, e⟩; exact ⟨p, h, by omega⟩

/-- **C49.** After filling the parents, the ancestors of an element are its enclosing elements, innermost first; the loop
ends after as many steps as there are of them. -/
theorem C49_ancestors (t : Forest) (hd : Distinct t) (ps ps' : Parents) (hf : fillParents ps none t = some ps')
    (path : List Nat) (i : Nat) (h : At t path i) (n : Nat) (hn : path.length < n) :
    ancestorsList ps' n false i = some path.reverse ∧ ancestorsList ps' n true i = some (i :: path.reverse) := by
  rw [fillParents_eq] at hf
  cases hf
  exact ⟨ancestors_at hd (right_fill hd ps) h hn false, ancestors_at hd (right_fill hd ps) h hn true⟩

example : ∃ ps', fillParents (fun _ => none) none sample = some ps' ∧ ancestorsList ps' 7 false 6 = some [5, 4, 2, 1, 0] := by
  obtain ⟨ps', h, _⟩ := C49_parents sample sample_distinct (fun _ => none)
  exact ⟨ps', h, (C49_ancestors sample sample_distinct _ ps' h _ _ sample_at 7 (by decide)).1⟩

/-- **C49.** The depth of an element is the number of its enclosing elements. -/
theorem C49_depth (t : Forest) (hd : Distinct t) (ps ps' : Parents) (hf : fillParents ps none t = some ps')
    (path : List Nat) (i : Nat) (h : At t path i) (n : Nat) (hn : path.length < n) : depth ps' n i = some path.length := by
  rw [fillParents_eq] at hf
  cases hf
  have hr := right_fill hd ps
  unfold depth
  rw [hr _ _ h]
  simp only
  rw [chain_parent hd hr h (Nat.le_of_lt hn)]
  simp

/-- **C49.** The scope of an element is the list of its enclosing namespaces, classes and enums, outermost first; with
`include_self` its own one comes last. Members of plain enums are apart. -/
theorem C49_scope (ks : Kinds) (t : Forest) (hd : Distinct t) (ps ps' : Parents) (hf : fillParents ps none t = some ps')
    (path : List Nat) (i : Nat) (h : At t path i) (hc : ¬ ∃ outer, CEnumMember ks path i outer) (n : Nat)
    (hn : path.length < n) :
    cppScope ks ps' n false i = some (scopesOf ks path) ∧ cppScope ks ps' n true i = some (scopesOf ks (path ++ [i])) := by
  rw [fillParents_eq] at hf
  cases hf
  have hr := right_fill hd ps
  have hc' : inCEnum ks (filled none t ps) i = false := Bool.eq_false_iff.2 fun h' => hc ((inCEnum_iff hr h).1 h')
  constructor
  · rw [cppScope_at hd hr h hn false, hc']; simp
  · rw [cppScope_at hd hr h hn true, hc']; simp

example : ∃ ps', fillParents (fun _ => none) none sample = some ps' ∧
    cppScope sampleKinds ps' 7 true 4 = some [⟨.namespace_, "N".toList⟩, ⟨.enum_, "E".toList⟩] := ⟨_, rfl, by decide +kernel⟩

/-- **C49.** A member of a plain enum has the scope that encloses the enum. -/
theorem C49_scope_enum (ks : Kinds) (t : Forest) (hd : Distinct t) (ps ps' : Parents)
    (hf : fillParents ps none t = some ps') (path : List Nat) (i : Nat) (h : At t path i) (outer : List Nat)
    (hc : CEnumMember ks path i outer) (n : Nat) (hn : path.length < n) :
    cppScope ks ps' n false i = some (scopesOf ks outer) := by
  rw [fillParents_eq] at hf
  cases hf
  have hr := right_fill hd ps
  have hc' : inCEnum ks (filled none t ps) i = true := (inCEnum_iff hr h).2 ⟨outer, hc⟩
  rw [cppScope_at hd hr h hn false, hc']
  obtain ⟨e, b, name, _, _, _, rfl⟩ := hc
  simp [dropLast2]

example : CEnumMember sampleKinds [0, 1, 2, 4, 5] 6 [0, 1, 2] := ⟨4, 5, "E".toList, rfl, rfl, rfl, rfl⟩

/-- An element that is not itself a scope has the same scope with and without `include_self`. -/
def C49_self_statement : Prop :=
  ∀ (ks : Kinds) (t : Forest) (ps ps' : Parents), Distinct t → fillParents ps none t = some ps' →
    ∀ path i, At t path i → selfScope (ks i) = none → ∀ n, path.length < n →
      cppScope ks ps' n true i = cppScope ks ps' n false i

/-- **C49, refuted part.** The scope of a member of a plain enum contains the enum when `include_self` is asked, and does
not contain it otherwise. -/
theorem C49_self_fails : ¬ C49_self_statement := by
  intro h
  have := h sampleKinds sample (fun _ => none) _ sample_distinct rfl _ _ sample_at rfl 7 (by decide)
  revert this
  decide +kernel

/-- **C49.** For all other elements it has. -/
theorem C49_self_partial (ks : Kinds) (t : Forest) (hd : Distinct t) (ps ps' : Parents)
    (hf : fillParents ps none t = some ps') (path : List Nat) (i : Nat) (h : At t path i)
    (hc : ¬ ∃ outer, CEnumMember ks path i outer) (hs : selfScope (ks i) = none) (n : Nat) (hn : path.length < n) :
    cppScope ks ps' n true i = cppScope ks ps' n false i := by
  obtain ⟨h1, h2⟩ := C49_scope ks t hd ps ps' hf path i h hc n hn
  rw [h1, h2]
  simp [scopesOf, List.filterMap_append, hs]

/-- No parent, nothing asked yet. -/
def start : World := ⟨fun _ => none, fun _ _ => none⟩

/-- At any time, asking a scope gives the one of the present tree. -/
def C49_cache_statement : Prop :=
  ∀ (ks : Kinds) (fuel : Nat) (ops : List Op) (w w' : World) (b : Bool) (i : Nat) (s : List ScopePart),
    runOps ks fuel start ops = some w → scopeCached ks fuel w b i = some (s, w') →
    cppScope ks w.parents fuel b i = some s

/-- **C49, refuted part.** The scope is remembered from the first time it was asked: when the element is then moved below
another parent, the old scope is returned. -/
theorem C49_cache_fails : ¬ C49_cache_statement := by
  intro h
  have := h (fun i => if i = 0 then .namespace_ "A".toList else if i = 1 then .namespace_ "B".toList else .other) 5
    [.fill none (.cons 0 (.cons 2 .nil .nil) .nil), .ask false 2, .fill none (.cons 1 (.cons 2 .nil .nil) .nil)] _ _ false 2
    [⟨.namespace_, "A".toList⟩] rfl rfl
  revert this
  decide +kernel

/-- An operation that does not fill parents. -/
def notFill : Op → Bool
  | .fill _ _ => false
  | _ => true

/-- **C49.** When the parents are all filled before the first question, every scope returned, after any number of
questions and clearings, is the one of the tree. -/
theorem C49_cache_partial (ks : Kinds) (fuel : Nat) (parents : Parents) (ops : List Op) (hops : ∀ o ∈ ops, notFill o = true)
    (w w' : World) (b : Bool) (i : Nat) (s : List ScopePart)
    (hrun : runOps ks fuel ⟨parents, fun _ _ => none⟩ ops = some w) (hs : scopeCached ks fuel w b i = some (s, w')) :
    cppScope ks parents fuel b i = some s := by
  have key : ∀ (ops : List Op) (w0 : World), (∀ o ∈ ops, notFill o = true) → CacheRight ks fuel w0 →
      w0.parents = parents → runOps ks fuel w0 ops = some w → CacheRight ks fuel w ∧ w.parents = parents := by
    intro ops
    induction ops with
    | nil =>
      intro w0 _ h1 h2 h3
      simp only [runOps, Option.some.injEq] at h3
      subst h3
      exact ⟨h1, h2⟩
    | cons o os ih =>
      intro w0 h0 h1 h2 h3
      rw [runOps] at h3
      cases o with
      | fill top t => exact absurd (h0 _ (List.mem_cons_self ..)) (by simp [notFill])
      | ask b i =>
        simp only [Op.run] at h3
        cases hsc : scopeCached ks fuel w0 b i with
        | none => rw [hsc] at h3; simp at h3
        | some x =>
          rw [hsc] at h3
          simp only [Option.map_some, Option.bind_some] at h3
          obtain ⟨a1, a2, _⟩ := cacheRight_ask h1 hsc
          exact ih x.2 (fun o ho => h0 o (List.mem_cons_of_mem _ ho)) a1 (a2.trans h2) h3
      | clear i =>
        simp only [Op.run, Option.bind_some] at h3
        refine ih (clearCache w0 i) (fun o ho => h0 o (List.mem_cons_of_mem _ ho)) ?_ h2 h3
        intro b j x hx
        simp only [clearCache] at hx
        split at hx
        · cases hx
        · exact h1 b j x hx
  obtain ⟨h1, h2⟩ := key ops _ hops (fun _ _ _ h => by simp at h) rfl hrun
  rw [← h2]
  exact (cacheRight_ask h1 hs).2.2

example : ∃ w, runOps sampleKinds 7 ⟨fun i => if i = 0 then some none else some (some 0), fun _ _ => none⟩
    [.ask false 3, .clear 3, .ask true 3, .ask false 3] = some w := ⟨_, rfl⟩

end Verif.Elem.Props
