import Verif.Ids.Model
import Verif.Scope.Props

/-! Properties C110 (the elements that the queries of a unit find) and C111 (the identifiers that a unit knows). -/

namespace Verif.Ids.Props
open Verif.Py Verif.Ids

/-! ### Specifications -/

/-- The declarations of the parameters of a template. -/
def templateDecls : Option (List (Option Str)) → List Str
  | none => []
  | some ps => ps.filterMap id

mutual
/-- The names of all the declarations: variables, members, enumerators, parameters. -/
def declNames : Node → List Str
  | .namespace_ _ l => declNamesAll l
  | .struct _ _ zs t => declNamesZones zs ++ templateDecls t
  | .enum_ _ _ l => l.filterMap id
  | .declStmt l => l
  | .fn f => f.params ++ templateDecls f.template
  | .other => []
def declNamesAll : List Node → List Str
  | [] => []
  | x :: l => declNames x ++ declNamesAll l
def declNamesZones : List (List Node) → List Str
  | [] => []
  | z :: l => declNamesAll z ++ declNamesZones l
end

mutual
/-- The names of all the functions. -/
def fnNames : Node → List Str
  | .namespace_ _ l => fnNamesAll l
  | .struct _ _ zs _ => fnNamesZones zs
  | .fn f => [f.name]
  | .enum_ _ _ _ => []
  | .declStmt _ => []
  | .other => []
def fnNamesAll : List Node → List Str
  | [] => []
  | x :: l => fnNames x ++ fnNamesAll l
def fnNamesZones : List (List Node) → List Str
  | [] => []
  | z :: l => fnNamesAll z ++ fnNamesZones l
end

mutual
/-- The names of all the classes. -/
def structNames : Node → List Str
  | .namespace_ _ l => structNamesAll l
  | .struct n _ zs _ => n :: structNamesZones zs
  | .fn _ => []
  | .enum_ _ _ _ => []
  | .declStmt _ => []
  | .other => []
def structNamesAll : List Node → List Str
  | [] => []
  | x :: l => structNames x ++ structNamesAll l
def structNamesZones : List (List Node) → List Str
  | [] => []
  | z :: l => structNamesAll z ++ structNamesZones l
end

mutual
/-- The definitions of functions have no parameter (nor template parameter) with a name. -/
def bare : Node → Bool
  | .namespace_ _ l => bareAll l
  | .struct _ _ zs _ => bareZones zs
  | .fn f => !f.body || (f.params.isEmpty && (templateDecls f.template).isEmpty)
  | .enum_ _ _ _ => true
  | .declStmt _ => true
  | .other => true
def bareAll : List Node → Bool
  | [] => true
  | x :: l => bare x && bareAll l
def bareZones : List (List Node) → Bool
  | [] => true
  | z :: l => bareAll z && bareZones l
end

mutual
/-- The paths of what is declared: classes, enumerations, functions except constructors, variables and members, enumerators. The enumerators of a C enumeration
are in the scope around it. -/
def declared (cls : Option Str) (scope : List Str) : Node → List (List Str)
  | .namespace_ n l => declaredAll none (scope ++ [n]) l
  | .struct n _ zs _ => (scope ++ [n]) :: declaredZones n (scope ++ [n]) zs
  | .enum_ c n l => (scope ++ [n]) :: l.filterMap (fun a => a.map (fun a => (if c then scope ++ [n] else scope) ++ [a]))
  | .declStmt l => l.map (fun n => scope ++ [n])
  | .fn f => if cls = some f.name then [] else [scope ++ [f.name]]
  | .other => []
def declaredAll (cls : Option Str) (scope : List Str) : List Node → List (List Str)
  | [] => []
  | x :: l => declared cls scope x ++ declaredAll cls scope l
def declaredZones (cls : Str) (scope : List Str) : List (List Node) → List (List Str)
  | [] => []
  | z :: l => declaredAll (some cls) scope z ++ declaredZones cls scope l
end

/-! ### C110 -/

/-- What is selected in a list of elements. -/
def declOf (x : Seen) : Option Str := match x.1 with | .decl n => some n | _ => none
def fnOf (x : Seen) : Option Str := match x.1 with | .fn n => some n | _ => none
def structOf (x : Seen) : Option Str := match x.1 with | .struct n => some n | _ => none

theorem supers_none {α : Type} (p : Seen → Option α) (h1 : ∀ a, p (.supers, a) = none) (h2 : ∀ a, p (.super_, a) = none) (anc : List Item) :
    ∀ s, (visitSupers anc s).filterMap p = []
  | none => rfl
  | some l => by
    unfold visitSupers
    rw [List.filterMap_cons, h1]
    simp only
    rw [List.filterMap_map]
    exact List.filterMap_eq_nil_iff.2 (fun x _ => h2 _)

theorem params_decls (anc : List Item) (ps : List (Option Str)) : (visitParams anc ps).filterMap declOf = ps.filterMap id := by
  unfold visitParams
  rw [List.filterMap_cons]
  show (ps.flatMap _).filterMap declOf = _
  induction ps with
  | nil => rfl
  | cons p ps ih =>
    rw [List.flatMap_cons, List.filterMap_append, ih]
    cases p with
    | none => rfl
    | some n => rfl

theorem template_decls (anc : List Item) : ∀ t, (visitTemplate anc t).filterMap declOf = templateDecls t
  | none => rfl
  | some ps => by
    show ((.template, anc) :: visitParams (.template :: anc) ps : List Seen).filterMap declOf = ps.filterMap id
    rw [List.filterMap_cons]
    exact params_decls _ ps

theorem params_skip {α : Type} (p : Seen → Option α) (h1 : ∀ a, p (.params, a) = none) (h2 : ∀ a, p (.param, a) = none)
    (h3 : ∀ n a, p (.decl n, .param :: a) = none) (h4 : ∀ a, p (.type_, a) = none) (anc : List Item) (ps : List (Option Str)) :
    (visitParams anc ps).filterMap p = [] := by
  refine List.filterMap_eq_nil_iff.2 (fun x hx => ?_)
  unfold visitParams at hx
  rcases List.mem_cons.1 hx with rfl | hx
  · exact h1 _
  · obtain ⟨q, _, hq⟩ := List.mem_flatMap.1 hx
    unfold visitParam at hq
    rcases List.mem_cons.1 hq with rfl | hq
    · exact h2 _
    · cases q with
      | none => cases hq
      | some n =>
        rcases List.mem_cons.1 hq with rfl | hq
        · exact h3 _ _
        · obtain rfl := List.mem_singleton.1 hq
          exact h4 _

theorem template_skip {α : Type} (p : Seen → Option α) (h0 : ∀ a, p (.template, a) = none) (h1 : ∀ a, p (.params, a) = none) (h2 : ∀ a, p (.param, a) = none)
    (h3 : ∀ n a, p (.decl n, .param :: a) = none) (h4 : ∀ a, p (.type_, a) = none) (anc : List Item) :
    ∀ t, (visitTemplate anc t).filterMap p = []
  | none => rfl
  | some ps => by
    show ((.template, anc) :: visitParams (.template :: anc) ps : List Seen).filterMap p = []
    rw [List.filterMap_cons, h0]
    exact params_skip p h1 h2 h3 h4 _ ps

theorem stmt_decls (anc : List Item) (l : List Str) : (visitStmt anc l).filterMap declOf = l := by
  unfold visitStmt
  rw [List.filterMap_cons]
  show (l.flatMap _).filterMap declOf = l
  induction l with
  | nil => rfl
  | cons n l ih =>
    rw [List.flatMap_cons, List.filterMap_append, ih]
    rfl

theorem stmt_skip {α : Type} (p : Seen → Option α) (h0 : ∀ a, p (.declStmt, a) = none) (h1 : ∀ n a, p (.decl n, a) = none) (h2 : ∀ a, p (.type_, a) = none)
    (anc : List Item) (l : List Str) : (visitStmt anc l).filterMap p = [] := by
  refine List.filterMap_eq_nil_iff.2 (fun x hx => ?_)
  unfold visitStmt at hx
  rcases List.mem_cons.1 hx with rfl | hx
  · exact h0 _
  · obtain ⟨n, _, hq⟩ := List.mem_flatMap.1 hx
    rcases List.mem_cons.1 hq with rfl | hq
    · exact h1 _ _
    · obtain rfl := List.mem_singleton.1 hq
      exact h2 _

theorem enum_decls (anc : List Item) (c : Bool) (n : Str) (l : List (Option Str)) : (visitEnum anc c n l).filterMap declOf = l.filterMap id := by
  unfold visitEnum
  rw [List.filterMap_cons, List.filterMap_cons]
  show (l.map _).filterMap declOf = _
  induction l with
  | nil => rfl
  | cons a l ih =>
    rw [List.map_cons, List.filterMap_cons, ih]
    cases a <;> rfl

theorem enum_skip {α : Type} (p : Seen → Option α) (h0 : ∀ c n a, p (.enum_ c n, a) = none) (h1 : ∀ a, p (.block, a) = none)
    (h2 : ∀ n a, p (.decl n, a) = none) (h3 : ∀ a, p (.other, a) = none) (anc : List Item) (c : Bool) (n : Str) (l : List (Option Str)) :
    (visitEnum anc c n l).filterMap p = [] := by
  refine List.filterMap_eq_nil_iff.2 (fun x hx => ?_)
  unfold visitEnum at hx
  rcases List.mem_cons.1 hx with rfl | hx
  · exact h0 _ _ _
  · rcases List.mem_cons.1 hx with rfl | hx
    · exact h1 _
    · obtain ⟨a, _, rfl⟩ := List.mem_map.1 hx
      cases a with
      | none => exact h3 _
      | some a => exact h2 _ _

theorem fn_decls (anc : List Item) (f : Fn) : (visitFn anc f).filterMap declOf = if f.body then [] else f.params ++ templateDecls f.template := by
  unfold visitFn
  rw [List.filterMap_cons]
  show (if f.body = true then _ else _ : List Seen).filterMap declOf = _
  cases hb : f.body with
  | true => cases f.ctor <;> rfl
  | false =>
    simp only [Bool.false_eq_true, if_false]
    rw [List.filterMap_append, List.filterMap_append, params_decls, template_decls]
    have e : (f.params.map some).filterMap id = f.params := by rw [List.filterMap_map]; exact List.filterMap_some
    rw [e]
    cases f.ret <;> rfl

mutual
theorem visit_decls (anc : List Item) : ∀ x : Node, ((visit anc x).filterMap declOf).Sublist (declNames x) ∧
    (bare x = true → (visit anc x).filterMap declOf = declNames x)
  | .namespace_ n l => by
    have h := all_decls (.block :: .namespace_ n :: anc) l
    show ((_ :: _ :: visitAll _ l : List Seen).filterMap declOf).Sublist (declNamesAll l) ∧ (bareAll l = true → _)
    rw [List.filterMap_cons, List.filterMap_cons]
    exact h
  | .struct n sup zs t => by
    have h := zones_decls (.block :: .struct n :: anc) zs
    have e : (visit anc (.struct n sup zs t)).filterMap declOf =
        (visitZones (.block :: .struct n :: anc) zs).filterMap declOf ++ templateDecls t := by
      show (_ :: (visitSupers _ sup ++ (_ :: visitZones _ zs ++ visitTemplate _ t)) : List Seen).filterMap declOf = _
      rw [List.filterMap_cons]
      show (visitSupers _ sup ++ (_ :: visitZones _ zs ++ visitTemplate _ t) : List Seen).filterMap declOf = _
      rw [List.filterMap_append, supers_none declOf (fun _ => rfl) (fun _ => rfl), List.nil_append, List.filterMap_append, List.filterMap_cons, template_decls]
      rfl
    rw [e]
    exact ⟨h.1.append (List.Sublist.refl _), fun hb => congrArg (· ++ _) (h.2 hb)⟩
  | .enum_ c n l => ⟨by rw [show visit anc (.enum_ c n l) = visitEnum anc c n l from rfl, enum_decls]; exact List.Sublist.refl _,
      fun _ => enum_decls anc c n l⟩
  | .declStmt l => ⟨by rw [show visit anc (.declStmt l) = visitStmt anc l from rfl, stmt_decls]; exact List.Sublist.refl _, fun _ => stmt_decls anc l⟩
  | .fn f => by
    rw [show visit anc (.fn f) = visitFn anc f from rfl, fn_decls]
    show _ ∧ ((!f.body || (f.params.isEmpty && (templateDecls f.template).isEmpty)) = true → _ = f.params ++ templateDecls f.template)
    cases f.body with
    | false => exact ⟨List.Sublist.refl _, fun _ => rfl⟩
    | true =>
      refine ⟨List.nil_sublist _, fun h => ?_⟩
      have h : (f.params.isEmpty && (templateDecls f.template).isEmpty) = true := h
      rw [Bool.and_eq_true, List.isEmpty_iff, List.isEmpty_iff] at h
      rw [h.1, h.2]
      rfl
  | .other => ⟨List.Sublist.refl _, fun _ => rfl⟩
theorem all_decls (anc : List Item) : ∀ l : List Node, ((visitAll anc l).filterMap declOf).Sublist (declNamesAll l) ∧
    (bareAll l = true → (visitAll anc l).filterMap declOf = declNamesAll l)
  | [] => ⟨List.Sublist.refl _, fun _ => rfl⟩
  | x :: l => by
    have h1 := visit_decls anc x
    have h2 := all_decls anc l
    show ((visit anc x ++ visitAll anc l).filterMap declOf).Sublist (declNames x ++ declNamesAll l) ∧ ((bare x && bareAll l) = true → _ = declNames x ++ declNamesAll l)
    rw [List.filterMap_append]
    refine ⟨h1.1.append h2.1, fun h => ?_⟩
    rw [Bool.and_eq_true] at h
    show (visit anc x ++ visitAll anc l).filterMap declOf = _
    rw [List.filterMap_append, h1.2 h.1, h2.2 h.2]
theorem zones_decls (anc : List Item) : ∀ l : List (List Node), ((visitZones anc l).filterMap declOf).Sublist (declNamesZones l) ∧
    (bareZones l = true → (visitZones anc l).filterMap declOf = declNamesZones l)
  | [] => ⟨List.Sublist.refl _, fun _ => rfl⟩
  | z :: l => by
    have h1 := all_decls (.zone :: anc) z
    have h2 := zones_decls anc l
    show ((_ :: visitAll _ z ++ visitZones anc l : List Seen).filterMap declOf).Sublist (declNamesAll z ++ declNamesZones l) ∧
      ((bareAll z && bareZones l) = true → _ = declNamesAll z ++ declNamesZones l)
    rw [List.filterMap_append, List.filterMap_cons]
    refine ⟨h1.1.append h2.1, fun h => ?_⟩
    rw [Bool.and_eq_true] at h
    show (_ :: visitAll _ z ++ visitZones anc l : List Seen).filterMap declOf = _
    rw [List.filterMap_append, List.filterMap_cons, h2.2 h.2]
    exact congrArg (· ++ _) (h1.2 h.1)
end

/-- C110, the full statement for declarations, as documented: the declarations of variables, the parameters of the functions, the enumerators. -/
def C110_decls_statement : Prop := ∀ body : List Node, allDecls body = declNamesAll body

/-- C110: it holds when the definitions of functions have no parameter; in general the declarations which are found are in order, and some are missing. -/
theorem C110_decls_partial (body : List Node) : (allDecls body).Sublist (declNamesAll body) ∧ (bareAll body = true → allDecls body = declNamesAll body) := by
  have e : allDecls body = (visitAll [.unit] body).filterMap declOf := rfl
  rw [e]
  exact all_decls [.unit] body

/-- C110: it fails. The parameters of a function with a body are not visited. -/
theorem C110_decls_fails : ¬ C110_decls_statement ∧
    allDecls [.fn ⟨false, false, "f".toList, true, ["a".toList], none⟩, .fn ⟨true, false, "g".toList, true, ["b".toList], none⟩] = ["a".toList] := by
  refine ⟨fun h => ?_, by decide +kernel⟩
  have := h [.fn ⟨true, false, "g".toList, true, ["b".toList], none⟩]
  revert this
  decide +kernel

theorem fn_fns (anc : List Item) (f : Fn) : (visitFn anc f).filterMap fnOf = [f.name] := by
  unfold visitFn
  rw [List.filterMap_cons]
  show f.name :: (if f.body = true then _ else _ : List Seen).filterMap fnOf = _
  cases f.body with
  | true => cases f.ctor <;> rfl
  | false =>
    simp only [Bool.false_eq_true, if_false]
    rw [List.filterMap_append, List.filterMap_append,
      params_skip fnOf (fun _ => rfl) (fun _ => rfl) (fun _ _ => rfl) (fun _ => rfl),
      template_skip fnOf (fun _ => rfl) (fun _ => rfl) (fun _ => rfl) (fun _ _ => rfl) (fun _ => rfl)]
    cases f.ret <;> rfl

mutual
theorem visit_fns (anc : List Item) : ∀ x : Node, (visit anc x).filterMap fnOf = fnNames x
  | .namespace_ n l => by
    show (_ :: _ :: visitAll _ l : List Seen).filterMap fnOf = _
    rw [List.filterMap_cons, List.filterMap_cons]
    exact all_fns _ l
  | .struct n sup zs t => by
    show (_ :: (visitSupers _ sup ++ (_ :: visitZones _ zs ++ visitTemplate _ t)) : List Seen).filterMap fnOf = _
    rw [List.filterMap_cons]
    show (visitSupers _ sup ++ (_ :: visitZones _ zs ++ visitTemplate _ t) : List Seen).filterMap fnOf = _
    rw [List.filterMap_append, supers_none fnOf (fun _ => rfl) (fun _ => rfl), List.nil_append, List.filterMap_append, List.filterMap_cons,
      template_skip fnOf (fun _ => rfl) (fun _ => rfl) (fun _ => rfl) (fun _ _ => rfl) (fun _ => rfl), List.append_nil]
    exact zones_fns _ zs
  | .enum_ c n l => enum_skip fnOf (fun _ _ _ => rfl) (fun _ => rfl) (fun _ _ => rfl) (fun _ => rfl) anc c n l
  | .declStmt l => stmt_skip fnOf (fun _ => rfl) (fun _ _ => rfl) (fun _ => rfl) anc l
  | .fn f => fn_fns anc f
  | .other => rfl
theorem all_fns (anc : List Item) : ∀ l : List Node, (visitAll anc l).filterMap fnOf = fnNamesAll l
  | [] => rfl
  | x :: l => by
    show (visit anc x ++ visitAll anc l).filterMap fnOf = fnNames x ++ fnNamesAll l
    rw [List.filterMap_append, visit_fns anc x, all_fns anc l]
theorem zones_fns (anc : List Item) : ∀ l : List (List Node), (visitZones anc l).filterMap fnOf = fnNamesZones l
  | [] => rfl
  | z :: l => by
    show (_ :: visitAll _ z ++ visitZones anc l : List Seen).filterMap fnOf = fnNamesAll z ++ fnNamesZones l
    rw [List.filterMap_append, List.filterMap_cons, zones_fns anc l]
    exact congrArg (· ++ _) (all_fns _ z)
end

theorem fn_structs (anc : List Item) (f : Fn) : (visitFn anc f).filterMap structOf = [] := by
  unfold visitFn
  rw [List.filterMap_cons]
  show (if f.body = true then _ else _ : List Seen).filterMap structOf = _
  cases f.body with
  | true => cases f.ctor <;> rfl
  | false =>
    simp only [Bool.false_eq_true, if_false]
    rw [List.filterMap_append, List.filterMap_append,
      params_skip structOf (fun _ => rfl) (fun _ => rfl) (fun _ _ => rfl) (fun _ => rfl),
      template_skip structOf (fun _ => rfl) (fun _ => rfl) (fun _ => rfl) (fun _ _ => rfl) (fun _ => rfl)]
    cases f.ret <;> rfl

mutual
theorem visit_structs (anc : List Item) : ∀ x : Node, (visit anc x).filterMap structOf = structNames x
  | .namespace_ n l => by
    show (_ :: _ :: visitAll _ l : List Seen).filterMap structOf = _
    rw [List.filterMap_cons, List.filterMap_cons]
    exact all_structs _ l
  | .struct n sup zs t => by
    show (_ :: (visitSupers _ sup ++ (_ :: visitZones _ zs ++ visitTemplate _ t)) : List Seen).filterMap structOf = n :: structNamesZones zs
    rw [List.filterMap_cons]
    show n :: (visitSupers _ sup ++ (_ :: visitZones _ zs ++ visitTemplate _ t) : List Seen).filterMap structOf = _
    rw [List.filterMap_append, supers_none structOf (fun _ => rfl) (fun _ => rfl), List.nil_append, List.filterMap_append, List.filterMap_cons,
      template_skip structOf (fun _ => rfl) (fun _ => rfl) (fun _ => rfl) (fun _ _ => rfl) (fun _ => rfl), List.append_nil]
    exact congrArg (n :: ·) (zones_structs _ zs)
  | .enum_ c n l => enum_skip structOf (fun _ _ _ => rfl) (fun _ => rfl) (fun _ _ => rfl) (fun _ => rfl) anc c n l
  | .declStmt l => stmt_skip structOf (fun _ => rfl) (fun _ _ => rfl) (fun _ => rfl) anc l
  | .fn f => fn_structs anc f
  | .other => rfl
theorem all_structs (anc : List Item) : ∀ l : List Node, (visitAll anc l).filterMap structOf = structNamesAll l
  | [] => rfl
  | x :: l => by
    show (visit anc x ++ visitAll anc l).filterMap structOf = structNames x ++ structNamesAll l
    rw [List.filterMap_append, visit_structs anc x, all_structs anc l]
theorem zones_structs (anc : List Item) : ∀ l : List (List Node), (visitZones anc l).filterMap structOf = structNamesZones l
  | [] => rfl
  | z :: l => by
    show (_ :: visitAll _ z ++ visitZones anc l : List Seen).filterMap structOf = structNamesAll z ++ structNamesZones l
    rw [List.filterMap_append, List.filterMap_cons, zones_structs anc l]
    exact congrArg (· ++ _) (all_structs _ z)
end

/-- C110: all the functions are found, at any depth, once each and in the order of the code, and so are all the classes. -/
theorem C110_functions (body : List Node) : allFunctions body = fnNamesAll body ∧ allStructs body = structNamesAll body :=
  ⟨all_fns [.unit] body, all_structs [.unit] body⟩

/-- A namespace with a class template, with a constructor and a method with a body, a C enumeration, an enumeration class, and a variable. -/
def demo : List Node := [.namespace_ "N".toList [
  .struct "S".toList (some ["P".toList]) [[.declStmt ["x".toList]],
    [.fn ⟨false, true, "S".toList, false, ["a".toList], none⟩, .fn ⟨true, false, "get".toList, true, ["i".toList], none⟩]] (some [none, some "K".toList]),
  .enum_ false "E".toList [some "A".toList, none], .enum_ true "F".toList [some "B".toList], .declStmt ["v".toList, "w".toList]], .other]

example : allDecls demo = ["x", "a", "K", "A", "B", "v", "w"].map String.toList ∧ allFunctions demo = ["S", "get"].map String.toList ∧
    allStructs demo = ["S"].map String.toList := by decide +kernel

/-! ### C111 -/

theorem text_snoc (s : List Str) (n : Str) : Scope.qualifiedName s n = Scope.Spec.text (s ++ [n]) := by
  have h := Scope.pathPrefix_eq s
  unfold Scope.qualifiedName
  rw [← h]
  clear h
  cases s with
  | nil => rfl
  | cons a s =>
    unfold Scope.Spec.pathPrefix
    rw [if_neg (by simp)]
    induction s generalizing a with
    | nil => rfl
    | cons b s ih =>
      show (a ++ "::".toList ++ Scope.Spec.text (b :: s)) ++ "::".toList ++ n = a ++ "::".toList ++ Scope.Spec.text (b :: s ++ [n])
      rw [← ih b]
      simp only [List.append_assoc]

/-- The scope of the children of a list of parents. -/
def scopeOf (anc : List Item) : List Str := anc.reverse.filterMap selfScope

theorem scopeOf_cons (i : Item) (anc : List Item) : scopeOf (i :: anc) = scopeOf anc ++ (selfScope i).toList := by
  unfold scopeOf
  rw [List.reverse_cons, List.filterMap_append]
  cases h : selfScope i with
  | none => rw [List.filterMap_cons, h]; rfl
  | some n => rw [List.filterMap_cons, h]; rfl

theorem scopeOf_skip {i : Item} (h : selfScope i = none) (anc : List Item) : scopeOf (i :: anc) = scopeOf anc := by
  rw [scopeOf_cons, h]
  exact List.append_nil _

theorem param_decl_skip (n : Str) (a : List Item) : identifier (.decl n, .param :: a) = none := rfl

theorem fn_known (anc : List Item) (cls : Option Str) (hc : ∀ n, isConstructor anc n = decide (cls = some n)) (f : Fn) :
    (visitFn anc f).filterMap identifier = (declared cls (scopeOf anc) (.fn f)).map Scope.Spec.text := by
  have e : (visitFn anc f).filterMap identifier = (identifier (.fn f.name, anc)).toList := by
    unfold visitFn
    rw [List.filterMap_cons]
    have e : (if f.body = true then (.other, .fn f.name :: anc) :: (if f.ctor = true then [(.other, .fn f.name :: anc)] else [])
        else (if f.ret = true then [(.type_, .fn f.name :: anc)] else []) ++ visitParams (.fn f.name :: anc) (f.params.map some) ++
          visitTemplate (.fn f.name :: anc) f.template : List Seen).filterMap identifier = [] := by
      cases f.body with
      | true => cases f.ctor <;> rfl
      | false =>
        simp only [Bool.false_eq_true, if_false]
        rw [List.filterMap_append, List.filterMap_append,
          params_skip identifier (fun _ => rfl) (fun _ => rfl) param_decl_skip (fun _ => rfl),
          template_skip identifier (fun _ => rfl) (fun _ => rfl) (fun _ => rfl) param_decl_skip (fun _ => rfl)]
        cases f.ret <;> rfl
    rw [e]
    cases identifier (.fn f.name, anc) <;> rfl
  have e2 : identifier (.fn f.name, anc) = if isConstructor anc f.name then none else some (Scope.qualifiedName (scopeOf anc) f.name) := rfl
  rw [e, e2, hc]
  show _ = (if cls = some f.name then [] else [scopeOf anc ++ [f.name]]).map Scope.Spec.text
  by_cases h : cls = some f.name
  · rw [if_pos (decide_eq_true h), if_pos h]; rfl
  · rw [if_neg (by simpa using h), if_neg h, text_snoc]; rfl

theorem stmt_known (anc : List Item) (l : List Str) : (visitStmt anc l).filterMap identifier = (l.map (fun n => scopeOf anc ++ [n])).map Scope.Spec.text := by
  unfold visitStmt
  rw [List.filterMap_cons]
  show (l.flatMap _).filterMap identifier = _
  induction l with
  | nil => rfl
  | cons n l ih =>
    rw [List.flatMap_cons, List.filterMap_append, ih, List.map_cons, List.map_cons]
    have e : (visitDecl (.declStmt :: anc) n).filterMap identifier = [Scope.qualifiedName (scopeOf (.declStmt :: anc)) n] := rfl
    rw [e, scopeOf_skip rfl, text_snoc]
    rfl

theorem enum_known (anc : List Item) (c : Bool) (n : Str) (l : List (Option Str)) :
    (visitEnum anc c n l).filterMap identifier = (declared none (scopeOf anc) (.enum_ c n l)).map Scope.Spec.text := by
  unfold visitEnum
  rw [List.filterMap_cons, List.filterMap_cons]
  show Scope.qualifiedName (scopeOf anc) n :: (l.map _).filterMap identifier =
    Scope.Spec.text (scopeOf anc ++ [n]) :: (l.filterMap (fun a => a.map (fun a => (if c then scopeOf anc ++ [n] else scopeOf anc) ++ [a]))).map Scope.Spec.text
  rw [text_snoc]
  congr 1
  induction l with
  | nil => rfl
  | cons a l ih =>
    cases a with
    | none =>
      rw [List.map_cons, List.filterMap_cons, List.filterMap_cons, ih]
      rfl
    | some a =>
      have e : identifier (.decl a, .block :: .enum_ c n :: anc) = some (Scope.Spec.text ((if c then scopeOf anc ++ [n] else scopeOf anc) ++ [a])) := by
        rw [← text_snoc]
        cases c with
        | false => rfl
        | true =>
          show some (Scope.qualifiedName (scopeOf (.block :: .enum_ true n :: anc)) a) = _
          rw [scopeOf_skip rfl, scopeOf_cons]
          rfl
      rw [List.map_cons]
      exact (List.filterMap_cons_some e).trans (congrArg (_ :: ·) ih)

theorem beq_eq_decide_comm (m n : Str) : (m == n) = decide (some n = some m) := by
  by_cases h : m = n
  · subst h; simp
  · rw [beq_eq_false_iff_ne.2 h, decide_eq_false (fun k => h (Option.some.inj k).symm)]

mutual
theorem visit_known (anc : List Item) (cls : Option Str) (hc : ∀ n, isConstructor anc n = decide (cls = some n)) :
    ∀ x : Node, (visit anc x).filterMap identifier = (declared cls (scopeOf anc) x).map Scope.Spec.text
  | .namespace_ n l => by
    have h := all_known (.block :: .namespace_ n :: anc) none (fun _ => rfl) l
    rw [scopeOf_skip rfl, scopeOf_cons] at h
    show (_ :: _ :: visitAll _ l : List Seen).filterMap identifier = (declaredAll none (scopeOf anc ++ [n]) l).map Scope.Spec.text
    rw [List.filterMap_cons, List.filterMap_cons]
    exact h
  | .struct n sup zs t => by
    have h := zones_known (.block :: .struct n :: anc) n (fun m => beq_eq_decide_comm m n) zs
    rw [scopeOf_skip rfl, scopeOf_cons] at h
    show (_ :: (visitSupers _ sup ++ (_ :: visitZones _ zs ++ visitTemplate _ t)) : List Seen).filterMap identifier =
      Scope.Spec.text (scopeOf anc ++ [n]) :: (declaredZones n (scopeOf anc ++ [n]) zs).map Scope.Spec.text
    rw [List.filterMap_cons]
    show Scope.qualifiedName (scopeOf anc) n :: (visitSupers _ sup ++ (_ :: visitZones _ zs ++ visitTemplate _ t) : List Seen).filterMap identifier = _
    rw [text_snoc, List.filterMap_append, supers_none identifier (fun _ => rfl) (fun _ => rfl), List.nil_append, List.filterMap_append, List.filterMap_cons,
      template_skip identifier (fun _ => rfl) (fun _ => rfl) (fun _ => rfl) param_decl_skip (fun _ => rfl), List.append_nil]
    exact congrArg (_ :: ·) h
  | .enum_ c n l => enum_known anc c n l
  | .declStmt l => stmt_known anc l
  | .fn f => fn_known anc cls hc f
  | .other => rfl
theorem all_known (anc : List Item) (cls : Option Str) (hc : ∀ n, isConstructor anc n = decide (cls = some n)) :
    ∀ l : List Node, (visitAll anc l).filterMap identifier = (declaredAll cls (scopeOf anc) l).map Scope.Spec.text
  | [] => rfl
  | x :: l => by
    show (visit anc x ++ visitAll anc l).filterMap identifier = (declared cls (scopeOf anc) x ++ declaredAll cls (scopeOf anc) l).map Scope.Spec.text
    rw [List.filterMap_append, List.map_append, visit_known anc cls hc x, all_known anc cls hc l]
theorem zones_known (anc : List Item) (cls : Str) (hc : ∀ n, isConstructor (.zone :: anc) n = decide (some cls = some n)) :
    ∀ l : List (List Node), (visitZones anc l).filterMap identifier = (declaredZones cls (scopeOf anc) l).map Scope.Spec.text
  | [] => rfl
  | z :: l => by
    have h := all_known (.zone :: anc) (some cls) hc z
    rw [scopeOf_skip rfl] at h
    show (_ :: visitAll _ z ++ visitZones anc l : List Seen).filterMap identifier =
      (declaredAll (some cls) (scopeOf anc) z ++ declaredZones cls (scopeOf anc) l).map Scope.Spec.text
    rw [List.filterMap_append, List.filterMap_cons, List.map_append, zones_known anc cls hc l]
    exact congrArg (· ++ _) h
end

/-- C111: the identifiers that a unit knows are exactly the qualified names of what it declares, once each, in the order of the code. -/
theorem C111_known (body : List Node) : known body = (declaredAll none [] body).map Scope.Spec.text :=
  all_known [.unit] none (fun _ => rfl) body

example : known demo = ["N::S", "N::S::x", "N::S::get", "N::E", "N::A", "N::F", "N::F::B", "N::v", "N::w"].map String.toList := by decide +kernel

theorem text_append (p t : List Str) (ht : t ≠ []) : Scope.Spec.pathPrefix p ++ Scope.Spec.text t = Scope.Spec.text (p ++ t) := by
  cases p with
  | nil => rfl
  | cons a p =>
    unfold Scope.Spec.pathPrefix
    rw [if_neg (by simp)]
    induction p generalizing a with
    | nil =>
      cases t with
      | nil => exact absurd rfl ht
      | cons b t => rfl
    | cons b p ih =>
      show (a ++ "::".toList ++ Scope.Spec.text (b :: p)) ++ "::".toList ++ Scope.Spec.text t = a ++ "::".toList ++ Scope.Spec.text (b :: p ++ t)
      rw [← ih b]
      simp only [List.append_assoc]

theorem not_global {t : List Str} (ht : t ≠ []) (hn : Scope.Spec.Path t) : ¬ "::".toList <+: Scope.Spec.text t := by
  cases t with
  | nil => exact absurd rfl ht
  | cons a t =>
    obtain ⟨h1, h2⟩ := hn a (by simp)
    cases a with
    | nil => exact absurd rfl h1
    | cons c a =>
      have hc : c ≠ ':' := fun e => h2 (by rw [e]; exact List.mem_cons_self)
      rintro ⟨u, hu⟩
      cases t with
      | nil => exact hc (List.cons.inj hu).1.symm
      | cons b t => exact hc (List.cons.inj hu).1.symm

theorem path_append {p t : List Str} (hp : Scope.Spec.Path p) (ht : Scope.Spec.Path t) : Scope.Spec.Path (p ++ t) := by
  intro n hn
  rcases List.mem_append.1 hn with h | h
  · exact hp n h
  · exact ht n h

/-- C111: a name `t` for something that is declared as `p ++ t`, where `p` is a scope around, becomes its full name, when it denotes nothing else
(and neither does the full name). -/
theorem C111_resolves (body : List Node) (scope p t : List Str) (hp : p <+: scope) (hd : p ++ t ∈ declaredAll none [] body) (ht : t ≠ [])
    (hn : ∀ q ∈ declaredAll none [] body, Scope.Spec.Path q) (hscope : Scope.Spec.Path scope)
    (hu : ∀ r, r <+: scope → r ++ t ∈ declaredAll none [] body → r = p)
    (hs : ∀ r, r <+: scope → r ++ (p ++ t) ∈ declaredAll none [] body → r = []) :
    Scope.qualifyToken (Scope.scopeHierarchyPrefixList scope) (known body) (Scope.Spec.text t) = Scope.Spec.text (p ++ t) := by
  have hk : ∀ i, i ∈ known body ↔ ∃ q ∈ declaredAll none [] body, Scope.Spec.text q = i := by
    intro i; rw [C111_known]; exact List.mem_map
  have hpt : Scope.Spec.Path (p ++ t) := hn _ hd
  have htn : Scope.Spec.Path t := fun n h => hpt n (List.mem_append_right _ h)
  have hr : ∀ r, r <+: scope → Scope.Spec.Path r := fun r h n hm => hscope n (h.subset hm)
  refine Scope.C23_innermost_partial (known body) (Scope.Spec.text (p ++ t)) scope (Scope.Spec.text t) (not_global ht htn)
    ⟨(hk _).2 ⟨_, hd, rfl⟩, p, hp, (text_append p t ht).symm⟩ ?_ ?_
  · rintro j ⟨hj, r, hrs, hjr⟩
    obtain ⟨q, hq, rfl⟩ := (hk _).1 hj
    rw [text_append r t ht] at hjr
    obtain rfl := Scope.text_inj (hn q hq) (path_append (hr r hrs) htn) hjr
    rw [hu r hrs hq]
  · rintro j ⟨hj, r, hrs, hjr⟩
    obtain ⟨q, hq, rfl⟩ := (hk _).1 hj
    rw [text_append r _ (by simp [ht])] at hjr
    obtain rfl := Scope.text_inj (hn q hq) (path_append (hr r hrs) hpt) hjr
    rw [hs r hrs hq]
    rfl

example : Scope.qualifyToken (Scope.scopeHierarchyPrefixList ["N".toList, "S".toList]) (known demo) "F::B".toList = "N::F::B".toList := by decide +kernel

/-- C111, the full statement for enumerators: in the namespace of an enumeration, the name `E::A` of an enumerator, in C++ valid for both kinds of enumerations,
becomes a full name of it. -/
def C111_enumerator_statement : Prop := ∀ (n e a : Str) (isClass : Bool) (l : List (Option Str)), some a ∈ l → Scope.Spec.Path [n, e] →
  (∀ x, some x ∈ l → Scope.Spec.Name x) → n ≠ e →
  Scope.qualifyToken (Scope.scopeHierarchyPrefixList [n]) (known [.namespace_ n [.enum_ isClass e l]]) (Scope.Spec.text [e, a]) ∈
    [Scope.Spec.text [n, e, a], Scope.Spec.text [n, a]]

/-- C111: it fails for a C enumeration: `E::A` is left as it is (a default value `E::A` then does not compile in the code of the bindings). -/
theorem C111_enumerator_fails : ¬ C111_enumerator_statement := by
  intro h
  have := h "N".toList "E".toList "A".toList false [some "A".toList] (by decide)
    (by intro n hn; rcases List.mem_cons.1 hn with rfl | hn
        · exact ⟨by decide, by decide⟩
        · obtain rfl := List.mem_singleton.1 hn
          exact ⟨by decide, by decide⟩)
    (by intro x hx; obtain rfl := Option.some.inj (List.mem_singleton.1 hx); exact ⟨by decide, by decide⟩) (by decide)
  revert this
  decide +kernel

theorem declared_class (n e : Str) (l : List (Option Str)) (q : List Str) :
    q ∈ declaredAll none [] [.namespace_ n [.enum_ true e l]] ↔ q = [n, e] ∨ ∃ x, some x ∈ l ∧ q = [n, e, x] := by
  have h : declaredAll none [] [.namespace_ n [.enum_ true e l]] = ([n, e] :: l.filterMap (fun a => a.map (fun a => [n, e] ++ [a])) ++ []) ++ [] := rfl
  rw [h, List.append_nil, List.append_nil, List.mem_cons, List.mem_filterMap]
  constructor
  · rintro (h | ⟨x, hx, he⟩)
    · exact .inl h
    · cases x with
      | none => cases he
      | some x => exact .inr ⟨x, hx, (Option.some.inj he).symm⟩
  · rintro (h | ⟨x, hx, rfl⟩)
    · exact .inl h
    · exact .inr ⟨some x, hx, rfl⟩

/-- C111: it holds for an enumeration class. -/
theorem C111_enumerator_partial (n e a : Str) (l : List (Option Str)) (ha : some a ∈ l) (hp : Scope.Spec.Path [n, e])
    (hl : ∀ x, some x ∈ l → Scope.Spec.Name x) (hne : n ≠ e) :
    Scope.qualifyToken (Scope.scopeHierarchyPrefixList [n]) (known [.namespace_ n [.enum_ true e l]]) (Scope.Spec.text [e, a]) = Scope.Spec.text [n, e, a] := by
  have hr : ∀ r, r <+: [n] → r = [] ∨ r = [n] := by
    intro r h
    cases r with
    | nil => exact .inl rfl
    | cons b r =>
      obtain ⟨hb, h⟩ := List.cons_prefix_cons.1 h
      rw [List.prefix_nil.1 h, hb]
      exact .inr rfl
  refine C111_resolves _ [n] [n] [e, a] (List.prefix_refl _) ((declared_class n e l _).2 (.inr ⟨a, ha, rfl⟩)) (by simp) ?_ ?_ ?_ ?_
  · intro q hq
    rcases (declared_class n e l q).1 hq with rfl | ⟨x, hx, rfl⟩
    · exact hp
    · exact path_append (p := [n, e]) hp (fun m hm => by rw [List.mem_singleton.1 hm]; exact hl x hx)
  · intro m hm
    exact hp m (List.mem_cons.2 (.inl (List.mem_singleton.1 hm)))
  · intro r h hq
    rcases hr r h with rfl | rfl
    · rcases (declared_class n e l _).1 hq with h | ⟨x, _, h⟩
      · exact absurd (List.cons.inj h).1.symm hne
      · exact absurd (List.cons.inj h).1.symm hne
    · rfl
  · intro r h hq
    rcases hr r h with rfl | rfl
    · rfl
    · rcases (declared_class n e l _).1 hq with h | ⟨x, _, h⟩
      · exact absurd (List.cons.inj (List.cons.inj h).2).1 hne
      · exact absurd (List.cons.inj (List.cons.inj h).2).1 hne

end Verif.Ids.Props
