import Verif.Cache.Props
import Verif.Scope.Props

/-! Property C105: the replacements of a scope are used in it and in the scopes inside, and nowhere else. -/

namespace Verif.Cache.Props
open Verif.Py Verif.Repl Verif.Cache Verif.Cache.Spec
open Verif.Scope (strCpp CppScope)
open Verif.Scope.Spec (ancestors)

/-- What the cache of a scope does. -/
def useCache (sub : Engine) (c : Caches) (sc : CppScope) (s : Str) : Str :=
  match cacheOf c (strCpp sc) with
  | some rs => Repl.apply sub rs s
  | none => s

theorem fold_inOrder (f : CppScope → Str → Str) : ∀ (l : List CppScope) (s : Str), l.foldl (fun s sc => f sc s) s = Repl.Spec.inOrder (l.map f) s
  | [], _ => rfl
  | x :: l, s => fold_inOrder f l (f x s)

theorem applyScoped_eq (sub : Engine) (c : Caches) (scope : Option CppScope) (s : Str) :
    applyScoped sub c scope s = Repl.Spec.inOrder ((ancestors (scope.getD [])).map (useCache sub c)) s := by
  unfold applyScoped
  rw [Verif.Scope.C21_hierarchy]
  exact fold_inOrder (useCache sub c) _ s

/-- C105: the replacements of the scope are applied first, then those of the scope around it, up to the global ones. -/
theorem C105_order (sub : Engine) (c : Caches) (scope : CppScope) (s : Str) :
    applyScoped sub c (some scope) s = Repl.Spec.inOrder ((ancestors scope).map (useCache sub c)) s ∧
      applyScoped sub c none s = useCache sub c [] s := by
  refine ⟨applyScoped_eq sub c (some scope) s, ?_⟩
  rw [applyScoped_eq]
  rfl

/-- C105: the other scopes do not matter. -/
theorem C105_isolated (sub : Engine) (c c' : Caches) (scope : CppScope) (s : Str)
    (h : ∀ p ∈ ancestors scope, cacheOf c (strCpp p) = cacheOf c' (strCpp p)) :
    applyScoped sub c (some scope) s = applyScoped sub c' (some scope) s := by
  rw [applyScoped_eq, applyScoped_eq]
  have e : (ancestors scope).map (useCache sub c) = (ancestors scope).map (useCache sub c') := by
    apply List.map_congr_left
    intro p hp
    funext x
    unfold useCache
    rw [h p hp]
  show Repl.Spec.inOrder ((ancestors scope).map _) s = Repl.Spec.inOrder ((ancestors scope).map _) s
  rw [e]

theorem cacheOf_cons (x : Str × List Replacement) (c : Caches) (key : Str) :
    cacheOf (x :: c) key = if x.1 = key then some x.2 else cacheOf c key := by
  unfold cacheOf
  rw [List.find?_cons]
  by_cases h : x.1 = key
  · rw [if_pos h, show (x.1 == key) = true from by simpa using h]; rfl
  · rw [if_neg h, show (x.1 == key) = false from by simpa using h]

theorem cacheOf_concat (key k : Str) : ∀ c : Caches, cacheOf (c ++ [(key, [])]) k = if (cacheOf c k).isSome then cacheOf c k else if key = k then some [] else none
  | [] => by
    show cacheOf [(key, [])] k = _
    rw [cacheOf_cons]
    rfl
  | x :: c => by
    rw [List.cons_append, cacheOf_cons, cacheOf_cons, cacheOf_concat key k c]
    by_cases h : x.1 = k
    · rw [if_pos h, if_pos h]; rfl
    · rw [if_neg h, if_neg h]

theorem cacheOf_map (key : Str) (f : List Replacement → List Replacement) (k : Str) : ∀ c : Caches,
    cacheOf (c.map (fun x => if x.1 = key then (x.1, f x.2) else x)) k = if k = key then (cacheOf c k).map f else cacheOf c k
  | [] => by by_cases h : k = key <;> simp [h, cacheOf]
  | x :: c => by
    rw [List.map_cons, cacheOf_cons, cacheOf_cons, cacheOf_map key f k c]
    by_cases h1 : x.1 = key
    · rw [if_pos h1]
      by_cases h2 : x.1 = k
      · rw [if_pos h2, if_pos h2, if_pos (h2.symm.trans h1)]; rfl
      · rw [if_neg h2, if_neg h2]
    · rw [if_neg h1]
      by_cases h2 : x.1 = k
      · rw [if_pos h2, if_pos h2, if_neg (fun e => h1 (h2.trans e))]
      · rw [if_neg h2, if_neg h2]

/-- C105: storing replacements in a scope adds them at the end of its cache, and changes no other cache. -/
theorem C105_store (c : Caches) (scope : CppScope) (rs : List Replacement) (key : Str) :
    cacheOf (store c scope rs) key = if key = strCpp scope then some ((cacheOf c key).getD [] ++ rs) else cacheOf c key := by
  unfold store
  rw [cacheOf_map (strCpp scope) (fun x => merge x rs)]
  unfold ensure
  by_cases h : key = strCpp scope
  · rw [if_pos h, if_pos h, ← h]
    cases hc : cacheOf c key with
    | some x => rw [if_pos (by rfl), hc]; rfl
    | none =>
      rw [if_neg (by simp), cacheOf_concat, hc, if_neg (by simp), if_pos rfl]
      rfl
  · rw [if_neg h, if_neg h]
    by_cases hs : (cacheOf c (strCpp scope)).isSome = true
    · rw [if_pos hs]
    · rw [if_neg hs, cacheOf_concat]
      cases hc : cacheOf c key with
      | some x => rfl
      | none => rw [if_neg (by simp), if_neg (fun e => h e.symm)]

/-- C105: what is stored in a scope that is not around a place does not change the values there. -/
theorem C105_unrelated (sub : Engine) (c : Caches) (other scope : CppScope) (rs : List Replacement) (s : Str)
    (h : ∀ p ∈ ancestors scope, strCpp p ≠ strCpp other) :
    applyScoped sub (store c other rs) (some scope) s = applyScoped sub c (some scope) s :=
  C105_isolated sub _ c scope s (fun p hp => by rw [C105_store, if_neg (h p hp)])

/-- The caches after `namespace A { enum Foo { Foo_a, Foo_b }; }`. -/
def cachesA : Caches := store [] ["A".toList] (enumRules false foo)

example : ∀ p ∈ ancestors ["B".toList, "C".toList], strCpp p ≠ strCpp ["A".toList] := by decide

example : applyScoped (Re.engine (fun _ => false)) cachesA (some ["A".toList, "B".toList]) "Foo_a".toList = "Foo.a".toList ∧
    applyScoped (Re.engine (fun _ => false)) cachesA (some ["B".toList]) "Foo_a".toList = "Foo_a".toList := by decide +kernel

/-- The full statement: the value of a member of an enumeration of a scope is translated with the replacements of this scope. -/
def C105_value_statement : Prop := ∀ (sub : Engine) (c : Caches) (scope : CppScope) (e : Enum) (value : Str),
  memberValue sub c e value = Repl.apply sub (enumRules true e) (applyScoped sub c (some scope) value)

/-- C105: it is translated with the global replacements only: in `namespace A { enum Foo {..}; enum Bar { Bar_x = Foo_a }; }` the value stays `Foo_a`. -/
theorem C105_value_fails : ¬ C105_value_statement := by
  intro h
  have h0 := h (Re.engine (fun _ => false)) cachesA ["A".toList] ⟨"Bar".toList, "Bar".toList, false, [⟨"Bar_x".toList, "x".toList⟩]⟩ "Foo_a".toList
  revert h0
  decide +kernel

/-- C105: it holds in the global scope. -/
theorem C105_value_partial (sub : Engine) (c : Caches) (e : Enum) (value : Str) :
    memberValue sub c e value = Repl.apply sub (enumRules true e) (applyScoped sub c (some []) value) := rfl

end Verif.Cache.Props
