import Verif.Fn.Spec
import Verif.Template.Inert

/-! Lemmas on the texts of the pydef of functions. -/

namespace Verif.Fn
open Verif.Py Verif.Type Verif.Adapt Verif.Template Verif.Template.Spec

instance decCleanLine (keys : List Str) : (l : List Template.Spec.Piece) → Decidable (CleanLine keys l)
  | [] => isTrue trivial
  | .text t :: ps =>
    have := decCleanLine keys ps
    inferInstanceAs (Decidable ((∀ k ∈ keys, Inert k (if ps = [] then t ++ ['\n'] else t)) ∧ CleanLine keys ps))
  | .hole h :: ps =>
    have := decCleanLine keys ps
    inferInstanceAs (Decidable (('{' ∉ h ∧ '}' ∉ h) ∧ CleanLine keys ps))

instance (keys : List Str) (ls : List (List Template.Spec.Piece)) : Decidable (Clean keys ls) :=
  inferInstanceAs (Decidable (∀ l ∈ ls, CleanLine keys l))

theorem fillable_some {k v : Str} {r : List (Str × Option Str)} {ls : List (List Template.Spec.Piece)} (hk : '}' ∉ k)
    (hv : ∀ kv ∈ r, Inert kv.1 v) (h : Fillable r (step ls (k, some v))) : Fillable ((k, some v) :: r) ls :=
  ⟨hk, fun _ hx => (Option.some.inj hx) ▸ hv, (fun h => nomatch h), h⟩

theorem fillable_none {k : Str} {r : List (Str × Option Str)} {ls : List (List Template.Spec.Piece)} (hk : '}' ∉ k)
    (hr : Removable k ls) (h : Fillable r (step ls (k, none))) : Fillable ((k, none) :: r) ls :=
  ⟨hk, (fun _ h => nomatch h), fun _ => hr, h⟩

theorem replaceInString_eq (s : Str) (kvs : List (Str × Str)) :
    replaceInString s kvs = (kvs.map (fun kv => (kv.1, some kv.2))).foldl replaceOrRemove s := by
  rw [List.foldl_map]; rfl

theorem replaceInString_fill (kvs : List (Str × Str)) (ls : List (List Template.Spec.Piece))
    (hc : Clean (kvs.map (·.1)) ls) (h : Fillable (kvs.map (fun kv => (kv.1, some kv.2))) ls) :
    replaceInString (textOf ls) kvs = textOf ((kvs.map (fun kv => (kv.1, some kv.2))).foldl step ls) := by
  rw [replaceInString_eq]
  apply fill_textOf
  · rw [List.map_map]
    exact hc
  · exact h

/-- the template of `_str_pydef_as_pyarg` -/
def pyargPieces (l : Str) : List (List Template.Spec.Piece) :=
  [[.text (l ++ "::arg(\"".toList), .hole "argname_python".toList, .text "\")".toList, .hole "maybe_dot_none".toList,
    .hole "maybe_equal".toList, .hole "maybe_defaultvalue_cpp".toList]]

theorem pyarg_text (o : Options) (p : Param) (v : Str) (hv : pyargDefault o p = some v) (hn : '{' ∉ o.varName p.name) :
    pyarg o p = some (lib o ++ "::arg(\"".toList ++ o.varName p.name ++ "\")".toList ++
      (if o.nanobind && isStdOptional p.type then ".none()".toList else []) ++
      (if v = [] then [] else " = ".toList ++ v)) := by
  have e : lib o ++ "::arg(\"{argname_python}\"){maybe_dot_none}{maybe_equal}{maybe_defaultvalue_cpp}".toList =
      textOf (pyargPieces (lib o)) := by
    simp [textOf, pyargPieces, unlines, source, Piece.source]
  rw [pyarg, hv, Option.map_some, e, replaceInString_fill]
  · simp only [pyargPieces, List.map_cons, List.map_nil, step_some, subst_text, subst_hole, List.foldl_cons, List.foldl_nil,
      String.toList_inj, String.reduceEq, if_true, if_false]
    by_cases h : v = [] <;>
      simp only [h, if_true, if_false, textOf, unlines, join, source, Piece.source, List.map_cons, List.map_nil, List.flatMap_cons,
        List.flatMap_nil, List.append_nil, List.append_assoc]
  · unfold lib
    simp only [List.map_cons, List.map_nil]
    cases o.nanobind <;> decide +kernel
  · simp only [List.map_cons, List.map_nil]
    refine fillable_some (by decide +kernel) ?_ (fillable_some (by decide +kernel) ?_ (fillable_some (by decide +kernel) ?_ (fillable_some (by decide +kernel) ?_ trivial)))
    · intro kv _; exact inert_of_no_open hn
    · intro kv _; exact inert_of_no_open (by split <;> decide +kernel)
    · intro kv _; exact inert_of_no_open (by split <;> decide +kernel)
    · simp

/-! ### The annotations -/

def optLine (ind k : Str) : List Template.Spec.Piece := [.text ind, .hole k, .hole maybeComma]
def optDone (ind v : Str) : List Template.Spec.Piece := [.text ind, .text v, .hole maybeComma]

theorem step_opt (ind : Str) (done ks : List Str) (k : Str) (v : Option Str) (hk : k ≠ maybeComma) (hks : k ∉ ks) :
    step (done.map (optDone ind) ++ optLine ind k :: ks.map (optLine ind)) (k, v) =
      (done ++ v.toList).map (optDone ind) ++ ks.map (optLine ind) := by
  have hk' : ¬ maybeComma = k := fun e => hk e.symm
  have h1 : ∀ x ∈ ks, ¬ x = k := fun x hx e => hks (e ▸ hx)
  cases v with
  | none =>
    simp only [step, Option.toList_none, List.append_nil, List.filter_append]
    congr 1
    · rw [List.filter_eq_self]
      intro l hl
      obtain ⟨d, _, rfl⟩ := List.mem_map.1 hl
      simp [optDone, hk']
    · rw [List.filter_cons_of_neg (by simp [optLine])]
      rw [List.filter_eq_self]
      intro l hl
      obtain ⟨x, hx, rfl⟩ := List.mem_map.1 hl
      simp [optLine, hk', h1 x hx]
  | some v =>
    simp only [step, Option.toList_some, List.map_append, List.map_cons, List.map_nil, List.append_assoc]
    congr 1
    · rw [List.map_map]
      apply List.map_congr_left
      intro d _
      simp [optDone, hk']
    · simp only [List.cons_append, List.nil_append, List.cons.injEq]
      refine ⟨by simp [optLine, optDone, hk'], ?_⟩
      rw [List.map_map]
      apply List.map_congr_left
      intro x hx
      simp [optLine, hk', h1 x hx]

theorem foldl_opt (ind : Str) (kvs : List (Str × Option Str)) (done : List Str) (hnd : (kvs.map (·.1)).Nodup)
    (hk : ∀ kv ∈ kvs, kv.1 ≠ maybeComma) :
    kvs.foldl step (done.map (optDone ind) ++ (kvs.map (·.1)).map (optLine ind)) =
      (done ++ kvs.filterMap (·.2)).map (optDone ind) := by
  induction kvs generalizing done with
  | nil => simp
  | cons kv kvs ih =>
    obtain ⟨k, v⟩ := kv
    simp only [List.map_cons, List.nodup_cons] at hnd
    rw [List.foldl_cons]
    simp only [List.map_cons]
    rw [step_opt ind done _ k v (hk (k, v) (by simp)) hnd.1, ih _ hnd.2 (fun x hx => hk x (by simp [hx]))]
    cases v <;> simp

theorem fillable_opt (ind : Str) (hind : '\n' ∉ ind) (kvs : List (Str × Option Str)) (done : List Str)
    (hnd : (kvs.map (·.1)).Nodup) (hk : ∀ kv ∈ kvs, kv.1 ≠ maybeComma ∧ '}' ∉ kv.1 ∧ '\n' ∉ kv.1)
    (hv : ∀ kv ∈ kvs, ∀ x, kv.2 = some x → ∀ k ∈ kvs, Inert k.1 x) :
    Fillable kvs (done.map (optDone ind) ++ (kvs.map (·.1)).map (optLine ind)) := by
  induction kvs generalizing done with
  | nil => trivial
  | cons kv kvs ih =>
    obtain ⟨k, v⟩ := kv
    simp only [List.map_cons, List.nodup_cons] at hnd
    have h1 := hk (k, v) (by simp)
    refine ⟨h1.2.1, ?_, ?_, ?_⟩
    · intro x hx kv hkv
      exact hv (k, v) (by simp) x hx kv (by simp [hkv])
    · intro _ l hl hm
      rcases List.mem_append.1 hl with h | h
      · obtain ⟨d, _, rfl⟩ := List.mem_map.1 h
        simp [optDone] at hm
        exact absurd hm h1.1
      · obtain ⟨x, hx, rfl⟩ := List.mem_map.1 h
        simp [optLine, h1.1] at hm
        subst hm
        have hc : '\n' ∉ maybeComma := by decide
        simp [optLine, source, Piece.source, hind, h1.2.2, hc]
    · simp only [List.map_cons]
      rw [step_opt ind done _ k v h1.1 hnd.1]
      exact ih _ hnd.2 (fun x hx => hk x (by simp [hx])) (fun x hx y hy z hz => hv x (by simp [hx]) y hy z (by simp [hz]))

theorem join_optDone (ind : Str) (vs : List Str) (h : vs ≠ []) :
    textOf (vs.map (fun v => [Piece.text ind, Piece.text v, Piece.text [',', ' ']])) = Spec.laid ind vs ++ [',', ' '] := by
  induction vs with
  | nil => exact absurd rfl h
  | cons v vs ih =>
    by_cases hv : vs = []
    · subst hv
      simp [textOf, unlines, source, Piece.source, Spec.laid]
    · rw [List.map_cons, textOf_cons _ _ (by simpa using hv), ih hv]
      unfold Spec.laid
      rw [List.map_cons, join_cons_of_ne_nil _ _ (by simpa using hv)]
      simp [source, Piece.source]

end Verif.Fn
