import Verif.Fn.Stmt

/-! Filling the template of the statements with a lambda. -/

namespace Verif.Fn
open Verif.Py Verif.Type Verif.Adapt Verif.Template Verif.Template.Spec
open Spec (Plain Tidy placeholders)

def lambdaPieces : List (List Template.Spec.Piece) :=
  [[.hole "pydef_method_creation_part".toList],
   [.hole "_i_".toList, .text "[](".toList, .hole "params_call_with_self_if_method".toList, .text ")".toList, .hole "lambda_return_arrow".toList],
   [.hole "_i_".toList, .text "{".toList],
   [.hole "_i_".toList, .hole "_i_".toList, .hole "lambda_adapter_code".toList],
   [.hole "maybe_empty_line".toList],
   [.hole "_i_".toList, .hole "_i_".toList, .hole "return_code".toList, .text ";".toList],
   [.hole "_i_".toList, .text "}".toList, .hole "maybe_close_paren_if_ctor".toList, .hole "maybe_comma".toList,
    .hole "pydef_end_arg_docstring_returnpolicy".toList]]

theorem lambdaTemplate_eq : (Indent.unindentCode lambdaTemplateRaw).drop 1 = textOf lambdaPieces := by decide +kernel

/-- The statement in the body of the lambda: `return self.f(a, b)` -/
def callText (ret : Str) (prefix_ : Str) (callee : Str) (names : Str) : Str :=
  (if ret = void_ then [] else "return ".toList) ++ prefix_ ++ callee ++ "(".toList ++ names ++ ")".toList

theorem returnStr_text (f : Func) (ret : Str) (hf : Plain (f.lambdaToCall.getD (f.aName ++ f.aSpecialization))) :
    returnStr f ret = callText ret (if isMethod f && f.lambdaToCall.isNone then "self.".toList else [])
      (f.lambdaToCall.getD (f.aName ++ f.aSpecialization)) (callNames f.aParams) := by
  have e : "{return_or_nothing}{self_prefix}{function_to_call}({params_call_inner})".toList =
      textOf [[.hole "return_or_nothing".toList, .hole "self_prefix".toList, .hole "function_to_call".toList, .text "(".toList,
        .hole "params_call_inner".toList, .text ")".toList]] := by decide +kernel
  have h1 : Plain (if ret = void_ then [] else "return ".toList) := by
    split
    · exact plain_nil
    · exact plain_of_no_open (by decide)
  have h2 : Plain (if isMethod f && f.lambdaToCall.isNone then "self.".toList else []) := by
    split
    · exact plain_of_no_open (by decide)
    · exact plain_nil
  have hk : ∀ k ∈ ["self_prefix".toList, "function_to_call".toList, "params_call_inner".toList], k ∈ placeholders := by decide +kernel
  rw [returnStr, e, replaceInString_fill]
  · simp only [List.map_cons, List.map_nil, step_some, subst_text, subst_hole, List.foldl_cons, List.foldl_nil,
      String.toList_inj, String.reduceEq, if_true, if_false]
    simp only [textOf, unlines, join, source, Piece.source, List.map_cons, List.map_nil, List.flatMap_cons,
        List.flatMap_nil, List.append_nil, List.append_assoc, callText]
  · simp only [List.map_cons, List.map_nil]
    decide +kernel
  · simp only [List.map_cons, List.map_nil]
    refine fillable_some (by decide +kernel) ?_ (fillable_some (by decide +kernel) ?_ (fillable_some (by decide +kernel) ?_
      (fillable_some (by decide +kernel) ?_ trivial)))
    · simp only [List.forall_mem_cons]
      exact ⟨h1 _ (hk _ (by simp only [List.mem_cons, true_or])), h1 _ (hk _ (by simp only [List.mem_cons, true_or, or_true])),
        h1 _ (hk _ (by simp only [List.mem_cons, true_or, or_true])), by simp⟩
    · simp only [List.forall_mem_cons]
      exact ⟨h2 _ (hk _ (by simp only [List.mem_cons, true_or, or_true])), h2 _ (hk _ (by simp only [List.mem_cons, true_or, or_true])),
        by simp⟩
    · simp only [List.forall_mem_cons]
      exact ⟨hf _ (hk _ (by simp only [List.mem_cons, true_or, or_true])), by simp⟩
    · simp

/-- The template of lambdas, filled. -/
theorem lambda_fill (ind H close ps arrow ret E : Str) (code : Option Str) (hi : Blank ind) (hH : Plain H) (hc : Plain close) (hp : Plain ps)
    (ha : Plain arrow) (hr : Plain ret) (hE : Plain E) (hcode : ∀ c, code = some c → Plain c) :
    processCodeTemplate ((Indent.unindentCode lambdaTemplateRaw).drop 1)
      [("_i_".toList, ind), ("pydef_method_creation_part".toList, H), ("maybe_close_paren_if_ctor".toList, close),
       ("params_call_with_self_if_method".toList, ps), ("lambda_return_arrow".toList, arrow), ("return_code".toList, ret),
       ("pydef_end_arg_docstring_returnpolicy".toList, E)]
      [("lambda_adapter_code".toList, code), ("maybe_empty_line".toList, code.map (fun _ => []))] =
    dropFinalComma (H ++ "\n".toList ++ ind ++ ("[](".toList ++ ps ++ ")".toList ++ arrow ++ "\n".toList ++ ind ++ "{\n".toList ++
      Spec.bodyOf ind code ++
      ind ++ ind ++ ret ++ ";\n".toList ++ ind ++ "}".toList ++ close) ++ [',', ' '] ++ E) := by
  have hmc : maybeComma ∈ placeholders ∧ "lambda_adapter_code".toList ∈ placeholders ∧ "maybe_empty_line".toList ∈ placeholders := by
    decide +kernel
  have hind : ∀ k, Inert k ind := fun k => inert_of_no_open (hi.not_mem (by decide))
  have hnl : '\n' ∉ ind := hi.not_mem (by decide)
  have hA : [("_i_".toList, some ind), ("pydef_method_creation_part".toList, some H), ("maybe_close_paren_if_ctor".toList, some close),
       ("params_call_with_self_if_method".toList, some ps), ("lambda_return_arrow".toList, some arrow), ("return_code".toList, some ret),
       ("pydef_end_arg_docstring_returnpolicy".toList, some E)].foldl step lambdaPieces =
      [[.text H], [.text ind, .text "[](".toList, .text ps, .text ")".toList, .text arrow],
       [.text ind, .text "{".toList],
       [.text ind, .text ind, .hole "lambda_adapter_code".toList],
       [.hole "maybe_empty_line".toList],
       [.text ind, .text ind, .text ret, .text ";".toList],
       [.text ind, .text "}".toList, .text close, .hole "maybe_comma".toList, .text E]] := by
    simp only [lambdaPieces, List.map_cons, List.map_nil, step_some, subst_text,
      subst_hole, List.foldl_cons, List.foldl_nil, String.toList_inj, String.reduceEq, if_true, if_false]
  rw [processCodeTemplate_eq, lambdaTemplate_eq]
  simp only [List.map_cons, List.map_nil]
  rw [List.append_assoc, fill_textOf, List.foldl_append, hA]
  · cases code with
    | none =>
      simp only [Option.map_none, List.cons_append, List.nil_append, maybeComma_eq, List.foldl_cons, List.foldl_nil, List.map_cons, List.map_nil,
        step_some, step_none, subst_text, subst_hole, isHole_text, isHole_hole, List.filter_cons, List.filter_nil, List.any_cons, List.any_nil,
        String.toList_inj, String.reduceEq, if_true, if_false, decide_true, decide_false, Bool.or_true, Bool.or_false, Bool.not_true,
        Bool.not_false, Bool.false_eq_true]
      simp only [textOf, unlines, join, source, Piece.source, List.map_cons, List.map_nil, List.flatMap_cons, List.flatMap_nil,
        List.append_nil, List.append_assoc]
      simp [Spec.bodyOf]
    | some c =>
      simp only [Option.map_some, List.cons_append, List.nil_append, maybeComma_eq, List.foldl_cons, List.foldl_nil, List.map_cons, List.map_nil,
        step_some, subst_text, subst_hole, String.toList_inj, String.reduceEq, if_true, if_false]
      simp only [textOf, unlines, join, source, Piece.source, List.map_cons, List.map_nil, List.flatMap_cons, List.flatMap_nil,
        List.append_nil, List.append_assoc]
      simp [Spec.bodyOf]
  · simp only [List.map_cons, List.map_nil, List.nil_append, List.cons_append]
    decide +kernel
  · apply fillable_append
    · refine fillable_some (by decide) (fun kv _ => hind _) ?_
      apply fillable_plain
      · simp only [List.map_cons, List.map_nil]
        decide +kernel
      · simp only [List.forall_mem_cons]
        exact ⟨⟨_, rfl, hH⟩, ⟨_, rfl, hc⟩, ⟨_, rfl, hp⟩, ⟨_, rfl, ha⟩, ⟨_, rfl, hr⟩, ⟨_, rfl, hE⟩, by simp⟩
    · rw [hA]
      cases code with
      | none =>
        simp only [Option.map_none, List.cons_append, List.nil_append]
        refine fillable_none (by decide +kernel) ?_ (fillable_none (by decide +kernel) ?_ (fillable_some (by decide +kernel) (by simp) trivial))
        · unfold Removable
          simp only [List.forall_mem_cons]
          have h' : '\n' ∉ "lambda_adapter_code".toList := by decide +kernel
          have h'' : "maybe_empty_line".toList ≠ "lambda_adapter_code".toList := by decide +kernel
          have h3 : maybeComma ≠ "lambda_adapter_code".toList := by decide +kernel
          refine ⟨?_, ?_, ?_, ?_, ?_, ?_, ?_, by simp⟩
          · intro h; simp only [List.mem_cons, List.not_mem_nil, or_false, reduceCtorEq] at h
          · intro h; simp only [List.mem_cons, List.not_mem_nil, or_false, reduceCtorEq] at h
          · intro h; simp only [List.mem_cons, List.not_mem_nil, or_false, reduceCtorEq] at h
          · intro _; simp only [source, Piece.source, List.flatMap_cons, List.flatMap_nil, List.append_nil, List.mem_append, hnl, false_or]
            intro h; simp only [List.mem_cons, h', or_false, List.not_mem_nil] at h
            exact absurd h (by decide)
          · intro h; simp only [List.mem_cons, List.not_mem_nil, or_false, Piece.hole.injEq] at h
            exact absurd h.symm h''
          · intro h; simp only [List.mem_cons, List.not_mem_nil, or_false, reduceCtorEq] at h
          · intro h; simp only [List.mem_cons, List.not_mem_nil, or_false, reduceCtorEq, false_or, Piece.hole.injEq] at h
            exact absurd h.symm h3
        · unfold Removable
          simp only [step_none, isHole_text, isHole_hole, List.filter_cons, List.filter_nil, List.any_cons, List.any_nil,
            String.toList_inj, String.reduceEq, if_true, if_false, decide_true, decide_false, Bool.or_true, Bool.or_false, Bool.not_true,
            Bool.not_false, Bool.false_eq_true]
          simp only [List.forall_mem_cons]
          have h' : '\n' ∉ source [Piece.hole "maybe_empty_line".toList] := by decide +kernel
          have h3 : maybeComma ≠ "maybe_empty_line".toList := by decide +kernel
          refine ⟨?_, ?_, ?_, ?_, ?_, ?_, by simp⟩
          · intro h; simp only [List.mem_cons, List.not_mem_nil, or_false, reduceCtorEq] at h
          · intro h; simp only [List.mem_cons, List.not_mem_nil, or_false, reduceCtorEq] at h
          · intro h; simp only [List.mem_cons, List.not_mem_nil, or_false, reduceCtorEq] at h
          · intro _; exact h'
          · intro h; simp only [List.mem_cons, List.not_mem_nil, or_false, reduceCtorEq] at h
          · intro h; simp only [List.mem_cons, List.not_mem_nil, or_false, reduceCtorEq, false_or, Piece.hole.injEq] at h
            exact absurd h.symm h3
      | some c =>
        have := hcode c rfl
        simp only [Option.map_some, List.cons_append, List.nil_append]
        apply fillable_plain
        · simp only [List.map_cons, List.map_nil]
          decide +kernel
        · simp only [List.forall_mem_cons]
          exact ⟨⟨_, rfl, this⟩, ⟨_, rfl, plain_nil⟩, ⟨_, rfl, plain_of_no_open (by decide)⟩, by simp⟩
    · have hB : ∀ v, Plain v → ∀ k ∈ [("lambda_adapter_code".toList, code), ("maybe_empty_line".toList, code.map (fun _ => []))] ++
          [(maybeComma, some [',', ' '])], Inert k.1 v := by
        intro v hv
        simp only [List.cons_append, List.nil_append, List.forall_mem_cons]
        exact ⟨hv _ hmc.2.1, hv _ hmc.2.2, hv _ hmc.1, by simp⟩
      simp only [List.forall_mem_cons]
      exact ⟨fun x hx => (Option.some.inj hx) ▸ fun k _ => hind _, fun x hx => (Option.some.inj hx) ▸ hB _ hH,
        fun x hx => (Option.some.inj hx) ▸ hB _ hc, fun x hx => (Option.some.inj hx) ▸ hB _ hp, fun x hx => (Option.some.inj hx) ▸ hB _ ha,
        fun x hx => (Option.some.inj hx) ▸ hB _ hr, fun x hx => (Option.some.inj hx) ▸ hB _ hE, by simp⟩

end Verif.Fn
