import Verif.Lam.Model
import Verif.Lam.Spec
import Verif.Template.Inert

/-! Filling the templates of lambdas. -/

namespace Verif.Lam
open Verif.Py Verif.Template Verif.Template.Spec

instance decCleanLine (keys : List Str) : (l : List Piece) → Decidable (CleanLine keys l)
  | [] => isTrue trivial
  | .text t :: ps =>
    have := decCleanLine keys ps
    inferInstanceAs (Decidable ((∀ k ∈ keys, Inert k (if ps = [] then t ++ ['\n'] else t)) ∧ CleanLine keys ps))
  | .hole h :: ps =>
    have := decCleanLine keys ps
    inferInstanceAs (Decidable (('{' ∉ h ∧ '}' ∉ h) ∧ CleanLine keys ps))

instance decClean (keys : List Str) (ls : List (List Piece)) : Decidable (Clean keys ls) :=
  inferInstanceAs (Decidable (∀ l ∈ ls, CleanLine keys l))

/-- Decides `Removable`. -/
theorem removable_of {k : Str} {ls : List (List Piece)} (h : ls.all (fun l => !l.any (isHole k) || !(source l).contains '\n') = true) :
    Removable k ls := by
  intro l hl hh
  have := List.all_eq_true.1 h l hl
  rw [Bool.or_eq_true, Bool.not_eq_true', Bool.not_eq_true'] at this
  rcases this with h1 | h1
  · have h2 : l.any (isHole k) = true := List.any_eq_true.2 ⟨_, hh, (isHole_hole k k).trans (decide_eq_true rfl)⟩
    rw [h1] at h2
    cases h2
  · intro hc
    exact absurd (List.contains_iff_mem.2 hc) (by rw [h1]; decide)

/-- The placeholders of the templates. -/
def keys : List Str :=
  ["maybe_return_r", "maybe_lambda_output_code", "_i_", "auto_r_equal_or_void", "function_or_lambda_to_call", "adapted_cpp_parameters",
   "maybe_lambda_input_code", "lambda_name", "lambda_captures", "lambda_return_arrow", "adapted_python_parameters", "lambda_template_end",
   "maybe_store_function_output", "lambda_to_call", "params", "output_tuple",
   "parameters_code", "class_name", "parameters_names", "maybe_comma"].map String.toList

/-- No placeholder begins in the text. -/
def Plain (v : Str) : Prop := ∀ k ∈ keys, Inert k v

instance (v : Str) : Decidable (Plain v) := List.decidableBAll (p := fun k => Inert k v) (l := keys)

theorem plain_of_no_open {v : Str} (h : '{' ∉ v) : Plain v := fun _ _ => inert_of_no_open h

theorem plain_append {a b : Str} (ha : Plain a) (hb : Plain b) : Plain (a ++ b) := fun k hk => inert_append (ha k hk) (hb k hk)

/-- Values that have no placeholder, then a last one. -/
theorem fillable_somes : ∀ (kvs : List (Str × Str)) (last : Str × Str) (ls : List (List Piece)), (∀ kv ∈ kvs ++ [last], '}' ∉ kv.1 ∧ kv.1 ∈ keys) →
    (∀ kv ∈ kvs, Plain kv.2) → Fillable ((kvs ++ [last]).map (fun kv => (kv.1, some kv.2))) ls
  | [], last, ls, h, _ => ⟨(h last (by simp)).1, fun _ _ kv hkv => (by cases hkv), fun h => (by cases h), trivial⟩
  | kv :: kvs, last, ls, h, hp => by
    have ih := fillable_somes kvs last (step ls (kv.1, some kv.2)) (fun x hx => h x (List.mem_cons_of_mem _ hx))
      (fun x hx => hp x (List.mem_cons_of_mem _ hx))
    refine ⟨(h kv (by simp)).1, ?_, fun h => (by cases h), ih⟩
    intro x hx kv' hkv'
    obtain ⟨y, hy, rfl⟩ := List.mem_map.1 hkv'
    rw [← Option.some.inj hx]
    exact hp kv (by simp) _ (h y (List.mem_cons_of_mem _ hy)).2

theorem replaceInString_eq (s : Str) (kvs : List (Str × Str)) :
    replaceInString s kvs = (kvs.map (fun kv => (kv.1, some kv.2))).foldl replaceOrRemove s := by
  rw [List.foldl_map]; rfl

/-! ### Indentation -/

/-- No line ends with a blank. -/
def Tidy (s : Str) : Prop := ∀ l ∈ lines s, rstrip l = l

theorem indent_part {ind code : Str} (h : Tidy code) : ind ++ Indent.indentCode code 1 true (some ind) = unlines (Lam.Spec.part ind (lines code)) := by
  unfold Tidy at h
  have hu := unlines_lines code
  cases hl : lines code with
  | nil => exact absurd hl (lines_ne_nil code)
  | cons first rest =>
    rw [hl] at h hu
    cases rest with
    | nil =>
      have hc : code = first := hu.symm
      unfold Indent.indentCode
      rw [if_pos rfl, hl, hc]
      rfl
    | cons r rs =>
      unfold Indent.indentCode
      rw [if_pos rfl, hl]
      have hnl : ∀ l ∈ r :: rs, '\n' ∉ l := fun l hm => not_mem_of_mem_lines (s := code) (by rw [hl]; exact List.mem_cons_of_mem _ hm)
      show ind ++ ((if true = true then rstrip first else first) ++ ['\n'] ++ Indent.indentAll (unlines (r :: rs)) 1 (some ind) true) = _
      rw [if_pos rfl, h first (by simp)]
      have he : Indent.indentAll (unlines (r :: rs)) 1 (some ind) true = unlines ((r :: rs).map (fun x => if x = [] then [] else ind ++ x)) := by
        unfold Indent.indentAll
        rw [lines_unlines (by simp) hnl]
        show unlines (List.map _ _) = _
        congr 1
        refine List.map_congr_left (fun x hx => ?_)
        unfold Indent.indentLine
        rw [if_pos rfl, h x (List.mem_cons_of_mem _ hx)]
        by_cases hx' : x = []
        · rw [hx']; rfl
        · rw [if_neg hx', if_neg (by simpa using hx')]
      rw [he]
      show _ = unlines ((ind ++ first) :: List.map _ _)
      unfold unlines
      rw [join_cons_of_ne_nil _ _ (by simp)]
      simp

/-! ### Placeholders and lines -/

/-- No placeholder begins in a line; all but the last one are followed by a line break. -/
def InertLines (k : Str) : List Str → Prop
  | [] => True
  | [l] => Inert k l
  | l :: m :: ls => Inert k (l ++ ['\n']) ∧ InertLines k (m :: ls)

theorem inert_split {k a b : Str} (hk : '\n' ∉ k) : Inert k (a ++ '\n' :: b) ↔ Inert k (a ++ ['\n']) ∧ Inert k b := by
  constructor
  · intro h
    refine ⟨?_, fun x y e => h (a ++ '\n' :: x) y (by rw [e]; simp)⟩
    intro x y e
    obtain ⟨y', hy⟩ : ∃ y', y = y' ++ ['\n'] := by
      rcases List.eq_nil_or_concat y with rfl | ⟨y', c, rfl⟩
      · have := congrArg List.getLast? e
        simp at this
      · have e2 : a ++ ['\n'] = (x ++ '{' :: y') ++ [c] := by rw [e, List.concat_eq_append]; simp
        have := (List.append_inj' e2 rfl).2
        exact ⟨y', by rw [List.concat_eq_append, this]⟩
    have e' : a ++ '\n' :: b = x ++ '{' :: (y ++ b) := by
      have : a ++ '\n' :: b = a ++ ['\n'] ++ b := by simp
      rw [this, e]
      simp
    have h' := h x (y ++ b) e'
    refine ⟨fun hp => h'.1 (hp.trans (List.prefix_append y b)), fun hp => ?_⟩
    have : '\n' ∈ k ++ ['}'] := hp.subset (by rw [hy]; simp)
    rcases List.mem_append.1 this with h1 | h1
    · exact hk h1
    · exact absurd h1 (by decide)
  · rintro ⟨h1, h2⟩
    have : a ++ '\n' :: b = (a ++ ['\n']) ++ b := by simp
    rw [this]
    exact inert_append h1 h2

theorem inert_unlines {k : Str} (hk : '\n' ∉ k) : ∀ ls : List Str, Inert k (unlines ls) ↔ InertLines k ls
  | [] => ⟨fun _ => trivial, fun _ => inert_of_no_open (by simp [unlines, join])⟩
  | [l] => Iff.rfl
  | l :: m :: ls => by
    have e : unlines (l :: m :: ls) = l ++ '\n' :: unlines (m :: ls) := by
      unfold unlines
      rw [join_cons_of_ne_nil _ _ (by simp)]
      simp
    rw [e, inert_split hk, inert_unlines hk (m :: ls)]
    exact Iff.rfl

theorem inertLines_map {k ind : Str} (hi : Inert k ind) (g : Str → Str) (hg : ∀ x, g x = [] ∨ g x = ind ++ x) : ∀ ls : List Str, InertLines k ls →
    InertLines k (ls.map g)
  | [], _ => trivial
  | [l], h => by
    rcases hg l with e | e
    · show Inert k (g l)
      rw [e]
      exact inert_of_no_open (by simp)
    · show Inert k (g l)
      rw [e]
      exact inert_append hi h
  | l :: m :: ls, h => by
    refine ⟨?_, inertLines_map hi g hg (m :: ls) h.2⟩
    rcases hg l with e | e
    · rw [e]
      exact inert_of_no_open (by simp)
    · rw [e, List.append_assoc]
      exact inert_append hi h.1

theorem plain_part {ind s : Str} (hi : '{' ∉ ind) (h : Plain s) : Plain (unlines (Lam.Spec.part ind (lines s))) := by
  intro k hk
  have hkn : '\n' ∉ k := by
    revert k
    decide +kernel
  have hin : Inert k ind := inert_of_no_open hi
  have hs : InertLines k (lines s) := (inert_unlines hkn _).1 (by rw [unlines_lines]; exact h k hk)
  rw [inert_unlines hkn]
  cases hl : lines s with
  | nil => exact trivial
  | cons l ls =>
    rw [hl] at hs
    cases ls with
    | nil => exact inert_append hin hs
    | cons m ls =>
      refine ⟨?_, inertLines_map hin (fun x => if x = [] then [] else ind ++ x) (fun x => ?_) (m :: ls) hs.2⟩
      · rw [List.append_assoc]
        exact inert_append hin hs.1
      · by_cases hx : x = []
        · exact .inl (if_pos hx)
        · exact .inr (if_neg hx)

theorem inert_of_append {k ind s : Str} (_ : '{' ∉ ind) (h : Inert k (ind ++ s)) : Inert k s :=
  fun a b e => h (ind ++ a) b (by rw [e, List.append_assoc])

/-! ### The templates -/

def endPieces : List (List Piece) :=
  [[.hole "auto_r_equal_or_void".toList, .hole "function_or_lambda_to_call".toList, .text "(".toList, .hole "adapted_cpp_parameters".toList, .text ");".toList],
   [.hole "maybe_lambda_output_code".toList], [.hole "maybe_return_r".toList, .text ";".toList]]

theorem endTemplate_eq : endTemplate = textOf endPieces := by decide +kernel

def lambdaPieces : List (List Piece) :=
  [[.text "auto ".toList, .hole "lambda_name".toList, .text " = [".toList, .hole "lambda_captures".toList, .text "](".toList,
    .hole "adapted_python_parameters".toList, .text ")".toList, .hole "lambda_return_arrow".toList],
   [.text "{".toList], [.hole "_i_".toList, .hole "maybe_lambda_input_code".toList], [.hole "_i_".toList, .hole "lambda_template_end".toList],
   [.text "};".toList], []]

theorem lambdaTemplate_eq : lambdaTemplate = textOf lambdaPieces := by decide +kernel

def returnPieces : List (List Piece) :=
  [[.hole "maybe_store_function_output".toList, .hole "lambda_to_call".toList, .text "(".toList, .hole "params".toList, .text ");".toList],
   [.text "return ".toList, .hole "output_tuple".toList, .text ";".toList]]

theorem returnTemplate_eq : returnTemplate = textOf returnPieces := by decide +kernel

theorem autoResult_plain (f : Fn) : Plain (autoResult f) := by
  unfold autoResult
  split
  · split
    · exact plain_of_no_open (by decide +kernel)
    · exact plain_of_no_open (by decide +kernel)
  · exact plain_of_no_open (by decide)

/-- The end of a lambda: the call and the result. -/
theorem codeEnd_text (ind : Str) (f : Fn) (a : Adapter) (hind : Plain ind) (hout : a.output ≠ [] → Plain (Lines.stripEmptyLines a.output))
    (hcal : Plain (callee f)) :
    codeEnd ind f a = Lam.Spec.callText f.ret (callee f) (join commaSpace a.args)
      (if a.output = [] then none else some (Lines.stripEmptyLines a.output)) f.refReturned := by
  have hmem : ∀ kv ∈ [("_i_".toList, ind), ("auto_r_equal_or_void".toList, autoResult f), ("function_or_lambda_to_call".toList, callee f)] ++
      [("adapted_cpp_parameters".toList, join commaSpace a.args)], '}' ∉ kv.1 ∧ kv.1 ∈ keys := by
    simp only [List.cons_append, List.nil_append, List.forall_mem_cons]
    exact ⟨by decide +kernel, by decide +kernel, by decide +kernel, by decide +kernel, fun _ h => (by cases h)⟩
  have hplain : ∀ kv ∈ [("_i_".toList, ind), ("auto_r_equal_or_void".toList, autoResult f), ("function_or_lambda_to_call".toList, callee f)], Plain kv.2 := by
    simp only [List.forall_mem_cons]
    exact ⟨hind, autoResult_plain f, hcal, fun _ h => (by cases h)⟩
  have hkeys : ∀ kv ∈ [("_i_".toList, some ind), ("auto_r_equal_or_void".toList, some (autoResult f)), ("function_or_lambda_to_call".toList, some (callee f)),
      ("adapted_cpp_parameters".toList, some (join commaSpace a.args))], kv.1 ∈ keys := by
    simp only [List.forall_mem_cons]
    exact ⟨by decide +kernel, by decide +kernel, by decide +kernel, by decide +kernel, fun _ h => (by cases h)⟩
  have hf := fun ls => fillable_somes _ _ ls hmem hplain
  simp only [List.cons_append, List.nil_append, List.map_cons, List.map_nil] at hf
  have hr : Plain "return lambda_result".toList := plain_of_no_open (by decide +kernel)
  unfold codeEnd
  simp only
  rw [replaceInString_eq]
  show List.foldl _ (List.foldl _ endTemplate _) _ = _
  rw [← List.foldl_append, endTemplate_eq]
  by_cases hret : f.ret = void_
  · have hret' : f.ret = "void".toList := hret
    by_cases ho : a.output = []
    · rw [if_pos hret, if_neg (by rw [ho]; decide), fill_textOf]
      · unfold Lam.Spec.callText autoResult
        rw [if_pos ho, if_pos hret', if_pos hret', if_neg (fun h => h hret)]
        simp only [endPieces, List.cons_append, List.nil_append, List.map_cons, List.map_nil, List.foldl_cons, List.foldl_nil, step_some, step_none,
          subst_text, subst_hole, isHole_text, isHole_hole, List.filter_cons, List.filter_nil, List.any_cons, List.any_nil,
          String.toList_inj, String.reduceEq, if_true, if_false, decide_true, decide_false, Bool.or_true, Bool.or_false, Bool.not_true,
          Bool.not_false, Bool.false_eq_true]
        simp only [textOf, unlines, join, source, Piece.source, List.map_cons, List.map_nil, List.flatMap_cons, List.flatMap_nil,
          List.append_nil, List.append_assoc, List.nil_append]
      · simp only [List.map_cons, List.map_nil, List.cons_append, List.nil_append]
        decide +kernel
      · simp only [List.map_cons, List.map_nil, List.cons_append, List.nil_append]
        refine ⟨by decide +kernel, fun _ h => (by cases h), fun _ => removable_of (by decide +kernel), by decide +kernel,
          fun _ h => (by cases h), fun _ => removable_of (by decide +kernel), hf _⟩
    · have hlen : a.output.length > 0 := List.length_pos_iff.2 ho
      have hop : Plain ('\n' :: Lines.stripEmptyLines a.output) := plain_append (a := ['\n']) (plain_of_no_open (by decide)) (hout ho)
      rw [if_pos hret, if_pos hlen, fill_textOf]
      · unfold Lam.Spec.callText autoResult
        rw [if_neg ho, if_pos hret', if_pos hret', if_neg (fun h => h hret)]
        simp only [endPieces, List.cons_append, List.nil_append, List.map_cons, List.map_nil, List.foldl_cons, List.foldl_nil, step_some, step_none,
          subst_text, subst_hole, isHole_text, isHole_hole, List.filter_cons, List.filter_nil, List.any_cons, List.any_nil,
          String.toList_inj, String.reduceEq, if_true, if_false, decide_true, decide_false, Bool.or_true, Bool.or_false, Bool.not_true,
          Bool.not_false, Bool.false_eq_true]
        simp only [textOf, unlines, join, source, Piece.source, List.map_cons, List.map_nil, List.flatMap_cons, List.flatMap_nil,
          List.append_nil, List.append_assoc, List.nil_append]
        rfl
      · simp only [List.map_cons, List.map_nil, List.cons_append, List.nil_append]
        decide +kernel
      · simp only [List.map_cons, List.map_nil, List.cons_append, List.nil_append]
        refine ⟨by decide +kernel, fun _ h => (by cases h), fun _ => removable_of (by decide +kernel), by decide +kernel,
          fun x hx kv hkv => ?_, fun h => (by cases h), hf _⟩
        rw [← Option.some.inj hx]
        exact hop _ (hkeys kv hkv)
  · have hret' : ¬ f.ret = "void".toList := hret
    by_cases ho : a.output = []
    · rw [if_neg hret, if_neg (by rw [ho]; decide), fill_textOf]
      · unfold Lam.Spec.callText autoResult
        rw [if_pos ho, if_neg hret', if_neg hret', if_pos hret]
        simp only [endPieces, List.cons_append, List.nil_append, List.map_cons, List.map_nil, List.foldl_cons, List.foldl_nil, step_some, step_none,
          subst_text, subst_hole, isHole_text, isHole_hole, List.filter_cons, List.filter_nil, List.any_cons, List.any_nil,
          String.toList_inj, String.reduceEq, if_true, if_false, decide_true, decide_false, Bool.or_true, Bool.or_false, Bool.not_true,
          Bool.not_false, Bool.false_eq_true]
        simp only [textOf, unlines, join, source, Piece.source, List.map_cons, List.map_nil, List.flatMap_cons, List.flatMap_nil,
          List.append_nil, List.append_assoc, List.nil_append]
        cases f.refReturned <;> simp
      · simp only [List.map_cons, List.map_nil, List.cons_append, List.nil_append]
        decide +kernel
      · simp only [List.map_cons, List.map_nil, List.cons_append, List.nil_append]
        refine ⟨by decide +kernel, fun x hx kv hkv => ?_, fun h => (by cases h), by decide +kernel,
          fun _ h => (by cases h), fun _ => ?_, hf _⟩
        · rw [← Option.some.inj hx]
          rcases List.mem_cons.1 hkv with rfl | hkv
          · exact hr _ (show "maybe_lambda_output_code".toList ∈ keys by decide +kernel)
          · exact hr _ (hkeys kv hkv)
        · exact removable_of (by decide +kernel)
    · have hlen : a.output.length > 0 := List.length_pos_iff.2 ho
      have hop : Plain ('\n' :: Lines.stripEmptyLines a.output) := plain_append (a := ['\n']) (plain_of_no_open (by decide)) (hout ho)
      rw [if_neg hret, if_pos hlen, fill_textOf]
      · unfold Lam.Spec.callText autoResult
        rw [if_neg ho, if_neg hret', if_neg hret', if_pos hret]
        simp only [endPieces, List.cons_append, List.nil_append, List.map_cons, List.map_nil, List.foldl_cons, List.foldl_nil, step_some, step_none,
          subst_text, subst_hole, isHole_text, isHole_hole, List.filter_cons, List.filter_nil, List.any_cons, List.any_nil,
          String.toList_inj, String.reduceEq, if_true, if_false, decide_true, decide_false, Bool.or_true, Bool.or_false, Bool.not_true,
          Bool.not_false, Bool.false_eq_true]
        simp only [textOf, unlines, join, source, Piece.source, List.map_cons, List.map_nil, List.flatMap_cons, List.flatMap_nil,
          List.append_nil, List.append_assoc, List.nil_append]
        cases f.refReturned <;> simp
      · simp only [List.map_cons, List.map_nil, List.cons_append, List.nil_append]
        decide +kernel
      · simp only [List.map_cons, List.map_nil, List.cons_append, List.nil_append]
        refine ⟨by decide +kernel, fun x hx kv hkv => ?_, fun h => (by cases h), by decide +kernel,
          fun x hx kv hkv => ?_, fun h => (by cases h), hf _⟩
        · rw [← Option.some.inj hx]
          rcases List.mem_cons.1 hkv with rfl | hkv
          · exact hr _ (show "maybe_lambda_output_code".toList ∈ keys by decide +kernel)
          · exact hr _ (hkeys kv hkv)
        · rw [← Option.some.inj hx]
          exact hop _ (hkeys kv hkv)

theorem part_text {ind : Str} : ∀ {ls : List Str}, ls ≠ [] → unlines (Lam.Spec.part ind ls) ++ ['\n'] = (Lam.Spec.part ind ls).flatMap (fun x => x ++ ['\n']) := by
  have key : ∀ l : List Str, l ≠ [] → unlines l ++ ['\n'] = l.flatMap (fun x => x ++ ['\n']) := by
    intro l h
    induction l with
    | nil => exact absurd rfl h
    | cons a l ih =>
      cases l with
      | nil => simp [unlines, join]
      | cons b l =>
        have ih := ih (by simp)
        rw [List.flatMap_cons, ← ih]
        unfold unlines
        rw [join_cons_of_ne_nil _ _ (by simp)]
        simp
  intro ls h
  refine key _ ?_
  cases ls with
  | nil => exact absurd rfl h
  | cons a l => unfold Lam.Spec.part; simp

/-- What is after the arrow. -/
theorem arrow_text (ret : Str) : arrow ret = Lam.Spec.arrowText (Lam.Spec.retOf ret) := by
  unfold arrow Lam.Spec.retOf
  by_cases h : ret = void_
  · rw [if_pos h, if_pos (show ret = "void".toList from h)]; rfl
  · rw [if_neg h, if_neg (show ¬ ret = "void".toList from h)]; rfl

/-- The variable that the lambda captures. -/
def captured (f : Fn) : Option Str :=
  match f.lambdaToCall with
  | some l => some l
  | none => if f.isMethod then some "self".toList else none

theorem captures_text (f : Fn) : captures f = Lam.Spec.captureText (captured f) := by
  unfold captures captured
  cases f.lambdaToCall with
  | some l => rfl
  | none => cases f.isMethod <;> rfl

theorem lambdaCode_text (ind : Str) (f : Fn) (a : Adapter) (hind : '{' ∉ ind) (hin : Plain a.input ∧ Tidy a.input)
    (hend : Tidy (a.templateEnd.getD (codeEnd ind f a))) (hn : Plain a.name) (hc : Plain (captures f)) (hr : Plain a.ret) (hp : Plain a.params) :
    lambdaCode ind f a = Lam.Spec.Lambda.text ind ⟨a.name, captured f, a.params, Lam.Spec.retOf a.ret,
      (if a.input = [] then [] else [lines a.input]) ++ [lines (a.templateEnd.getD (codeEnd ind f a))]⟩ := by
  have ha : Plain (arrow a.ret) := by
    unfold arrow
    split
    · exact plain_of_no_open (by decide)
    · exact plain_append (plain_of_no_open (by decide)) hr
  generalize hE : a.templateEnd.getD (codeEnd ind f a) = E at hend
  have hE' := indent_part (ind := ind) hend
  have hmem : ∀ kv ∈ [("_i_".toList, ind), ("lambda_name".toList, a.name), ("lambda_captures".toList, captures f), ("lambda_return_arrow".toList, arrow a.ret),
      ("adapted_python_parameters".toList, a.params)] ++ [("lambda_template_end".toList, Indent.indentCode E 1 true (some ind))],
      '}' ∉ kv.1 ∧ kv.1 ∈ keys := by
    simp only [List.cons_append, List.nil_append, List.forall_mem_cons]
    exact ⟨by decide +kernel, by decide +kernel, by decide +kernel, by decide +kernel, by decide +kernel, by decide +kernel, fun _ h => (by cases h)⟩
  have hplain : ∀ kv ∈ [("_i_".toList, ind), ("lambda_name".toList, a.name), ("lambda_captures".toList, captures f), ("lambda_return_arrow".toList, arrow a.ret),
      ("adapted_python_parameters".toList, a.params)], Plain kv.2 := by
    simp only [List.forall_mem_cons]
    exact ⟨plain_of_no_open hind, hn, hc, ha, hp, fun _ h => (by cases h)⟩
  have hkeys : ∀ kv ∈ [("_i_".toList, some ind), ("lambda_name".toList, some a.name), ("lambda_captures".toList, some (captures f)),
      ("lambda_return_arrow".toList, some (arrow a.ret)), ("adapted_python_parameters".toList, some a.params),
      ("lambda_template_end".toList, some (Indent.indentCode E 1 true (some ind)))], kv.1 ∈ keys := by
    simp only [List.forall_mem_cons]
    exact ⟨by decide +kernel, by decide +kernel, by decide +kernel, by decide +kernel, by decide +kernel, by decide +kernel, fun _ h => (by cases h)⟩
  have hf := fun ls => fillable_somes _ _ ls hmem hplain
  simp only [List.cons_append, List.nil_append, List.map_cons, List.map_nil] at hf
  unfold lambdaCode Lam.Spec.Lambda.text
  simp only
  rw [hE, replaceInString_eq, ← captures_text, ← arrow_text]
  show List.foldl _ (List.foldl _ lambdaTemplate _) _ = _
  rw [← List.foldl_append, lambdaTemplate_eq]
  by_cases ho : a.input = []
  · rw [if_neg (show ¬ a.input.length > 0 by rw [ho]; decide), if_pos ho, fill_textOf]
    · simp only [lambdaPieces, List.cons_append, List.nil_append, List.map_cons, List.map_nil, List.foldl_cons, List.foldl_nil, step_some, step_none,
        subst_text, subst_hole, isHole_text, isHole_hole, List.filter_cons, List.filter_nil, List.any_cons, List.any_nil,
        String.toList_inj, String.reduceEq, if_true, if_false, decide_true, decide_false, Bool.or_true, Bool.or_false, Bool.not_true,
        Bool.not_false, Bool.false_eq_true]
      simp only [textOf, unlines, join, source, Piece.source, List.map_cons, List.map_nil, List.flatMap_cons, List.flatMap_nil,
        List.append_nil, List.append_assoc, List.nil_append]
      have e := part_text (ind := ind) (lines_ne_nil E)
      rw [← hE'] at e
      rw [← e]
      simp
    · simp only [List.map_cons, List.map_nil, List.cons_append, List.nil_append]
      decide +kernel
    · simp only [List.map_cons, List.map_nil, List.cons_append, List.nil_append]
      exact ⟨by decide +kernel, fun _ h => (by cases h), fun _ => removable_of (by decide +kernel), hf _⟩
  · have hI' := indent_part (ind := ind) hin.2
    rw [if_pos (show a.input.length > 0 from List.length_pos_iff.2 ho), if_neg ho, fill_textOf]
    · simp only [lambdaPieces, List.cons_append, List.nil_append, List.map_cons, List.map_nil, List.foldl_cons, List.foldl_nil, step_some,
        subst_text, subst_hole, String.toList_inj, String.reduceEq, if_true, if_false]
      simp only [textOf, unlines, join, source, Piece.source, List.map_cons, List.map_nil, List.flatMap_cons, List.flatMap_nil,
        List.append_nil, List.append_assoc, List.nil_append, List.flatMap_append]
      have e := part_text (ind := ind) (lines_ne_nil E)
      have e' := part_text (ind := ind) (lines_ne_nil a.input)
      rw [← hE'] at e
      rw [← hI'] at e'
      rw [← e, ← e']
      simp
    · simp only [List.map_cons, List.map_nil, List.cons_append, List.nil_append]
      decide +kernel
    · simp only [List.map_cons, List.map_nil, List.cons_append, List.nil_append]
      refine ⟨by decide +kernel, fun x hx kv hkv => ?_, fun h => (by cases h), hf _⟩
      rw [← Option.some.inj hx]
      exact inert_of_append hind (by rw [hI']; exact plain_part hind hin.1 _ (hkeys kv hkv))

end Verif.Lam
