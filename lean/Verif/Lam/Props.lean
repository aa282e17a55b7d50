import Verif.Lam.Lemmas

/-! C90: the text of the lambdas of the adapters. -/

namespace Verif.Lam.Props
open Verif.Py Verif.Template Verif.Lam

/-- The lambda of an adapter, around `callee`, whose result has the type `ret` (`ref`: the function returns a reference). -/
def lambdaOf (callee : Str) (capture : Option Str) (ret : Str) (ref : Bool) (a : Adapter) : Spec.Lambda :=
  ⟨a.name, capture, a.params, Spec.retOf a.ret,
    (if a.input = [] then [] else [lines a.input]) ++ [lines (a.templateEnd.getD
      (Spec.callText ret callee (join ", ".toList a.args) (if a.output = [] then none else some (Lines.stripEmptyLines a.output)) ref))]⟩

/-- The lambdas of several adapters: each one is around the one before, which it captures. -/
def chain (callee : Str) (capture : Option Str) (ret : Str) (ref : Bool) : List Adapter → List Spec.Lambda
  | [] => []
  | a :: l => lambdaOf callee capture ret ref a :: chain a.name (some a.name) a.ret ref l

/-- The function that the first lambda calls. -/
def firstCallee (f : Fn) : Str := if f.isMethod then "self.".toList ++ f.name else f.qualified

def firstCapture (f : Fn) : Option Str := if f.isMethod then some "self".toList else none

/-- The texts of the adapter have no placeholder of the templates, and no line that ends with a blank. -/
structure Good (a : Adapter) : Prop where
  name : Plain a.name
  input : Plain a.input ∧ Tidy a.input
  output : a.output ≠ [] → Plain (Lines.stripEmptyLines a.output)
  ret : Plain a.ret
  params : Plain a.params

/-- The last part of the lambda has no line that ends with a blank. -/
def GoodEnd (callee : Str) (capture : Option Str) (ret : Str) (ref : Bool) : List Adapter → Prop
  | [] => True
  | a :: l => (∀ ls ∈ (lambdaOf callee capture ret ref a).body, ∀ x ∈ ls, rstrip x = x) ∧ GoodEnd a.name (some a.name) a.ret ref l

/-- The full statement: the code is made of the lambdas of the adapters, one after the other; each one calls the one before. -/
def C90_text_statement : Prop := ∀ (ind : Str) (f : Fn) (l : List Adapter), (∀ c ∈ ind, c = ' ') → f.lambdaToCall = none → f.code = none → l ≠ [] →
  (applyAll ind f l).code = some ((chain (firstCallee f) (firstCapture f) f.ret f.refReturned l).flatMap (Spec.Lambda.text ind))

theorem one {ind : Str} {f : Fn} {a : Adapter} (hind : '{' ∉ ind) (hg : Good a) (hcal : Plain (callee f)) (hcap : Plain (captures f))
    (hb : ∀ ls ∈ (lambdaOf (callee f) (captured f) f.ret f.refReturned a).body, ∀ x ∈ ls, rstrip x = x) :
    lambdaCode ind f a = Spec.Lambda.text ind (lambdaOf (callee f) (captured f) f.ret f.refReturned a) := by
  have he := codeEnd_text ind f a (plain_of_no_open hind) hg.output hcal
  have hend : Tidy (a.templateEnd.getD (codeEnd ind f a)) := by
    rw [he]
    exact hb _ (List.mem_append_right _ (List.mem_singleton.2 rfl))
  rw [lambdaCode_text ind f a hind hg.input hend hg.name hcap hg.ret hg.params, he]
  rfl

theorem many {ind : Str} (hind : '{' ∉ ind) : ∀ (l : List Adapter) (f : Fn), (∀ a ∈ l, Good a) → Plain (callee f) → Plain (captures f) →
    GoodEnd (callee f) (captured f) f.ret f.refReturned l →
    (applyAll ind f l).code = if l = [] then f.code else
      some (f.code.getD [] ++ (chain (callee f) (captured f) f.ret f.refReturned l).flatMap (Spec.Lambda.text ind))
  | [], f, _, _, _, _ => rfl
  | a :: l, f, hg, hcal, hcap, hb => by
    have h1 := one hind (hg a (by simp)) hcal hcap hb.1
    have hn := (hg a (by simp)).name
    have ih := many hind l (apply ind f a) (fun x hx => hg x (List.mem_cons_of_mem _ hx)) hn
      (by
        show Plain ('&' :: a.name)
        exact plain_append (a := ['&']) (plain_of_no_open (by decide)) hn) hb.2
    show (applyAll ind (apply ind f a) l).code = _
    rw [ih, if_neg (fun h => List.cons_ne_nil a l h)]
    have hc : (apply ind f a).code = some (f.code.getD [] ++ Spec.Lambda.text ind (lambdaOf (callee f) (captured f) f.ret f.refReturned a)) := by
      show some _ = _
      rw [h1]
      cases f.code <;> rfl
    by_cases hl : l = []
    · rw [if_pos hl, hc, hl]
      show _ = some (_ ++ List.flatMap _ [_])
      simp
    · rw [if_neg hl, hc]
      show some (_ ++ List.flatMap _ (chain a.name (some a.name) a.ret f.refReturned l)) = some (_ ++ List.flatMap _ (_ :: chain _ _ _ _ l))
      rw [List.flatMap_cons, Option.getD_some, List.append_assoc]

/-- It holds when the texts have no placeholder of the templates, and no line that ends with a blank. -/
theorem C90_text_partial (ind : Str) (f : Fn) (l : List Adapter) (hind : ∀ c ∈ ind, c = ' ') (hf : f.lambdaToCall = none) (hc : f.code = none)
    (hl : l ≠ []) (hg : ∀ a ∈ l, Good a) (hn : Plain (firstCallee f)) (hb : GoodEnd (firstCallee f) (firstCapture f) f.ret f.refReturned l) :
    (applyAll ind f l).code = some ((chain (firstCallee f) (firstCapture f) f.ret f.refReturned l).flatMap (Spec.Lambda.text ind)) := by
  have h1 : callee f = firstCallee f := by unfold callee firstCallee; rw [hf]
  have h2 : captured f = firstCapture f := by unfold captured firstCapture; rw [hf]
  have h3 : Plain (captures f) := by
    unfold captures
    rw [hf]
    cases f.isMethod
    · exact plain_of_no_open (by decide)
    · exact plain_of_no_open (by decide +kernel)
  have := many (ind := ind) (fun h => by have := hind _ h; cases this) l f hg (by rw [h1]; exact hn) h3 (by rw [h1, h2]; exact hb)
  rw [this, if_neg hl, h1, h2, hc]
  rfl

/-- `bool g(const char* s = NULL, bool& b)`, a method: `s` becomes an optional, then `b` is returned. -/
def demoFn : Fn := ⟨true, "g".toList, "N::S::g".toList, none, "bool".toList, false, none⟩
def demo1 : Adapter := ⟨"g_adapt_const_char".toList, "const char * s_or_null = nullptr;\nif (s)\n    s_or_null = s->c_str();\n".toList, [], none,
  ["s_or_null".toList, "b".toList], "std::optional<std::string> s = std::nullopt, bool & b".toList, "bool".toList⟩
def demo2 : Adapter := ⟨"g_to_return".toList, "bool & b_adapt = b;\n".toList, "log(\"{}\");\n".toList, none,
  ["s".toList, "b_adapt".toList], "const std::vector<int>& v = {}, bool b".toList, "bool".toList⟩

instance (a : Adapter) : Decidable (Good a) :=
  decidable_of_iff (Plain a.name ∧ (Plain a.input ∧ ∀ l ∈ lines a.input, rstrip l = l) ∧ (a.output ≠ [] → Plain (Lines.stripEmptyLines a.output)) ∧
    Plain a.ret ∧ Plain a.params) ⟨fun ⟨h1, h2, h3, h4, h5⟩ => ⟨h1, h2, h3, h4, h5⟩, fun h => ⟨h.name, h.input, h.output, h.ret, h.params⟩⟩

example : (∀ a ∈ [demo1, demo2], Good a) ∧ Plain (firstCallee demoFn) := by decide +kernel

example : (∀ ls ∈ (lambdaOf (firstCallee demoFn) (firstCapture demoFn) demoFn.ret false demo1).body, ∀ x ∈ ls, rstrip x = x) ∧
    (∀ ls ∈ (lambdaOf demo1.name (some demo1.name) demo1.ret false demo2).body, ∀ x ∈ ls, rstrip x = x) := by decide +kernel

example : (applyAll "  ".toList demoFn [demo1, demo2]).code = some
    ("auto g_adapt_const_char = [&self](std::optional<std::string> s = std::nullopt, bool & b) -> bool\n{\n  const char * s_or_null = nullptr;\n" ++
    "  if (s)\n      s_or_null = s->c_str();\n\n  auto lambda_result = self.g(s_or_null, b);\n  return lambda_result;\n};\n" ++
    "auto g_to_return = [&g_adapt_const_char](const std::vector<int>& v = {}, bool b) -> bool\n{\n  bool & b_adapt = b;\n\n" ++
    "  auto lambda_result = g_adapt_const_char(s, b_adapt);\n\n  log(\"{}\");\n  return lambda_result;\n};\n").toList := by decide +kernel

/-- It fails: a default value with `{lambda_name}` in the code of an adapter is changed. -/
theorem C90_text_fails : ¬ C90_text_statement := by
  intro h
  have := h "  ".toList demoFn [{ demo1 with input := "static const Pattern p(\"{lambda_name}\");".toList }] (by decide) rfl rfl (by simp)
  revert this
  decide +kernel

/-! ### References -/

/-- The type is a reference. -/
def IsRef (t : Str) : Prop := endsWith t "&".toList = true

/-- The full statement: a reference to the result of the call is taken only when the function or lambda that is called returns a reference. -/
def C90_reference_statement : Prop := ∀ (f : Fn) (a b : Adapter), (f.refReturned = true ↔ IsRef f.ret) → Good a → Good b → f.lambdaToCall = none →
  b.templateEnd = none → startsWith (Spec.callText a.ret a.name (join ", ".toList b.args) none f.refReturned) "auto& ".toList = true → IsRef a.ret

/-- `int & g(bool & b, const char * s = NULL)` -/
def refFn : Fn := ⟨false, "g".toList, "g".toList, none, "int &".toList, true, none⟩
def toReturn : Adapter := ⟨"g_to_return".toList, "bool * b_adapt = & b;\n".toList, [],
  some (returnEnd refFn (some "int &".toList) ["b_adapt".toList, "s".toList] "std::make_tuple(r, b)".toList), ["b_adapt".toList, "s".toList],
  "bool b, const char * s = NULL".toList, "std::tuple<int &, bool>".toList⟩
def list2 : Adapter := ⟨"g_list".toList, [], [], none, ["b".toList, "s".toList], "bool b, const char * s = NULL".toList, "std::tuple<int &, bool>".toList⟩

/-- It fails: after the outputs of a function that returns a reference are put in a tuple, the next lambda has
`auto& lambda_result = g_to_return(b, s);`, where the result is a temporary value. -/
theorem C90_reference_fails : ¬ C90_reference_statement ∧
    contains ((applyAll "  ".toList refFn [toReturn, list2]).code.getD []) "auto& lambda_result = g_to_return(b, s);".toList = true := by
  refine ⟨fun h => ?_, by decide +kernel⟩
  have := h refFn toReturn list2 (by unfold IsRef; decide +kernel) (by decide +kernel) (by decide +kernel) rfl rfl (by decide +kernel)
  revert this
  unfold IsRef
  decide +kernel

/-! ### Outputs -/

/-- The values that are returned, with their types: the result of the function, then the outputs. -/
def results (old : Option Str) (outs : List (Str × Str)) : List (Str × Str) := (old.map (fun t => (t, "r".toList))).toList ++ outs

/-- One value is returned as it is, several values as a tuple; the types and the names are in the same order. -/
theorem C90_outputs (old : Option Str) (outs : List (Str × Str)) (h : outs ≠ []) :
    (∀ t n, results old outs = [(t, n)] → returnOf old outs = (t, n)) ∧
    ((results old outs).length ≠ 1 → returnOf old outs =
      ("std::tuple<".toList ++ join ", ".toList ((results old outs).map Prod.fst) ++ ">".toList,
        "std::make_tuple(".toList ++ join ", ".toList ((results old outs).map Prod.snd) ++ ")".toList)) := by
  have hlen : (results old outs).length ≠ 0 := by
    unfold results
    rw [List.length_append]
    have : outs.length ≠ 0 := fun h' => h (List.length_eq_zero_iff.1 h')
    omega
  have key : returnOf old outs = if ((results old outs).map Prod.fst).length > 1 then
      ("std::tuple<".toList ++ join ", ".toList ((results old outs).map Prod.fst) ++ ">".toList,
        "std::make_tuple(".toList ++ join ", ".toList ((results old outs).map Prod.snd) ++ ")".toList)
      else (((results old outs).map Prod.fst).headD [], ((results old outs).map Prod.snd).headD []) := by
    cases old <;> rfl
  rw [key]
  constructor
  · intro t n he
    rw [he]
    rfl
  · intro hl
    rw [if_pos (by rw [List.length_map]; omega)]

/-- The result of the call is kept when there is one. -/
def stored (old : Option Str) : Str := old.elim [] (fun t => t ++ " r = ".toList)

/-- The end of the lambda: the call, then the values. -/
theorem C90_output_call (f : Fn) (old : Option Str) (args : List Str) (tuple : Str) (ho : Plain (old.getD [])) (hc : Plain (callee f))
    (ha : Plain (join ", ".toList args)) :
    returnEnd f old args tuple = stored old ++ (callee f ++ ("(".toList ++ (join ", ".toList args ++ (");\nreturn ".toList ++ (tuple ++ ";".toList))))) := by
  have ho' : Plain (stored old) := by
    cases old with
    | none => exact plain_of_no_open (List.not_mem_nil)
    | some t => exact plain_append ho (plain_of_no_open (by decide))
  have hmem : ∀ kv ∈ [("maybe_store_function_output".toList, stored old), ("lambda_to_call".toList, callee f),
      ("params".toList, join commaSpace args)] ++ [("output_tuple".toList, tuple)], '}' ∉ kv.1 ∧ kv.1 ∈ keys := by
    simp only [List.cons_append, List.nil_append, List.forall_mem_cons]
    exact ⟨by decide +kernel, by decide +kernel, by decide +kernel, by decide +kernel, fun _ h => (by cases h)⟩
  have hplain : ∀ kv ∈ [("maybe_store_function_output".toList, stored old),
      ("lambda_to_call".toList, callee f), ("params".toList, join commaSpace args)], Plain kv.2 := by
    simp only [List.forall_mem_cons]
    exact ⟨ho', hc, ha, fun _ h => (by cases h)⟩
  have hf := fillable_somes _ _ returnPieces hmem hplain
  have hst : returnEnd f old args tuple = replaceInString returnTemplate [("maybe_store_function_output".toList, stored old),
      ("lambda_to_call".toList, callee f), ("params".toList, join commaSpace args), ("output_tuple".toList, tuple)] := by
    cases old <;> rfl
  rw [hst, replaceInString_eq, returnTemplate_eq]
  simp only [List.cons_append, List.nil_append, List.map_cons, List.map_nil] at hf ⊢
  rw [fill_textOf _ _ _ hf]
  · simp only [returnPieces, List.map_cons, List.map_nil, List.foldl_cons, List.foldl_nil, step_some, subst_text, subst_hole,
      String.toList_inj, String.reduceEq, if_true, if_false]
    simp only [Template.Spec.textOf, unlines, join, Template.Spec.source, Template.Spec.Piece.source, List.map_cons, List.map_nil, List.flatMap_cons, List.flatMap_nil,
      List.append_nil, List.append_assoc, List.nil_append]
    rfl
  · simp only [List.map_cons, List.map_nil]
    decide +kernel

example : returnOf (some "bool".toList) [("int".toList, "v".toList)] = ("std::tuple<bool, int>".toList, "std::make_tuple(r, v)".toList) ∧
    returnOf none [("int".toList, "v".toList)] = ("int".toList, "v".toList) := by decide +kernel

example : returnEnd demoFn (some "bool".toList) ["&v_adapt".toList] "std::make_tuple(r, v)".toList =
    "bool r = self.g(&v_adapt);\nreturn std::make_tuple(r, v);".toList := by decide +kernel

end Verif.Lam.Props
