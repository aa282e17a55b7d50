import Verif.Lam.Props
import Verif.Glue.Props

/-! C91: the wrapper of a constructor. -/

namespace Verif.Lam.Props
open Verif.Py Verif.Template Verif.Lam

/-- The parameters of the wrapper: with nanobind, the object comes first. -/
def wrapperParams (nanobind : Bool) (cls : Str) (params : List Str) : Str :=
  join ", ".toList ((if nanobind then [cls ++ "* self".toList] else []) ++ params)

def wrapperRet (nanobind : Bool) (cls : Str) : Str := if nanobind then "void".toList else "std::unique_ptr<".toList ++ (cls ++ ">".toList)

/-- The declaration of the wrapper. -/
def wrapperDecl (nanobind : Bool) (cls : Str) (params : List Str) : Str :=
  wrapperRet nanobind cls ++ (" ctor_wrapper(".toList ++ (wrapperParams nanobind cls params ++ ");".toList))

/-- The lambda: the object is made with the parameters. -/
def wrapperLambda (nanobind : Bool) (cls : Str) (params : List Str) (names : Str) : Str :=
  "auto ctor_wrapper = [](".toList ++ (wrapperParams nanobind cls params ++ (") ->  ".toList ++ (wrapperRet nanobind cls ++ ("\n{\n    ".toList ++
    ((if nanobind then "new(self) ".toList ++ (cls ++ ("(".toList ++ (names ++ "); // placement new".toList)))
      else "return std::make_unique<".toList ++ (cls ++ (">(".toList ++ (names ++ ");".toList)))) ++ "\n};".toList)))))

def sigPieces (nanobind : Bool) : List (List Spec.Piece) :=
  if nanobind then [[.text "void ctor_wrapper(".toList, .hole "class_name".toList, .text "* self, ".toList, .hole "parameters_code".toList, .text ");".toList]]
  else [[.text "std::unique_ptr<".toList, .hole "class_name".toList, .text "> ctor_wrapper(".toList, .hole "parameters_code".toList, .text ");".toList]]

def lamPieces (nanobind : Bool) : List (List Spec.Piece) :=
  if nanobind then
    [[.text "auto ctor_wrapper = [](".toList, .hole "class_name".toList, .text "* self, ".toList, .hole "parameters_code".toList, .text ") ->  void".toList],
     [.text "{".toList],
     [.text "    new(self) ".toList, .hole "class_name".toList, .text "(".toList, .hole "parameters_names".toList, .text "); // placement new".toList],
     [.text "};".toList]]
  else
    [[.text "auto ctor_wrapper = [](".toList, .hole "parameters_code".toList, .text ") ->  std::unique_ptr<".toList, .hole "class_name".toList,
      .text ">".toList],
     [.text "{".toList],
     [.text "    return std::make_unique<".toList, .hole "class_name".toList, .text ">(".toList, .hole "parameters_names".toList, .text ");".toList],
     [.text "};".toList]]

theorem sig_eq : ∀ nb, Indent.unindentCode (ctorSignatureRaw nb) true = Spec.textOf (sigPieces nb) := by decide +kernel

theorem lam_eq : ∀ nb, Indent.unindentCode (ctorLambdaRaw nb) true = Spec.textOf (lamPieces nb) := by decide +kernel

/-- `process_code_template` with the three values. -/
theorem fillCtor {ls : List (List Spec.Piece)} {params cls names : Str} (hp : Plain params) (hc : Plain cls) (hn : Plain names)
    (hcl : Clean ["parameters_code".toList, "class_name".toList, "parameters_names".toList, maybeComma] ls) :
    processCodeTemplate (Spec.textOf ls) (ctorReplacements params cls names) = dropFinalComma (Spec.textOf
      (Spec.step (Spec.step (Spec.step (Spec.step ls ("parameters_code".toList, some params)) ("class_name".toList, some cls))
        ("parameters_names".toList, some names)) (maybeComma, some [',', ' ']))) := by
  have hmem : ∀ kv ∈ [("parameters_code".toList, params), ("class_name".toList, cls), ("parameters_names".toList, names)] ++
      [(maybeComma, [',', ' '])], '}' ∉ kv.1 ∧ kv.1 ∈ keys := by
    simp only [List.cons_append, List.nil_append, List.forall_mem_cons]
    exact ⟨by decide +kernel, by decide +kernel, by decide +kernel, by decide +kernel, fun _ h => (by cases h)⟩
  have hplain : ∀ kv ∈ [("parameters_code".toList, params), ("class_name".toList, cls), ("parameters_names".toList, names)], Plain kv.2 := by
    simp only [List.forall_mem_cons]
    exact ⟨hp, hc, hn, fun _ h => (by cases h)⟩
  have hf := fillable_somes _ _ ls hmem hplain
  rw [processCodeTemplate_eq]
  unfold ctorReplacements
  simp only [List.cons_append, List.nil_append, List.append_nil, List.map_cons, List.map_nil] at hf ⊢
  rw [fill_textOf _ _ (by simp only [List.map_cons, List.map_nil]; exact hcl) hf]
  rfl

theorem drop_end (x : Str) : dropFinalComma (x ++ [')', ';']) =
    if endsWith x [',', ' '] then x.take (x.length - 2) ++ [')', ';'] else x ++ [')', ';'] := by
  have h1 : endsWith (x ++ [')', ';']) [',', ' '] = false := by
    cases h : endsWith (x ++ [')', ';']) [',', ' '] with
    | false => rfl
    | true =>
      obtain ⟨t, ht⟩ := List.isSuffixOf_iff_suffix.1 h
      have := congrArg List.getLast? ht
      simp at this
  have h2 : endsWith (x ++ [')', ';']) [',', ' ', ')', ';'] = endsWith x [',', ' '] := by
    rw [Bool.eq_iff_iff]
    unfold endsWith
    rw [List.isSuffixOf_iff_suffix, List.isSuffixOf_iff_suffix]
    constructor
    · rintro ⟨t, ht⟩
      refine ⟨t, ?_⟩
      have : (t ++ [',', ' ']) ++ [')', ';'] = x ++ [')', ';'] := by rw [← ht]; simp
      exact List.append_cancel_right this
    · rintro ⟨t, ht⟩
      exact ⟨t, by rw [← ht]; simp⟩
  have h3 : ∀ y : Str, endsWith (y ++ [')', ';']) [',', ' ', ')'] = false := by
    intro y
    cases h : endsWith (y ++ [')', ';']) [',', ' ', ')'] with
    | false => rfl
    | true =>
      obtain ⟨t, ht⟩ := List.isSuffixOf_iff_suffix.1 h
      have := congrArg List.getLast? ht
      simp at this
  unfold dropFinalComma
  simp only [h1, h2, Bool.false_eq_true, if_false]
  cases he : endsWith x [',', ' ']
  · simp only [Bool.false_eq_true, if_false, h3]
  · simp only [if_true]
    have : (x ++ [')', ';']).take ((x ++ [')', ';']).length - 4) = x.take (x.length - 2) := by
      rw [List.length_append, List.take_append_of_le_length (by simp)]
      congr 1
    rw [this, h3]
    simp

/-- No comma at the end, after a bracket or a blank. -/
theorem ends_join (y : Str) (c : Char) (hc : c ≠ ',') (p : Str) (h : endsWith p [',', ' '] = false) (hcp : c = ' ' → p ≠ []) :
    endsWith (y ++ c :: p) [',', ' '] = false := by
  cases he : endsWith (y ++ c :: p) [',', ' '] with
  | false => rfl
  | true =>
    obtain ⟨t, ht⟩ := List.isSuffixOf_iff_suffix.1 he
    rcases List.append_eq_append_iff.1 ht with ⟨a, ha, hb⟩ | ⟨a, ha, hb⟩
    · rcases a with _ | ⟨d, a⟩
      · rw [List.nil_append] at hb
        cases hb
        exact absurd rfl hc
      · rw [List.cons_append] at hb
        injection hb with _ hb
        match a, hb with
        | [], e =>
          injection e with e1 e2
          exact absurd e2.symm (hcp e1.symm)
        | x :: a, e =>
          injection e with _ e
          exact absurd e.symm (by simp)
    · rcases a with _ | ⟨d, a⟩
      · rw [List.nil_append] at hb
        cases hb
        exact absurd rfl hc
      · rw [List.cons_append] at hb
        injection hb with _ hb
        have : endsWith p [',', ' '] = true := List.isSuffixOf_iff_suffix.2 ⟨a, hb.symm⟩
        rw [h] at this
        cases this

/-- The text of the parameters, and of what is before. -/
theorem wrapperParams_false (cls : Str) (params : List Str) : wrapperParams false cls params = join ", ".toList params := rfl

theorem wrapperParams_true (cls : Str) (params : List Str) (h : params ≠ []) :
    wrapperParams true cls params = cls ++ ("* self, ".toList ++ join ", ".toList params) := by
  cases params with
  | nil => exact absurd rfl h
  | cons p ps =>
    show join ", ".toList ((cls ++ "* self".toList) :: p :: ps) = _
    rw [join]
    · simp
    · simp

/-- The full statement: the wrapper is declared and defined with the parameters of the constructor. -/
def C91_wrapper_statement : Prop := ∀ (nanobind : Bool) (params : List Str) (cls names : Str), Plain (join ", ".toList params) → Plain cls → Plain names →
  endsWith (join ", ".toList params) ", ".toList = false →
  ctorSignature nanobind (join ", ".toList params) cls names = wrapperDecl nanobind cls params ∧
  ctorLambda nanobind (join ", ".toList params) cls names = wrapperLambda nanobind cls params names

theorem sig_text (nb : Bool) (params : List Str) (cls names : Str) (hp : Plain (join ", ".toList params)) (hc : Plain cls) (hn : Plain names)
    (he : endsWith (join ", ".toList params) ", ".toList = false) (hne : nb = true → join ", ".toList params ≠ []) :
    ctorSignature nb (join ", ".toList params) cls names = wrapperDecl nb cls params := by
  unfold ctorSignature
  rw [sig_eq]
  cases nb with
  | false =>
    rw [fillCtor hp hc hn (by decide +kernel)]
    simp only [sigPieces, Bool.false_eq_true, if_false, List.map_cons, List.map_nil, step_some, subst_text, subst_hole,
      String.toList_inj, String.reduceEq, if_true]
    simp only [Spec.textOf, unlines, join, Spec.source, Spec.Piece.source, List.map_cons, List.map_nil, List.flatMap_cons, List.flatMap_nil,
      List.append_nil, List.append_assoc, List.nil_append]
    have := drop_end (("std::unique_ptr<".toList ++ (cls ++ "> ctor_wrapper".toList)) ++ '(' :: join ", ".toList params)
    rw [ends_join _ '(' (by decide) _ he (fun h => (by cases h))] at this
    simp only [List.append_assoc] at this
    refine this.trans ?_
    unfold wrapperDecl wrapperRet
    simp only [Bool.false_eq_true, if_false, List.append_assoc]
    rfl
  | true =>
    have hps : params ≠ [] := fun h => hne rfl (by rw [h]; rfl)
    rw [fillCtor hp hc hn (by decide +kernel)]
    simp only [sigPieces, if_false, List.map_cons, List.map_nil, step_some, subst_text, subst_hole,
      String.toList_inj, String.reduceEq, if_true]
    simp only [Spec.textOf, unlines, join, Spec.source, Spec.Piece.source, List.map_cons, List.map_nil, List.flatMap_cons, List.flatMap_nil,
      List.append_nil, List.append_assoc, List.nil_append]
    have := drop_end (("void ctor_wrapper(".toList ++ (cls ++ "* self,".toList)) ++ ' ' :: join ", ".toList params)
    rw [ends_join _ ' ' (by decide) _ he (fun _ => hne rfl)] at this
    simp only [List.append_assoc] at this
    refine this.trans ?_
    unfold wrapperDecl wrapperRet
    rw [wrapperParams_true _ _ hps]
    simp only [Bool.false_eq_true, if_false, if_true, List.append_assoc]
    rfl

theorem lam_text (nb : Bool) (params : List Str) (cls names : Str) (hp : Plain (join ", ".toList params)) (hc : Plain cls) (hn : Plain names)
    (hne : nb = true → params ≠ []) :
    ctorLambda nb (join ", ".toList params) cls names = wrapperLambda nb cls params names := by
  unfold ctorLambda
  rw [lam_eq]
  have hd : ∀ a : Str, dropFinalComma (a ++ ['}', ';']) = a ++ ['}', ';'] := fun a => Glue.Props.dropFinalComma_keep a '}' ';' (by decide)
  cases nb with
  | false =>
    rw [fillCtor hp hc hn (by decide +kernel)]
    simp only [lamPieces, Bool.false_eq_true, if_false, List.map_cons, List.map_nil, step_some, subst_text, subst_hole,
      String.toList_inj, String.reduceEq, if_true]
    simp only [Spec.textOf, unlines, join, Spec.source, Spec.Piece.source, List.map_cons, List.map_nil, List.flatMap_cons, List.flatMap_nil,
      List.append_nil, List.append_assoc, List.nil_append]
    have := hd ("auto ctor_wrapper = [](".toList ++ (join ", ".toList params ++ (") ->  std::unique_ptr<".toList ++ (cls ++ (">\n{\n    ".toList ++
      ("return std::make_unique<".toList ++ (cls ++ (">(".toList ++ (names ++ ");\n".toList)))))))))
    simp only [List.append_assoc] at this
    refine this.trans ?_
    unfold wrapperLambda wrapperRet
    simp only [Bool.false_eq_true, if_false, List.append_assoc]
    rfl
  | true =>
    rw [fillCtor hp hc hn (by decide +kernel)]
    simp only [lamPieces, List.map_cons, List.map_nil, step_some, subst_text, subst_hole,
      String.toList_inj, String.reduceEq, if_true, if_false]
    simp only [Spec.textOf, unlines, join, Spec.source, Spec.Piece.source, List.map_cons, List.map_nil, List.flatMap_cons, List.flatMap_nil,
      List.append_nil, List.append_assoc, List.nil_append]
    have := hd ("auto ctor_wrapper = [](".toList ++ (cls ++ ("* self, ".toList ++ (join ", ".toList params ++ (") ->  void\n{\n    ".toList ++
      ("new(self) ".toList ++ (cls ++ ("(".toList ++ (names ++ "); // placement new\n".toList)))))))))
    simp only [List.append_assoc] at this
    refine this.trans ?_
    unfold wrapperLambda wrapperRet
    rw [wrapperParams_true _ _ (hne rfl)]
    simp only [Bool.false_eq_true, if_false, if_true, List.append_assoc]
    rfl

/-- It holds with pybind11, and with nanobind when there are parameters. -/
theorem C91_wrapper_partial (nanobind : Bool) (params : List Str) (cls names : Str) (hp : Plain (join ", ".toList params)) (hc : Plain cls)
    (hn : Plain names) (he : endsWith (join ", ".toList params) ", ".toList = false) (hne : nanobind = true → join ", ".toList params ≠ []) :
    ctorSignature nanobind (join ", ".toList params) cls names = wrapperDecl nanobind cls params ∧
    ctorLambda nanobind (join ", ".toList params) cls names = wrapperLambda nanobind cls params names :=
  ⟨sig_text nanobind params cls names hp hc hn he hne, lam_text nanobind params cls names hp hc hn (fun h e => hne h (by rw [e]; rfl))⟩

/-- It fails with nanobind and no parameter: the declaration is right, but the lambda has `(Foo* self, )`. -/
theorem C91_wrapper_fails : ¬ C91_wrapper_statement ∧ ctorSignature true [] "Foo".toList [] = wrapperDecl true "Foo".toList [] ∧
    ctorLambda true [] "Foo".toList [] =
      "auto ctor_wrapper = [](Foo* self, ) ->  void\n{\n    new(self) Foo(); // placement new\n};".toList := by
  refine ⟨fun h => ?_, by decide +kernel, by decide +kernel⟩
  have := (h true [] "Foo".toList [] (by decide +kernel) (by decide +kernel) (by decide +kernel) (by decide)).2
  revert this
  decide +kernel

example : ctorLambda false "int x, const char * s = \"{}\"".toList "N::Foo<int>".toList "x, s".toList =
    ("auto ctor_wrapper = [](int x, const char * s = \"{}\") ->  std::unique_ptr<N::Foo<int>>\n{\n" ++
    "    return std::make_unique<N::Foo<int>>(x, s);\n};").toList ∧
    Plain "int x, const char * s = \"{}\"".toList := by decide +kernel

example : ctorSignature true "int x, Bar b = {}".toList "Foo".toList "x, b".toList = "void ctor_wrapper(Foo* self, int x, Bar b = {});".toList := by
  decide +kernel

/-- The wrapper as a function that is adapted: its first lambda calls it. -/
def wrapperFn (nanobind : Bool) (cls : Str) : Fn :=
  ⟨true, "ctor_wrapper".toList, "ctor_wrapper".toList, some "ctor_wrapper".toList, wrapperRet nanobind cls, false, none⟩

/-- The code of a constructor that is adapted: the wrapper, then the lambdas, the first of which captures and calls the wrapper. -/
theorem C91_code_partial (nanobind : Bool) (params : List Str) (cls names ind : Str) (l : List Adapter) (hp : Plain (join ", ".toList params))
    (hc : Plain cls) (hn : Plain names) (hne : nanobind = true → params ≠ []) (hind : ∀ c ∈ ind, c = ' ') (hl : l ≠ []) (hg : ∀ a ∈ l, Good a)
    (hb : GoodEnd "ctor_wrapper".toList (some "ctor_wrapper".toList) (wrapperRet nanobind cls) false l) :
    ctorCode nanobind (join ", ".toList params) cls names (applyAll ind (wrapperFn nanobind cls) l).code =
      some (wrapperLambda nanobind cls params names ++ ("\n".toList ++
        (chain "ctor_wrapper".toList (some "ctor_wrapper".toList) (wrapperRet nanobind cls) false l).flatMap (Spec.Lambda.text ind))) := by
  have h := many (ind := ind) (fun h => by have := hind _ h; cases this) l (wrapperFn nanobind cls) hg
    (plain_of_no_open (v := "ctor_wrapper".toList) (by decide +kernel)) (plain_of_no_open (v := "&ctor_wrapper".toList) (by decide +kernel)) hb
  rw [h, if_neg hl]
  unfold ctorCode
  rw [lam_text nanobind params cls names hp hc hn hne, Option.map_some, List.append_assoc]
  rfl

example : ctorCode false "const int v[2]".toList "Foo".toList "v".toList (applyAll "  ".toList (wrapperFn false "Foo".toList)
      [⟨"ctor_wrapper_adapt_fixed_size_c_arrays".toList, [], [], none, ["v.data()".toList], "const std::array<int, 2>& v".toList,
        "std::unique_ptr<Foo>".toList⟩]).code =
    some ("auto ctor_wrapper = [](const int v[2]) ->  std::unique_ptr<Foo>\n{\n    return std::make_unique<Foo>(v);\n};\n" ++
      "auto ctor_wrapper_adapt_fixed_size_c_arrays = [&ctor_wrapper](const std::array<int, 2>& v) -> std::unique_ptr<Foo>\n{\n" ++
      "  auto lambda_result = ctor_wrapper(v.data());\n  return lambda_result;\n};\n").toList := by decide +kernel

/-- Without an adapter, there is no code: the constructor is bound as it is. -/
theorem C91_no_code (nanobind : Bool) (params cls names ind : Str) :
    ctorCode nanobind params cls names (applyAll ind (wrapperFn nanobind cls) []).code = none := rfl

end Verif.Lam.Props
