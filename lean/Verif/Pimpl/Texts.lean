import Verif.Pimpl.Lemmas

/-! The texts that the templates give. -/

namespace Verif.Pimpl
open Verif.Py Verif.Template Verif.Template.Spec

def methodPieces (static : Bool) : List (List Piece) :=
  if static then
    [[.hole "return_type".toList, .text " ".toList, .hole "class_published".toList, .text "::".toList, .hole "method_name".toList, .text "(".toList,
      .hole "params_list".toList, .text ") ".toList, .hole "maybe_const".toList, .text "{".toList],
     [.hole "_i_".toList, .hole "maybe_return".toList, .hole "class_impl".toList, .text "::".toList, .hole "method_name".toList, .text "(".toList,
      .hole "param_names".toList, .text "); }".toList]]
  else
    [[.hole "return_type".toList, .text " ".toList, .hole "class_published".toList, .text "::".toList, .hole "method_name".toList, .text "(".toList,
      .hole "params_list".toList, .text ") ".toList, .hole "maybe_const".toList, .text "{".toList],
     [.hole "_i_".toList, .hole "maybe_return".toList, .hole "impl_name".toList, .text "->".toList, .hole "method_name".toList, .text "(".toList,
      .hole "param_names".toList, .text "); }".toList]]

theorem methodTemplate_eq : ∀ st, Indent.unindentCode (methodTemplate st) true = textOf (methodPieces st) := by decide +kernel

theorem method_fill (st : Bool) (i pub impl member ret name params mret names : Str) (const : Bool) (hi : Plain i) (hpub : Plain pub) (himpl : Plain impl)
    (hm : Plain member) (hret : Plain ret) (hname : Plain name) (hp : Plain params) (hmret : Plain mret) (hn : Plain names) :
    processCodeTemplate (Indent.unindentCode (methodTemplate st) true)
      [("_i_".toList, i), ("class_published".toList, pub), ("class_impl".toList, impl), ("impl_name".toList, member),
       ("return_type".toList, ret), ("method_name".toList, name), ("params_list".toList, params),
       ("maybe_return".toList, mret), ("param_names".toList, names), ("maybe_const".toList, if const then "const ".toList else [])] =
    ret ++ (" ".toList ++ (pub ++ ("::".toList ++ (name ++ ("(".toList ++ (params ++ (") ".toList ++ ((if const then "const ".toList else []) ++
    ("{\n".toList ++ (i ++ (mret ++ ((if st then impl else member) ++ ((if st then "::".toList else "->".toList) ++ (name ++ ("(".toList ++
      (names ++ "); }".toList)))))))))))))))) := by
  have hc : Plain (if const then "const ".toList else []) := by cases const <;> exact plain_of_no_open (by decide +kernel)
  rw [methodTemplate_eq, show ([] : List (Str × Option Str)) = ([] : List (Str × Str)).map (fun kv => (kv.1, some kv.2)) from rfl, process_plain]
  · cases st
    · refine (congrArg dropFinalComma (congrArg textOf (show _ = 
        [[.text ret, .text " ".toList, .text pub, .text "::".toList, .text name, .text "(".toList, .text params, .text ") ".toList, .text (if const then "const ".toList else []), .text "{".toList],
          [.text i, .text mret, .text member, .text "->".toList, .text name, .text "(".toList, .text names, .text "); }".toList]] from by with_unfolding_all rfl))).trans ?_
      simp only [textOf, unlines, join, source, Piece.source, List.map_cons, List.map_nil, List.flatMap_cons, List.flatMap_nil,
        List.append_nil, List.append_assoc]
      refine (drop_id ?_).trans ?_
      · have : ∀ x : Str, x ++ "); }".toList = (x ++ "); ".toList) ++ ['}'] := fun x => by rw [List.append_assoc]; rfl
        simp only [← List.append_assoc]
        rw [this]
        exact noComma_brace _
      · rfl
    · refine (congrArg dropFinalComma (congrArg textOf (show _ = 
        [[.text ret, .text " ".toList, .text pub, .text "::".toList, .text name, .text "(".toList, .text params, .text ") ".toList, .text (if const then "const ".toList else []), .text "{".toList],
          [.text i, .text mret, .text impl, .text "::".toList, .text name, .text "(".toList, .text names, .text "); }".toList]] from by with_unfolding_all rfl))).trans ?_
      simp only [textOf, unlines, join, source, Piece.source, List.map_cons, List.map_nil, List.flatMap_cons, List.flatMap_nil,
        List.append_nil, List.append_assoc]
      refine (drop_id ?_).trans ?_
      · have : ∀ x : Str, x ++ "); }".toList = (x ++ "); ".toList) ++ ['}'] := fun x => by rw [List.append_assoc]; rfl
        simp only [← List.append_assoc]
        rw [this]
        exact noComma_brace _
      · rfl
  · simp only [List.map_cons, List.map_nil, List.append_nil]
    decide +kernel
  · simp only [List.map_cons, List.map_nil, List.append_nil, List.forall_mem_cons]
    exact ⟨hi, hpub, himpl, hm, hret, hname, hp, hmret, hn, hc, fun _ h => (by cases h)⟩
  · simp only [List.map_cons, List.map_nil, List.append_nil, List.cons_append, List.nil_append]
    revert st
    decide +kernel

def methodDeclPieces : List (List Piece) :=
  [[.hole "top_comment".toList, .hole "return_type".toList, .text " ".toList, .hole "method_name".toList, .text "(".toList, .hole "params_list".toList,
    .text ")".toList, .hole "maybe_const".toList, .text ";".toList, .hole "maybe_eol_comment".toList]]

theorem methodDeclTemplate_eq : Indent.unindentCode methodDeclTemplate true = textOf methodDeclPieces := by decide +kernel

theorem ends_params {p : Str} (hx : endsWith p [',', ' '] = false) (y : Str) :
    endsWith (y ++ '(' :: (p ++ [')'])) [',', ' ', ')'] = false := by
  apply ends_false
  intro t e
  have e2 : (t ++ [',', ' ']) ++ [')'] = (y ++ '(' :: p) ++ [')'] := by simpa using e
  have e3 := List.append_cancel_right e2
  rcases List.append_eq_append_iff.1 e3 with ⟨s, h1, h2⟩ | ⟨s, h1, h2⟩
  · match s, h2 with
    | [], h2 => exact absurd h2 (by simp)
    | [_], h2 => exact absurd h2 (by simp)
    | [_, _], h2 => exact absurd h2 (by simp)
    | _ :: _ :: _ :: _, h2 => exact absurd h2 (by simp)
  · cases s with
    | nil => exact absurd h2 (by simp)
    | cons c s =>
      injection h2 with _ h3
      have : endsWith p [',', ' '] = true := List.isSuffixOf_iff_suffix.2 ⟨s, h3.symm⟩
      rw [hx] at this
      cases this

theorem methodDecl_fill (top ret name params eol last : Str) (const : Bool) (htop : Plain top) (hret : Plain ret) (hname : Plain name) (hp : Plain params)
    (heol : Plain eol) (hlast : Plain last) (hcomma : endsWith params [',', ' '] = false) (he : NoComma eol) :
    processCodeTemplate (Indent.unindentCode methodDeclTemplate true)
      [("top_comment".toList, top), ("return_type".toList, ret), ("method_name".toList, name), ("params_list".toList, params),
       ("maybe_eol_comment".toList, eol), ("maybe_const".toList, if const then " const".toList else [])]
      [("top_comment".toList, some last)] = Pimpl.Spec.declaration top ret name params const eol := by
  have hc : Plain (if const then " const".toList else []) := by cases const <;> exact plain_of_no_open (by decide +kernel)
  rw [methodDeclTemplate_eq, show [("top_comment".toList, some last)] = [("top_comment".toList, last)].map (fun kv : Str × Str => (kv.1, some kv.2)) from rfl,
    process_plain]
  · refine (congrArg dropFinalComma (congrArg textOf (show _ = 
      [[.text top, .text ret, .text " ".toList, .text name, .text "(".toList, .text params, .text ")".toList, .text (if const then " const".toList else []), .text ";".toList, .text eol]] from by with_unfolding_all rfl))).trans ?_
    simp only [textOf, unlines, join, source, Piece.source, List.map_cons, List.map_nil, List.flatMap_cons, List.flatMap_nil,
      List.append_nil, List.append_assoc]
    refine drop_id ?_
    have e : top ++ (ret ++ (" ".toList ++ (name ++ ("(".toList ++ (params ++ (")".toList ++ ((if const then " const".toList else []) ++
        (";".toList ++ eol)))))))) =
        ((top ++ ret ++ " ".toList ++ name) ++ '(' :: (params ++ [')']) ++ (if const then " const".toList else [])) ++ ';' :: eol := by
      simp
    rw [e]
    refine noComma_semi ?_ he
    cases const
    · rw [if_neg (by decide), List.append_nil]
      exact ends_params hcomma _
    · rw [if_pos rfl]
      apply ends_false
      intro t e
      have h1 : " const".toList = " cons".toList ++ ['t'] := rfl
      rw [h1, ← List.append_assoc] at e
      exact absurd (last_ne (p := [',', ' ']) e) (by decide)
  · simp only [List.map_cons, List.map_nil, List.cons_append, List.nil_append]
    decide +kernel
  · simp only [List.map_cons, List.map_nil, List.cons_append, List.nil_append, List.forall_mem_cons]
    exact ⟨htop, hret, hname, hp, heol, hc, hlast, fun _ h => (by cases h)⟩
  · simp only [List.map_cons, List.map_nil, List.append_nil, List.cons_append, List.nil_append]
    decide +kernel

def ctorPieces : List (List Piece) :=
  [[.hole "class_published".toList, .text "::".toList, .hole "class_published".toList, .text "(".toList, .hole "param_list".toList, .text ")".toList],
   [.hole "_i_".toList, .text ": ".toList, .hole "impl_name".toList, .text "(std::make_unique<".toList, .hole "class_impl".toList, .text ">(".toList,
    .hole "param_names".toList, .text ")) { }".toList]]

theorem ctorTemplate_eq : Indent.unindentCode ctorTemplate true = textOf ctorPieces := by decide +kernel

theorem ctor_fill (i params pub impl member names : Str) (hi : Plain i) (hp : Plain params) (hpub : Plain pub) (himpl : Plain impl)
    (hm : Plain member) (hn : Plain names) :
    processCodeTemplate (Indent.unindentCode ctorTemplate true)
      [("_i_".toList, i), ("param_list".toList, params), ("class_published".toList, pub), ("class_impl".toList, impl),
       ("impl_name".toList, member), ("param_names".toList, names)] = Pimpl.Spec.ctorDefinition i pub impl member params names := by
  rw [ctorTemplate_eq, show ([] : List (Str × Option Str)) = ([] : List (Str × Str)).map (fun kv => (kv.1, some kv.2)) from rfl, process_plain]
  · refine (congrArg dropFinalComma (congrArg textOf (show _ = 
      [[.text pub, .text "::".toList, .text pub, .text "(".toList, .text params, .text ")".toList],
        [.text i, .text ": ".toList, .text member, .text "(std::make_unique<".toList, .text impl, .text ">(".toList, .text names, .text ")) { }".toList]] from by with_unfolding_all rfl))).trans ?_
    simp only [textOf, unlines, join, source, Piece.source, List.map_cons, List.map_nil, List.flatMap_cons, List.flatMap_nil,
      List.append_nil, List.append_assoc]
    refine (drop_id ?_).trans ?_
    · have : ∀ x : Str, x ++ ")) { }".toList = (x ++ ")) { ".toList) ++ ['}'] := fun x => by rw [List.append_assoc]; rfl
      simp only [← List.append_assoc]
      rw [this]
      exact noComma_brace _
    · rfl
  · simp only [List.map_cons, List.map_nil, List.append_nil]
    decide +kernel
  · simp only [List.map_cons, List.map_nil, List.append_nil, List.forall_mem_cons]
    exact ⟨hi, hp, hpub, himpl, hm, hn, fun _ h => (by cases h)⟩
  · simp only [List.map_cons, List.map_nil, List.append_nil, List.cons_append, List.nil_append]
    decide +kernel

def ctorDeclPieces : List (List Piece) :=
  [[.hole "top_comment".toList, .hole "class_published".toList, .text "(".toList, .hole "param_list".toList, .text ");".toList,
    .hole "maybe_eol_comment".toList]]

theorem ctorDeclTemplate_eq : Indent.unindentCode ctorDeclTemplate true = textOf ctorDeclPieces := by decide +kernel

theorem ctorDecl_fill (top pub params eol last : Str) (htop : Plain top) (hpub : Plain pub) (hp : Plain params)
    (heol : Plain eol) (hlast : Plain last) (hcomma : endsWith params [',', ' '] = false) (he : NoComma eol) :
    processCodeTemplate (Indent.unindentCode ctorDeclTemplate true)
      [("top_comment".toList, top), ("class_published".toList, pub), ("param_list".toList, params), ("maybe_eol_comment".toList, eol)]
      [("top_comment".toList, some last)] = Pimpl.Spec.ctorDeclaration top pub params eol := by
  rw [ctorDeclTemplate_eq, show [("top_comment".toList, some last)] = [("top_comment".toList, last)].map (fun kv : Str × Str => (kv.1, some kv.2)) from rfl,
    process_plain]
  · refine (congrArg dropFinalComma (congrArg textOf (show _ = 
      [[.text top, .text pub, .text "(".toList, .text params, .text ");".toList, .text eol]] from by with_unfolding_all rfl))).trans ?_
    simp only [textOf, unlines, join, source, Piece.source, List.map_cons, List.map_nil, List.flatMap_cons, List.flatMap_nil,
      List.append_nil, List.append_assoc]
    refine drop_id ?_
    have e : top ++ (pub ++ ("(".toList ++ (params ++ (");".toList ++ eol)))) = ((top ++ pub) ++ '(' :: (params ++ [')'])) ++ ';' :: eol := by
      simp
    rw [e]
    exact noComma_semi (ends_params hcomma _) he
  · simp only [List.map_cons, List.map_nil, List.cons_append, List.nil_append]
    decide +kernel
  · simp only [List.map_cons, List.map_nil, List.cons_append, List.nil_append, List.forall_mem_cons]
    exact ⟨htop, hpub, hp, heol, hlast, fun _ h => (by cases h)⟩
  · simp only [List.map_cons, List.map_nil, List.append_nil, List.cons_append, List.nil_append]
    decide +kernel

def headerPieces : List (List Piece) :=
  [[.hole "class_or_struct".toList, .text " ".toList, .hole "impl_class_name".toList, .text ";".toList], [], [.hole "top_comment".toList],
   [.hole "class_or_struct".toList, .text " ".toList, .hole "published_class_name".toList, .hole "maybe_eol_comment".toList,
    .hole "linefeed_or_space".toList, .text "{".toList],
   [.hole "i".toList, .hole "maybe_public".toList], [.hole "published_methods".toList],
   [.hole "_i_".toList, .text "~".toList, .hole "published_class_name".toList, .text "();".toList], [.hole "i".toList, .text "private:".toList],
   [.hole "_i_".toList, .text "std::unique_ptr<".toList, .hole "impl_class_name".toList, .text "> ".toList, .hole "impl_name".toList, .text ";".toList],
   [.text "};".toList]]

theorem headerTemplate_eq : Indent.unindentCode headerTemplate true = textOf headerPieces := by decide +kernel

/-- The text of the header, before the removal of empty lines. -/
theorem header_fill (lf i ip kw eol pub impl member methods top mp : Str) (hlf : Plain lf) (hi : Plain i) (hip : Plain ip) (hkw : Plain kw) (heol : Plain eol)
    (hpub : Plain pub) (himpl : Plain impl) (hm : Plain member) (hms : Plain methods) (htop : Plain top) (hmp : Plain mp) :
    processCodeTemplate (Indent.unindentCode headerTemplate true)
      [("linefeed_or_space".toList, lf), ("_i_".toList, i), ("i".toList, ip), ("class_or_struct".toList, kw), ("maybe_eol_comment".toList, eol),
       ("published_class_name".toList, pub), ("impl_class_name".toList, impl), ("impl_name".toList, member), ("published_methods".toList, methods)]
      [("top_comment".toList, some top), ("maybe_public".toList, some mp)] =
    unlines [kw ++ (" ".toList ++ (impl ++ ";".toList)), [], top, kw ++ (" ".toList ++ (pub ++ (eol ++ (lf ++ "{".toList)))), ip ++ mp, methods,
      i ++ ("~".toList ++ (pub ++ "();".toList)), ip ++ "private:".toList,
      i ++ ("std::unique_ptr<".toList ++ (impl ++ ("> ".toList ++ (member ++ ";".toList)))), "};".toList] := by
  rw [headerTemplate_eq, show [("top_comment".toList, some top), ("maybe_public".toList, some mp)] =
      [("top_comment".toList, top), ("maybe_public".toList, mp)].map (fun kv : Str × Str => (kv.1, some kv.2)) from rfl,
    process_plain]
  · refine (congrArg dropFinalComma (congrArg textOf (show _ = 
      [[.text kw, .text " ".toList, .text impl, .text ";".toList],
        [],
        [.text top],
        [.text kw, .text " ".toList, .text pub, .text eol, .text lf, .text "{".toList],
        [.text ip, .text mp],
        [.text methods],
        [.text i, .text "~".toList, .text pub, .text "();".toList],
        [.text ip, .text "private:".toList],
        [.text i, .text "std::unique_ptr<".toList, .text impl, .text "> ".toList, .text member, .text ";".toList],
        [.text "};".toList]] from by with_unfolding_all rfl))).trans ?_
    simp only [textOf, source, Piece.source, List.map_cons, List.map_nil, List.flatMap_cons, List.flatMap_nil, List.append_nil]
    refine drop_id ?_
    simp only [unlines, join]
    have e : ∀ x : Str, x ++ "};".toList = (x ++ "}".toList) ++ ';' :: [] := fun x => by rw [List.append_assoc]; rfl
    simp only [← List.append_assoc]
    rw [e]
    refine noComma_semi (ends_false (fun t ht => ?_)) (by decide +kernel)
    have h1 : ("}".toList : Str) = [] ++ ['}'] := rfl
    rw [h1, ← List.append_assoc] at ht
    exact absurd (last_ne (p := [',', ' ']) ht) (by decide)
  · simp only [List.map_cons, List.map_nil, List.cons_append, List.nil_append]
    decide +kernel
  · simp only [List.map_cons, List.map_nil, List.cons_append, List.nil_append, List.forall_mem_cons]
    exact ⟨hlf, hi, hip, hkw, heol, hpub, himpl, hm, hms, htop, hmp, fun _ h => (by cases h)⟩
  · simp only [List.map_cons, List.map_nil, List.append_nil, List.cons_append, List.nil_append]
    decide +kernel

end Verif.Pimpl
