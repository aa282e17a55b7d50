import Verif.Cls.Lemmas
import Verif.Fn.LambdaFill

/-! Filling the templates of classes. -/

namespace Verif.Cls
open Verif.Py Verif.Template Verif.Template.Spec

/-- A template in which no value begins a placeholder that is filled after it. -/
theorem fillable_pairwise (items : List (Str × Option Str)) (ls : List (List Piece)) (hk : ∀ kv ∈ items, '}' ∉ kv.1)
    (hs : ∀ kv ∈ items, kv.2 ≠ none) (hp : items.Pairwise (fun a b => ∀ x, a.2 = some x → Inert b.1 x)) : Fillable items ls := by
  induction items generalizing ls with
  | nil => trivial
  | cons kv items ih =>
    obtain ⟨k, v⟩ := kv
    rw [List.pairwise_cons] at hp
    refine ⟨hk (k, v) (by simp), ?_, fun h => absurd h (hs (k, v) (by simp)), ih _ (fun x hx => hk x (by simp [hx])) (fun x hx => hs x (by simp [hx])) hp.2⟩
    intro x hx kv hkv
    exact hp.1 kv hkv x hx

theorem inert_open {k v : Str} (h : '{' ∉ v) {items : List (Str × Option Str)} :
    ∀ b ∈ items, ∀ x, ((k, some v) : Str × Option Str).2 = some x → Inert b.1 x :=
  fun _ _ _ hx => Option.some.inj hx ▸ inert_of_no_open h

def creationPieces : List (List Piece) :=
  [[.text "auto ".toList, .hole "pydef_class_var".toList, .text " =".toList],
   [.hole "_i_".toList, .hole "py".toList, .text "::class_<".toList, .hole "qualified_struct_name".toList, .hole "other_template_params".toList,
    .hole "maybe_shared_ptr_holder".toList, .text ">".toList, .hole "location".toList],
   [.hole "_i_".toList, .hole "_i_".toList, .text "(".toList, .hole "pydef_class_var_parent".toList, .text ", \"".toList,
    .hole "class_name_python".toList, .text "\"".toList, .hole "maybe_py_is_final".toList, .hole "maybe_py_is_dynamic".toList, .text ", \"".toList,
    .hole "comment".toList, .text "\")".toList]]

theorem creationTemplate_eq : Indent.unindentCode creationTemplateRaw true = textOf creationPieces := by decide +kernel

theorem creation_fill (lib ind var q other loc py parent fin dyn doc held : Str) (h1 : '{' ∉ lib) (h2 : '{' ∉ ind) (h3 : '{' ∉ var) (h4 : '{' ∉ q)
    (h5 : '{' ∉ other) (h6 : '{' ∉ loc) (h7 : '{' ∉ py) (h8 : '{' ∉ parent) (h9 : '{' ∉ fin) (h10 : '{' ∉ dyn)
    (h11 : Inert "maybe_shared_ptr_holder".toList doc ∧ Inert "maybe_comma".toList doc) (h12 : '{' ∉ held) :
    processCodeTemplate (Indent.unindentCode creationTemplateRaw true)
      [("py".toList, lib), ("_i_".toList, ind), ("pydef_class_var".toList, var), ("qualified_struct_name".toList, q),
       ("other_template_params".toList, other), ("location".toList, loc), ("class_name_python".toList, py),
       ("pydef_class_var_parent".toList, parent), ("maybe_py_is_final".toList, fin), ("maybe_py_is_dynamic".toList, dyn),
       ("comment".toList, doc), ("maybe_shared_ptr_holder".toList, held)] =
    unlines ["auto ".toList ++ var ++ " =".toList, ind ++ lib ++ "::class_<".toList ++ q ++ other ++ held ++ ">".toList ++ loc,
      ind ++ ind ++ "(".toList ++ parent ++ ", \"".toList ++ py ++ "\"".toList ++ fin ++ dyn ++ ", \"".toList ++ doc ++ "\")".toList] := by
  rw [processCodeTemplate_eq, creationTemplate_eq]
  simp only [List.map_cons, List.map_nil, List.append_nil, List.cons_append, List.nil_append, Fn.maybeComma_eq]
  rw [fill_textOf]
  · simp only [creationPieces, List.map_cons, List.map_nil, step_some, subst_text, subst_hole, List.foldl_cons, List.foldl_nil,
      String.toList_inj, String.reduceEq, if_true, if_false]
    rw [Fn.dropFinalComma_tidy]
    · simp only [textOf, unlines, join, source, Piece.source, List.map_cons, List.map_nil, List.flatMap_cons, List.flatMap_nil,
        List.append_nil, List.append_assoc]
    · simp only [textOf, unlines, join, source, Piece.source, List.map_cons, List.map_nil, List.flatMap_cons, List.flatMap_nil,
        List.append_nil, ← List.append_assoc]
      exact Fn.tidy_after (x := _) (c := '"') (y := [')']) (by decide) (by decide +kernel)
  · simp only [List.map_cons, List.map_nil]
    decide +kernel
  · apply fillable_pairwise
    · simp only [List.forall_mem_cons]
      decide +kernel
    · simp only [List.forall_mem_cons, ne_eq, reduceCtorEq, not_false_eq_true, true_and]
      simp
    · refine .cons (inert_open h1) (.cons (inert_open h2) (.cons (inert_open h3) (.cons (inert_open h4) (.cons (inert_open h5)
        (.cons (inert_open h6) (.cons (inert_open h7) (.cons (inert_open h8) (.cons (inert_open h9) (.cons (inert_open h10)
        (.cons ?_ (.cons (inert_open h12) (.cons (by simp) .nil))))))))))))
      simp only [List.forall_mem_cons]
      exact ⟨fun x hx => Option.some.inj hx ▸ h11.1, fun x hx => Option.some.inj hx ▸ h11.2, by simp⟩

theorem tidy_paren (x : Str) : Fn.Spec.Tidy (x ++ ['\n'] ++ ")".toList) := by
  rw [List.append_assoc]
  exact Fn.tidy_after (c := '\n') (y := [')']) (by decide) (by decide +kernel)

def copyPieces : List (List Piece) :=
  [[.text ".def(\"__".toList, .hole "copy_or_deep_copy".toList, .text "__\",  [](const ".toList, .hole "qualified_class_name".toList, .text " &self".toList, .hole "maybe_pydict".toList, .text ") {".toList],
   [.hole "_i_".toList, .text "return ".toList, .hole "qualified_class_name".toList, .text "(self);".toList],
   [.text "}".toList, .hole "maybe_memo".toList, .text ")".toList]]

theorem copyTemplate_eq : Indent.unindentCode copyTemplateRaw true = textOf copyPieces := by decide +kernel

theorem copy_fill (ind q what dict memo : Str) (htidy : ∀ x : Str, Fn.Spec.Tidy (x ++ "}".toList ++ memo ++ ")".toList)) (h0 : '{' ∉ ind) (h1 : '{' ∉ q) (h2 : '{' ∉ what) (h3 : '{' ∉ dict) (h4 : '{' ∉ memo) :
    processCodeTemplate (Indent.unindentCode copyTemplateRaw true)
      [("_i_".toList, ind), ("qualified_class_name".toList, q), ("copy_or_deep_copy".toList, what), ("maybe_pydict".toList, dict), ("maybe_memo".toList, memo)] =
    unlines [".def(\"__".toList ++ what ++ "__\",  [](const ".toList ++ q ++ " &self".toList ++ dict ++ ") {".toList,
      ind ++ "return ".toList ++ q ++ "(self);".toList,
      "}".toList ++ memo ++ ")".toList] := by
  rw [processCodeTemplate_eq, copyTemplate_eq]
  simp only [List.map_cons, List.map_nil, List.append_nil, List.cons_append, List.nil_append, Fn.maybeComma_eq]
  rw [fill_textOf]
  · simp only [copyPieces, List.map_cons, List.map_nil, step_some, subst_text, subst_hole, List.foldl_cons, List.foldl_nil,
      String.toList_inj, String.reduceEq, if_true, if_false]
    rw [Fn.dropFinalComma_tidy]
    · simp only [textOf, unlines, join, source, Piece.source, List.map_cons, List.map_nil, List.flatMap_cons, List.flatMap_nil,
        List.append_nil, List.append_assoc]
    · simp only [textOf, unlines, join, source, Piece.source, List.map_cons, List.map_nil, List.flatMap_cons, List.flatMap_nil,
        List.append_nil, ← List.append_assoc]
      exact htidy _
  · simp only [List.map_cons, List.map_nil]
    decide +kernel
  · apply fillable_pairwise
    · simp only [List.forall_mem_cons]
      decide +kernel
    · simp only [List.forall_mem_cons, ne_eq, reduceCtorEq, not_false_eq_true, true_and]
      simp
    · refine .cons (inert_open h0) (.cons (inert_open h1) (.cons (inert_open h2) (.cons (inert_open h3) (.cons (inert_open h4) (.cons (by simp) .nil)))))

def namedPyPieces : List (List Piece) :=
  [[.text ".def(py::init<>([](".toList],
   [.hole "all_params_signature".toList, .text ")".toList],
   [.text "{".toList],
   [.hole "_i_".toList, .text "auto r_ctor_ = std::make_unique<".toList, .hole "qualified_struct_name".toList, .text ">();".toList],
   [.hole "all_params_set_values".toList],
   [.hole "_i_".toList, .text "return r_ctor_;".toList],
   [.text "})".toList],
   [.text ", ".toList, .hole "maybe_pyargs".toList],
   [.text ")".toList]]

theorem namedPyTemplate_eq : Indent.unindentCode (namedTemplateRaw false) true = textOf namedPyPieces := by decide +kernel

theorem namedPy_fill (ind q sig sets pyargs : Str) (h0 : '{' ∉ ind) (h1 : '{' ∉ q) (h2 : Inert "all_params_set_values".toList sig ∧ Inert "maybe_pyargs".toList sig ∧ Inert "maybe_comma".toList sig) (h3 : Inert "maybe_pyargs".toList sets ∧ Inert "maybe_comma".toList sets) (h4 : Inert "maybe_comma".toList pyargs) :
    processCodeTemplate (Indent.unindentCode (namedTemplateRaw false) true)
      [("_i_".toList, ind), ("qualified_struct_name".toList, q), ("all_params_signature".toList, sig), ("all_params_set_values".toList, sets)]
      [("maybe_pyargs".toList, some pyargs)] =
    unlines [".def(py::init<>([](".toList,
      sig ++ ")".toList,
      "{".toList,
      ind ++ "auto r_ctor_ = std::make_unique<".toList ++ q ++ ">();".toList,
      sets,
      ind ++ "return r_ctor_;".toList,
      "})".toList,
      ", ".toList ++ pyargs,
      ")".toList] := by
  rw [processCodeTemplate_eq, namedPyTemplate_eq]
  simp only [List.map_cons, List.map_nil, List.append_nil, List.cons_append, List.nil_append, Fn.maybeComma_eq]
  rw [fill_textOf]
  · simp only [namedPyPieces, List.map_cons, List.map_nil, step_some, subst_text, subst_hole, List.foldl_cons, List.foldl_nil,
      String.toList_inj, String.reduceEq, if_true, if_false]
    rw [Fn.dropFinalComma_tidy]
    · simp only [textOf, unlines, join, source, Piece.source, List.map_cons, List.map_nil, List.flatMap_cons, List.flatMap_nil,
        List.append_nil, List.append_assoc]
    · simp only [textOf, unlines, join, source, Piece.source, List.map_cons, List.map_nil, List.flatMap_cons, List.flatMap_nil,
        List.append_nil, ← List.append_assoc]
      exact tidy_paren _
  · simp only [List.map_cons, List.map_nil]
    decide +kernel
  · apply fillable_pairwise
    · simp only [List.forall_mem_cons]
      decide +kernel
    · simp only [List.forall_mem_cons, ne_eq, reduceCtorEq, not_false_eq_true, true_and]
      simp
    · refine .cons (inert_open h0) (.cons (inert_open h1) (.cons ?_ (.cons ?_ (.cons ?_ (.cons (by simp) .nil)))))
      · simp only [List.forall_mem_cons]
        exact ⟨fun x hx => Option.some.inj hx ▸ h2.1, fun x hx => Option.some.inj hx ▸ h2.2.1, fun x hx => Option.some.inj hx ▸ h2.2.2, by simp⟩
      · simp only [List.forall_mem_cons]
        exact ⟨fun x hx => Option.some.inj hx ▸ h3.1, fun x hx => Option.some.inj hx ▸ h3.2, by simp⟩
      · simp only [List.forall_mem_cons]
        exact ⟨fun x hx => Option.some.inj hx ▸ h4, by simp⟩

def namedNbPieces : List (List Piece) :=
  [[.text ".def(\"__init__\", [](".toList, .hole "all_params_signature".toList, .text ")".toList],
   [.text "{".toList],
   [.hole "_i_".toList, .text "new (self) ".toList, .hole "qualified_struct_name".toList, .text "();  // placement new".toList],
   [.hole "_i_".toList, .text "auto r_ctor_ = self;".toList],
   [.hole "all_params_set_values".toList],
   [.text "},".toList],
   [.hole "maybe_pyargs".toList],
   [.text ")".toList]]

theorem namedNbTemplate_eq : Indent.unindentCode (namedTemplateRaw true) true = textOf namedNbPieces := by decide +kernel

theorem namedNb_fill (ind q sig sets pyargs : Str) (h0 : '{' ∉ ind) (h1 : '{' ∉ q) (h2 : Inert "all_params_set_values".toList sig ∧ Inert "maybe_pyargs".toList sig ∧ Inert "maybe_comma".toList sig) (h3 : Inert "maybe_pyargs".toList sets ∧ Inert "maybe_comma".toList sets) (h4 : Inert "maybe_comma".toList pyargs) :
    processCodeTemplate (Indent.unindentCode (namedTemplateRaw true) true)
      [("_i_".toList, ind), ("qualified_struct_name".toList, q), ("all_params_signature".toList, sig), ("all_params_set_values".toList, sets)]
      [("maybe_pyargs".toList, some pyargs)] =
    unlines [".def(\"__init__\", [](".toList ++ sig ++ ")".toList,
      "{".toList,
      ind ++ "new (self) ".toList ++ q ++ "();  // placement new".toList,
      ind ++ "auto r_ctor_ = self;".toList,
      sets,
      "},".toList,
      pyargs,
      ")".toList] := by
  rw [processCodeTemplate_eq, namedNbTemplate_eq]
  simp only [List.map_cons, List.map_nil, List.append_nil, List.cons_append, List.nil_append, Fn.maybeComma_eq]
  rw [fill_textOf]
  · simp only [namedNbPieces, List.map_cons, List.map_nil, step_some, subst_text, subst_hole, List.foldl_cons, List.foldl_nil,
      String.toList_inj, String.reduceEq, if_true, if_false]
    rw [Fn.dropFinalComma_tidy]
    · simp only [textOf, unlines, join, source, Piece.source, List.map_cons, List.map_nil, List.flatMap_cons, List.flatMap_nil,
        List.append_nil, List.append_assoc]
    · simp only [textOf, unlines, join, source, Piece.source, List.map_cons, List.map_nil, List.flatMap_cons, List.flatMap_nil,
        List.append_nil, ← List.append_assoc]
      exact tidy_paren _
  · simp only [List.map_cons, List.map_nil]
    decide +kernel
  · apply fillable_pairwise
    · simp only [List.forall_mem_cons]
      decide +kernel
    · simp only [List.forall_mem_cons, ne_eq, reduceCtorEq, not_false_eq_true, true_and]
      simp
    · refine .cons (inert_open h0) (.cons (inert_open h1) (.cons ?_ (.cons ?_ (.cons ?_ (.cons (by simp) .nil)))))
      · simp only [List.forall_mem_cons]
        exact ⟨fun x hx => Option.some.inj hx ▸ h2.1, fun x hx => Option.some.inj hx ▸ h2.2.1, fun x hx => Option.some.inj hx ▸ h2.2.2, by simp⟩
      · simp only [List.forall_mem_cons]
        exact ⟨fun x hx => Option.some.inj hx ▸ h3.1, fun x hx => Option.some.inj hx ▸ h3.2, by simp⟩
      · simp only [List.forall_mem_cons]
        exact ⟨fun x hx => Option.some.inj hx ▸ h4, by simp⟩

def iterPyPieces : List (List Piece) :=
  [[.text ".def(\"__iter__\", [](const ".toList, .hole "qualified_struct_name".toList, .text " &v) { return py::make_iterator(v.begin(), v.end()); }, py::keep_alive<0, 1>())".toList],
   [.text ".def(\"__len__\", [](const ".toList, .hole "qualified_struct_name".toList, .text " &v) { return v.size(); })".toList],
   []]

theorem iterPyTemplate_eq : Indent.unindentCode (iterableTemplateRaw false) true ++ "\n".toList = textOf iterPyPieces := by decide +kernel

theorem iterPy_fill (ind q : Str) (h0 : '{' ∉ ind) (h1 : '{' ∉ q) :
    processCodeTemplate (Indent.unindentCode (iterableTemplateRaw false) true ++ "\n".toList)
      [("_i_".toList, ind), ("qualified_struct_name".toList, q)] =
    unlines [".def(\"__iter__\", [](const ".toList ++ q ++ " &v) { return py::make_iterator(v.begin(), v.end()); }, py::keep_alive<0, 1>())".toList,
      ".def(\"__len__\", [](const ".toList ++ q ++ " &v) { return v.size(); })".toList, []] := by
  rw [processCodeTemplate_eq, iterPyTemplate_eq]
  simp only [List.map_cons, List.map_nil, List.append_nil, List.cons_append, List.nil_append, Fn.maybeComma_eq]
  rw [fill_textOf]
  · simp only [iterPyPieces, List.map_cons, List.map_nil, step_some, subst_text, subst_hole, List.foldl_cons, List.foldl_nil,
      String.toList_inj, String.reduceEq, if_true, if_false]
    rw [Fn.dropFinalComma_tidy]
    · simp only [textOf, unlines, join, source, Piece.source, List.map_cons, List.map_nil, List.flatMap_cons, List.flatMap_nil,
        List.append_nil, List.append_assoc]
    · simp only [textOf, unlines, join, source, Piece.source, List.map_cons, List.map_nil, List.flatMap_cons, List.flatMap_nil,
        List.append_nil, ← List.append_assoc]
      exact Fn.tidy_last (x := _) (c := '\n') (by decide)
  · simp only [List.map_cons, List.map_nil]
    decide +kernel
  · apply fillable_pairwise
    · simp only [List.forall_mem_cons]
      decide +kernel
    · simp only [List.forall_mem_cons, ne_eq, reduceCtorEq, not_false_eq_true, true_and]
      simp
    · refine .cons (inert_open h0) (.cons (inert_open h1) (.cons (by simp) .nil))

def iterNbPieces : List (List Piece) :=
  [[.text ".def(\"__iter__\", [](const ".toList, .hole "qualified_struct_name".toList, .text " &v) {".toList],
   [.text "        return nb::make_iterator(nb::type<".toList, .hole "qualified_struct_name".toList, .text ">(), \"iterator\", v.begin(), v.end());".toList],
   [.text "    }, nb::keep_alive<0, 1>())".toList],
   [.text ".def(\"__len__\", [](const ".toList, .hole "qualified_struct_name".toList, .text " &v) { return v.size(); })".toList],
   []]

theorem iterNbTemplate_eq : Indent.unindentCode (iterableTemplateRaw true) true ++ "\n".toList = textOf iterNbPieces := by decide +kernel

theorem iterNb_fill (ind q : Str) (h0 : '{' ∉ ind) (h1 : '{' ∉ q) :
    processCodeTemplate (Indent.unindentCode (iterableTemplateRaw true) true ++ "\n".toList)
      [("_i_".toList, ind), ("qualified_struct_name".toList, q)] =
    unlines [".def(\"__iter__\", [](const ".toList ++ q ++ " &v) {".toList,
      "        return nb::make_iterator(nb::type<".toList ++ q ++ ">(), \"iterator\", v.begin(), v.end());".toList,
      "    }, nb::keep_alive<0, 1>())".toList,
      ".def(\"__len__\", [](const ".toList ++ q ++ " &v) { return v.size(); })".toList, []] := by
  rw [processCodeTemplate_eq, iterNbTemplate_eq]
  simp only [List.map_cons, List.map_nil, List.append_nil, List.cons_append, List.nil_append, Fn.maybeComma_eq]
  rw [fill_textOf]
  · simp only [iterNbPieces, List.map_cons, List.map_nil, step_some, subst_text, subst_hole, List.foldl_cons, List.foldl_nil,
      String.toList_inj, String.reduceEq, if_true, if_false]
    rw [Fn.dropFinalComma_tidy]
    · simp only [textOf, unlines, join, source, Piece.source, List.map_cons, List.map_nil, List.flatMap_cons, List.flatMap_nil,
        List.append_nil, List.append_assoc]
    · simp only [textOf, unlines, join, source, Piece.source, List.map_cons, List.map_nil, List.flatMap_cons, List.flatMap_nil,
        List.append_nil, ← List.append_assoc]
      exact Fn.tidy_last (x := _) (c := '\n') (by decide)
  · simp only [List.map_cons, List.map_nil]
    decide +kernel
  · apply fillable_pairwise
    · simp only [List.forall_mem_cons]
      decide +kernel
    · simp only [List.forall_mem_cons, ne_eq, reduceCtorEq, not_false_eq_true, true_and]
      simp
    · refine .cons (inert_open h0) (.cons (inert_open h1) (.cons (by simp) .nil))

end Verif.Cls
