import Verif.Unit.Run
import Verif.Elem.LemmasVar
import Verif.Cls.Text

/-! The binding of a unit as a run over its namespaces. -/

namespace Verif.Unit
open Verif.Py Spec Verif.Template Verif.Template.Spec

mutual
/-- The lines that an element gives to its block. -/
def inner (o : Options) : El → List Str
  | .leaf _ _ _ p => p
  | .ns name _ _ els => if name ∈ o.roots then innerAll o none els else []
def innerAll (o : Options) (last : Option Kind) : List El → List Str
  | [] => []
  | e :: es => spacing last e.kind (inner o e) ++ inner o e ++ innerAll o (lastKind last e.kind (inner o e)) es
end

/-- The code that a namespace stores. -/
def stored (o : Options) (x : Occ) (new : Bool) : Str :=
  unlines (Indent.indentCodeLines ((if new then lines (submoduleCode o x.scope x.name x.comment) else []) ++
    (innerAll o none x.els ++ customLines o true x.scope)) 1 false (some o.cppIndent))

theorem finishPydef_eq (o : Options) (scope : List Str) (name comment : Str) (els : List El) (c : Ctx) (h : name ∉ o.roots) :
    finishPydef o scope name comment (innerAll o none els) c = (runOcc o (stored o) c ⟨scope, name, comment, els⟩).map (fun c => ([], c)) := by
  unfold finishPydef runOcc stored defSubmodule asModule
  rw [if_pos (by simp [h])]
  dsimp only
  cases c.has (qualified scope) with
  | true => simp only [if_true, Bool.not_true, Bool.false_eq_true, if_false]
  | false => simp only [if_true, Bool.not_false, Bool.false_eq_true, if_false]

mutual
theorem elPydef_eq (o : Options) : ∀ (e : El) (s : List Str) (c : Ctx),
    elPydef o s e c = (runAll o (stored o) c (occs o s e)).map (fun c => (inner o e, c))
  | .leaf _ _ _ p, s, c => by unfold elPydef occs inner; rfl
  | .ns n pr eo els, s, c => by
    unfold elPydef occs inner
    rw [blockPydef_eq o els (s ++ [n]) none c, runAll_append]
    cases runAll o (stored o) c (occsAll o (s ++ [n]) els) with
    | none => rfl
    | some c' =>
      show finishPydef o (s ++ [n]) n (Cls.fullComment pr eo) (innerAll o none els) c' = _
      by_cases hr : n ∈ o.roots
      · rw [if_pos hr, if_pos hr]
        unfold finishPydef asModule
        rw [if_neg (by simp [hr])]
        rfl
      · rw [if_neg hr, if_neg hr, finishPydef_eq _ _ _ _ _ _ hr]
        show _ = Option.map _ (runAll _ _ _ _)
        rw [runAll_single]
theorem blockPydef_eq (o : Options) : ∀ (es : List El) (s : List Str) (last : Option Kind) (c : Ctx),
    blockPydef o s last es c = (runAll o (stored o) c (occsAll o s es)).map (fun c => (innerAll o last es, c))
  | [], s, last, c => by unfold blockPydef occsAll innerAll; rfl
  | e :: es, s, last, c => by
    unfold blockPydef occsAll innerAll
    rw [elPydef_eq o e s c, runAll_append]
    cases runAll o (stored o) c (occs o s e) with
    | none => rfl
    | some c' =>
      show Option.map _ (blockPydef o s _ es c') = _
      rw [blockPydef_eq o es s _ c']
      show _ = Option.map _ (runAll _ _ _ _)
      cases runAll o (stored o) c' (occsAll o s es) with
      | none => rfl
      | some _ => rfl
end

/-! ### Rows -/

theorem rowsOf_spacing (last : Option Kind) (k : Kind) (ls : List Str) : rowsOf (spacing last k ls) = [] := by
  unfold spacing
  split
  · rfl
  · split
    · rfl
    · split
      · rfl
      · split <;> decide

theorem rowsOf_splitlines (s : Str) : rowsOf (Cls.splitlines s) = rows s := by
  unfold Cls.splitlines
  split
  · rename_i h; rw [h]; rfl
  · split
    · rename_i h
      rw [rowsOf_lines]
      have h' : endsWith s ['\n'] = true := h
      unfold endsWith at h'
      rw [List.isSuffixOf_iff_suffix] at h'
      obtain ⟨t, ht⟩ := h'
      rw [← ht, List.dropLast_concat]
      exact (rows_append_nl t).symm
    · exact rowsOf_lines s

/-! ### Variables -/

theorem pybindScope_parts (o : Options) (s : List Str) : Elem.pybindScope o.roots (parts s) = parts (path o s) := by
  unfold Elem.pybindScope parts path
  rw [List.filter_map]
  refine congrArg _ (List.filter_congr (fun n _ => ?_))
  unfold Elem.keptPart
  simp

theorem partName_parts (s : List Str) : (parts s).map Elem.partName = s.map ("Ns".toList ++ ·) := by
  unfold parts
  rw [List.map_map]
  rfl

theorem var_eq (o : Options) (s : List Str) : submoduleVar o s = var (path o s) := by
  unfold submoduleVar Elem.varNameOf
  rw [pybindScope_parts, partName_parts]
  unfold var
  cases path o s with
  | nil => rfl
  | cons n p => rfl

theorem parentVar_eq (o : Options) (s : List Str) : Elem.parentVarNameOf o.roots (parts s) = var (path o s) := by
  rw [← Elem.varNameOf_parent]
  exact var_eq o s

theorem customLines_rows (o : Options) (side : Side) (s : List Str) :
    rowsOf (customLines o side.isPydef s) = rows? (o.custom side.isPydef (join "::".toList s) (var (path o s))) := by
  unfold customLines
  rw [var_eq]
  show rowsOf (match o.custom side.isPydef (qualified s) (var (path o s)) with
    | none => []
    | some code => Cls.splitlines code) = rows? (o.custom side.isPydef (qualified s) (var (path o s)))
  cases o.custom side.isPydef (qualified s) (var (path o s)) with
  | none => rfl
  | some code => exact rowsOf_splitlines code

/-! ### The creation of a module -/

def submodulePieces : List (List Piece) :=
  [[.hole "py".toList, .text "::module_ ".toList, .hole "submodule_cpp_var".toList, .text " = ".toList, .hole "parent_module_cpp_var".toList,
    .text ".def_submodule(\"".toList, .hole "module_name".toList, .text "\", \"".toList, .hole "module_doc".toList, .text "\");".toList]]

theorem submoduleTemplate_eq : submoduleTemplate = textOf submodulePieces := by decide +kernel

theorem submodule_fill (lib parent var doc name : Str) (h1 : '{' ∉ lib) (h2 : '{' ∉ parent) (h3 : '{' ∉ var)
    (h4 : Inert "module_name".toList doc ∧ Inert "maybe_comma".toList doc) (h5 : '{' ∉ name) :
    processCodeTemplate submoduleTemplate
      [("py".toList, lib), ("parent_module_cpp_var".toList, parent), ("submodule_cpp_var".toList, var), ("module_doc".toList, doc),
       ("module_name".toList, name)] [] =
    lib ++ "::module_ ".toList ++ var ++ " = ".toList ++ parent ++ ".def_submodule(\"".toList ++ name ++ "\", \"".toList ++ doc ++
      "\");".toList := by
  rw [processCodeTemplate_eq, submoduleTemplate_eq]
  simp only [List.map_cons, List.map_nil, List.append_nil, List.cons_append, List.nil_append, Fn.maybeComma_eq]
  rw [fill_textOf]
  · simp only [submodulePieces, List.map_cons, List.map_nil, step_some, subst_text, subst_hole, List.foldl_cons, List.foldl_nil,
      String.toList_inj, String.reduceEq, if_true, if_false]
    rw [Fn.dropFinalComma_tidy]
    · simp only [textOf, unlines, join, source, Piece.source, List.map_cons, List.map_nil, List.flatMap_cons, List.flatMap_nil,
        List.append_nil, List.append_assoc]
    · simp only [textOf, unlines, join, source, Piece.source, List.map_cons, List.map_nil, List.flatMap_cons, List.flatMap_nil,
        List.append_nil, ← List.append_assoc]
      exact Fn.tidy_after (x := _) (c := '"') (y := [')', ';']) (by decide) (by decide +kernel)
  · simp only [List.map_cons, List.map_nil]
    decide +kernel
  · apply Cls.fillable_pairwise
    · simp only [List.forall_mem_cons]
      decide +kernel
    · simp only [List.forall_mem_cons, ne_eq, reduceCtorEq, not_false_eq_true, true_and]
      simp
    · refine .cons (Cls.inert_open h1) (.cons (Cls.inert_open h2) (.cons (Cls.inert_open h3) (.cons ?_ (.cons (Cls.inert_open h5)
        (.cons (by simp) .nil)))))
      simp only [List.forall_mem_cons]
      exact ⟨fun x hx => Option.some.inj hx ▸ h4.1, fun x hx => Option.some.inj hx ▸ h4.2, by simp⟩

theorem mem_join {c : Char} {sep : Str} : ∀ {l : List Str}, c ∈ join sep l → c ∈ sep ∨ ∃ s ∈ l, c ∈ s
  | [], h => by simp [join] at h
  | [s], h => .inr ⟨s, by simp, h⟩
  | s :: t :: l, h => by
    rw [join_cons_cons, List.mem_append, List.mem_append] at h
    rcases h with (h | h) | h
    · exact .inr ⟨s, by simp, h⟩
    · exact .inl h
    · rcases mem_join h with h | ⟨u, hu, h⟩
      · exact .inl h
      · exact .inr ⟨u, List.mem_cons_of_mem _ hu, h⟩

theorem not_mem_var {c : Char} (hc : c ∉ "mpyNs_".toList) {p : List Str} (h : ∀ n ∈ p, c ∉ n) : c ∉ var p := by
  have h1 : c ∉ "m".toList :=
    fun hm => hc ((by decide : ∀ d ∈ "m".toList, d ∈ "mpyNs_".toList) c hm)
  have h2 : c ∉ "py".toList :=
    fun hm => hc ((by decide : ∀ d ∈ "py".toList, d ∈ "mpyNs_".toList) c hm)
  have h3 : c ∉ "_".toList :=
    fun hm => hc ((by decide : ∀ d ∈ "_".toList, d ∈ "mpyNs_".toList) c hm)
  have h4 : c ∉ "Ns".toList :=
    fun hm => hc ((by decide : ∀ d ∈ "Ns".toList, d ∈ "mpyNs_".toList) c hm)
  unfold var
  split
  · exact h1
  · intro hm
    rcases List.mem_append.1 hm with hm | hm
    · exact h2 hm
    · rcases mem_join hm with hm | ⟨s, hs, hm⟩
      · exact h3 hm
      · obtain ⟨n, hn, rfl⟩ := List.mem_map.1 hs
        rcases List.mem_append.1 hm with hm | hm
        · exact h4 hm
        · exact h n hn hm

theorem submoduleCode_eq (o : Options) (s : List Str) (name comment : Str) (hr : name ∉ o.roots) (hs : ∀ n ∈ s ++ [name], '{' ∉ n)
    (hn : '{' ∉ o.nsName name)
    (hd : Inert "module_name".toList (docOneLine o comment) ∧ Inert "maybe_comma".toList (docOneLine o comment)) :
    submoduleCode o (s ++ [name]) name comment = declaration o (path o (s ++ [name])) name comment := by
  unfold submoduleCode declaration
  rw [parentVar_eq, var_eq, List.dropLast_concat, path_module hr, List.dropLast_concat]
  refine submodule_fill _ _ _ _ _ ?_ ?_ ?_ hd hn
  · split <;> decide +kernel
  · exact not_mem_var (by decide +kernel) (fun n h => hs n (List.mem_append_left _ (List.mem_filter.1 h).1))
  · refine not_mem_var (by decide +kernel) (fun n h => ?_)
    rcases List.mem_append.1 h with h | h
    · exact hs n (List.mem_append_left _ (List.mem_filter.1 h).1)
    · exact hs n (List.mem_append_right _ h)

/-! ### The rows of what is stored -/

mutual
theorem inner_rows (o : Options) : ∀ e : El, rowsOf (inner o e) = plain .binding o e
  | .leaf _ _ _ p => by unfold inner plain; rfl
  | .ns n pr eo els => by
    unfold inner plain
    split
    · exact innerAll_rows o els none
    · rfl
theorem innerAll_rows (o : Options) : ∀ (es : List El) (last : Option Kind), rowsOf (innerAll o last es) = plainAll .binding o es
  | [], last => by unfold innerAll plainAll; rfl
  | e :: es, last => by
    unfold innerAll plainAll
    rw [rowsOf_append, rowsOf_append, rowsOf_spacing, List.nil_append, inner_rows o e, innerAll_rows o es]
end

theorem stored_rows (o : Options) (hi : ∀ c ∈ o.cppIndent, isSpace c = true) (hn : '\n' ∉ o.cppIndent) (x : Occ) (new : Bool) :
    rows (stored o x new) = shift o.cppIndent ((if new then rows (submoduleCode o x.scope x.name x.comment) else []) ++ full .binding o x) := by
  unfold stored full
  rw [rows_unlines, rowsOf_indent hi hn, rowsOf_append, rowsOf_append, innerAll_rows,
    show rowsOf (customLines o true x.scope) = _ from customLines_rows o .binding x.scope]
  cases new with
  | true => rw [if_pos rfl, if_pos rfl, rowsOf_lines]
  | false => rfl

theorem created_rows (f : Occ → Bool → Str) (ind : Str) (d : Occ → List Str) (g : Occ → List Str)
    (h : ∀ x b, rows (f x b) = shift ind ((if b then d x else []) ++ g x)) (x : Occ) (xs : List Occ) :
    (created1 f true (x :: xs)).flatMap rows = shift ind (d x ++ (x :: xs).flatMap g) := by
  unfold created1
  have e : (xs.map (fun y => f y false)).flatMap rows = shift ind (xs.flatMap g) := by
    rw [List.flatMap_map]
    unfold shift
    rw [List.map_flatMap]
    refine Tree.flatMap_congr' (fun y _ => ?_)
    rw [h]
    rfl
  rw [List.flatMap_cons, e, h, if_pos rfl, List.flatMap_cons, ← shift_append, List.append_assoc]

theorem rows_ne_nil {s : Str} {c : Char} (hc : isSpace c = false) : rows (s ++ [c]) ≠ [] := by
  intro h
  unfold rows at h
  rw [List.filter_eq_nil_iff] at h
  have hc' : c ≠ '\n' := by rintro rfl; revert hc; decide
  have hmem : c ∈ unlines (lines (s ++ [c])) := by rw [unlines_lines]; simp
  rcases mem_join hmem with hm | ⟨l, hl, hm⟩
  · exact hc' (List.mem_singleton.1 hm)
  · have := h (rstrip l) (List.mem_map.2 ⟨l, hl, rfl⟩)
    have h0 : rstrip l = [] := by simpa using this
    have := (rstrip_eq_nil_iff l).1 h0 c hm
    rw [hc] at this
    cases this

end Verif.Unit
