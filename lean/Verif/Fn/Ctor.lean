import Verif.Fn.CtorFill

/-! The exact text of the statements that bind constructors. -/

namespace Verif.Fn
open Verif.Py Verif.Type Verif.Adapt Verif.Template Verif.Template.Spec
open Spec (Plain Tidy placeholders CodeLine)

/-- `.def(py::init<types>()` -/
def ctorFirst (o : Options) (types : Str) : Str := ".def(".toList ++ lib o ++ "::init<".toList ++ types ++ ">()".toList

/-- The lines of the statement of a constructor, without the closing parenthesis. -/
def ctorMid (F ind loc : Str) (arg doc : Option Str) : List Str :=
  match arg, doc with
  | none, none => [F ++ loc]
  | some a, none => [F ++ [','] ++ loc, ind ++ a]
  | none, some d => [F ++ [','] ++ loc, ind ++ d]
  | some a, some d => [F ++ [','] ++ loc, ind ++ a ++ [','], ind ++ d]

/-- The lines with their commas to be chosen. -/
def commaLines (t1 t2 t3 t4 t5 ind loc : Str) (arg doc : Option Str) : List (List Template.Spec.Piece) :=
  [[.text t1, .text t2, .text t3, .text t4, .text t5, .hole maybeComma, .text loc]] ++
  (arg.map (fun a => [Template.Spec.Piece.text ind, .text a, .hole maybeComma])).toList ++
  (doc.map (fun d => [Template.Spec.Piece.text ind, .text d])).toList

theorem inert_if {k s : Str} (ps : List Template.Spec.Piece) (h : Inert k s) : Inert k (if ps = [] then s ++ ['\n'] else s) := by
  split
  · exact inert_nl h
  · exact h

theorem commaLines_text (t1 t2 t3 t4 t5 ind loc : Str) (arg doc : Option Str)
    (h : ∀ t ∈ [t1, t2, t3, t4, t5, ind, loc] ++ arg.toList ++ doc.toList, Inert maybeComma t ∧ '\n' ∉ t) :
    replaceMaybeComma (textOf (commaLines t1 t2 t3 t4 t5 ind loc arg doc)) 0 =
      unlines (ctorMid (t1 ++ t2 ++ t3 ++ t4 ++ t5) ind loc arg doc) := by
  have hm : ∀ {v : Str}, Inert maybeComma v → ∀ k ∈ [maybeComma], Inert k v := by
    intro v hv k hk; rw [List.mem_singleton] at hk; rw [hk]; exact hv
  have hh : '{' ∉ maybeComma ∧ '}' ∉ maybeComma := by decide
  have hmn : '\n' ∉ maybeComma := by decide
  simp only [List.cons_append, List.nil_append, List.forall_mem_cons, List.mem_append, or_imp, forall_and, Option.mem_toList] at h
  obtain ⟨⟨i1, i2, i3, i4, i5, ii, il, ia, id_⟩, ⟨n1, n2, n3, n4, n5, ni, nl, na, nd⟩⟩ := h
  rw [commas_lines]
  · cases arg <;> cases doc <;>
    simp only [commaLines, Option.map_none, Option.map_some, Option.toList_none, Option.toList_some, List.append_nil, List.cons_append,
      List.nil_append, List.zipIdx_cons, List.zipIdx_nil, List.map_cons, List.map_nil, subst_text, subst_hole, if_true,
      List.length_cons, List.length_nil, Nat.zero_add, Nat.reduceAdd, Nat.reduceEqDiff, if_false, ctorMid] <;>
    simp only [source, Piece.source, List.flatMap_cons, List.flatMap_nil, List.append_nil, List.nil_append, List.append_assoc]
  · simp [commaLines]
  · intro l hl'
    simp only [commaLines, List.mem_append, List.mem_singleton, Option.mem_toList, Option.map_eq_some_iff] at hl'
    rcases hl' with (rfl | ⟨a, he, rfl⟩) | ⟨d, he, rfl⟩
    · exact ⟨hm (inert_if _ i1), hm (inert_if _ i2), hm (inert_if _ i3), hm (inert_if _ i4), hm (inert_if _ i5), hh, hm (inert_if _ il), trivial⟩
    · exact ⟨hm (inert_if _ ii), hm (inert_if _ (ia a he)), hh, trivial⟩
    · exact ⟨hm (inert_if _ ii), hm (inert_if _ (id_ d he)), trivial⟩
  · intro l hl'
    simp only [commaLines, List.mem_append, List.mem_singleton, Option.mem_toList, Option.map_eq_some_iff] at hl'
    rcases hl' with (rfl | ⟨a, he, rfl⟩) | ⟨d, he, rfl⟩
    · simp [source, Piece.source, n1, n2, n3, n4, n5, nl, hmn]
    · have := na a he
      simp [source, Piece.source, ni, this, hmn]
    · have := nd d he
      simp [source, Piece.source, ni, this]

/-- The lines of the statement of a constructor, with the closing parenthesis. -/
def ctorClosed (F ind loc : Str) (anns : List Str) : List Str :=
  match anns with
  | [] => [F ++ [')'] ++ loc]
  | a :: r => (F ++ [','] ++ loc) :: Spec.ctorStatement.ctorTail ind a r

theorem ctor_close (F ind loc : Str) (arg doc : Option Str) (hF : CodeLine F) (hFl : F.getLast? ≠ some '/') (hFn : '\n' ∉ F) (hi : Blank ind)
    (hloc : loc = [] ∨ ∃ c, loc = ind ++ (['/', '/'] ++ c)) (hln : '\n' ∉ loc)
    (h : ∀ t ∈ arg.toList ++ doc.toList, CodeLine (ind ++ t) ∧ '\n' ∉ t) :
    Comment.addItemBeforeCppComment (unlines (ctorMid F ind loc arg doc)) [')'] =
      unlines (ctorClosed F ind loc (arg.toList ++ doc.toList)) := by
  have hin : '\n' ∉ ind := hi.not_mem (by decide)
  have hFne : F ≠ [] := by
    obtain ⟨_, _, _, _, a, c, e, _⟩ := hF
    rw [e]; simp
  have hne : ∀ {t : Str}, CodeLine t → t ≠ [] := by
    rintro t ⟨_, _, _, _, a, c, e, _⟩
    rw [e]; simp
  simp only [List.mem_append, or_imp, forall_and, Option.mem_toList] at h
  obtain ⟨⟨ca, cd⟩, ⟨na, nd⟩⟩ := h
  cases arg with
  | none =>
    cases doc with
    | none =>
      have := addItem_lines [] (F ++ loc) [')'] (by simp [hFn, hln]) (by simp [hFne])
      rw [List.nil_append, List.nil_append] at this
      show Comment.addItemBeforeCppComment (unlines [F ++ loc]) [')'] = unlines [F ++ [')'] ++ loc]
      rw [this]
      rcases hloc with rfl | ⟨c, rfl⟩
      · rw [List.append_nil, List.append_nil, addToken_code hF]
      · rw [← List.append_assoc, show (['/', '/'] : Str) = "//".toList from rfl, addToken_comment hF hFl _ _ _ hi, List.append_assoc]
    | some d =>
      have hd := cd d rfl
      have := addItem_lines [F ++ [','] ++ loc] (ind ++ d) [')'] (by simp [hFn, hln, hin, nd d rfl]) (hne hd)
      show Comment.addItemBeforeCppComment (unlines [F ++ [','] ++ loc, ind ++ d]) [')'] = unlines [F ++ [','] ++ loc, ind ++ d ++ [')']]
      rw [List.cons_append, List.nil_append] at this
      rw [this, addToken_code hd]
      rfl
  | some a =>
    have ha := ca a rfl
    cases doc with
    | none =>
      have := addItem_lines [F ++ [','] ++ loc] (ind ++ a) [')'] (by simp [hFn, hln, hin, na a rfl]) (hne ha)
      show Comment.addItemBeforeCppComment (unlines [F ++ [','] ++ loc, ind ++ a]) [')'] = unlines [F ++ [','] ++ loc, ind ++ a ++ [')']]
      rw [List.cons_append, List.nil_append] at this
      rw [this, addToken_code ha]
      rfl
    | some d =>
      have hd := cd d rfl
      have := addItem_lines [F ++ [','] ++ loc, ind ++ a ++ [',']] (ind ++ d) [')']
        (by simp [hFn, hln, hin, nd d rfl, na a rfl]) (hne hd)
      show Comment.addItemBeforeCppComment (unlines [F ++ [','] ++ loc, ind ++ a ++ [','], ind ++ d]) [')'] =
        unlines [F ++ [','] ++ loc, ind ++ a ++ [','], ind ++ d ++ [')']]
      rw [List.cons_append, List.cons_append, List.nil_append] at this
      rw [this, addToken_code hd]
      rfl

/-- What the theorem on constructors asks of a function. -/
structure UsualCtor (o : Options) (f : Func) (args : List Str) : Prop where
  indent : Blank o.indent
  pyargs : pyargList o f = some args
  types : Plain (overloadTypes f.params) ∧ '\n' ∉ overloadTypes f.params
  first : CodeLine (ctorFirst o (overloadTypes f.params))
  anns : ∀ a ∈ ctorAnnotations o f args, Plain a ∧ '\n' ∉ a ∧ CodeLine (o.indent ++ a)
  location : ∀ fl, f.location = some fl → Plain fl.1 ∧ Plain fl.2 ∧ '\n' ∉ fl.1 ∧ '\n' ∉ fl.2

theorem ctorLocation (o : Options) (f : Func) (args : List Str) (h : UsualCtor o f args) :
    (Plain (location o f "//".toList) ∧ '\n' ∉ location o f "//".toList) ∧
    (location o f "//".toList = [] ∨ ∃ c, location o f "//".toList = o.indent ++ (['/', '/'] ++ c)) := by
  have hi := h.indent
  unfold location
  cases hl : f.location with
  | none => exact ⟨⟨plain_nil, by simp⟩, .inl rfl⟩
  | some fl =>
    obtain ⟨file, line⟩ := fl
    obtain ⟨h1, h2, h3, h4⟩ := h.location _ hl
    have h0 : ∀ s : Str, '{' ∉ s → Plain s := fun s => plain_of_no_open
    have hn : '\n' ∉ o.indent := hi.not_mem (by decide)
    simp only at h1 h2 h3 h4
    exact ⟨⟨plain_append (plain_append (plain_append (plain_append (plain_append (h0 _ (hi.not_mem (by decide)))
      (h0 _ (by decide))) (h0 _ (by decide))) h1) (h0 _ (by decide))) h2, by simp [h3, h4, hn]⟩,
      .inr ⟨" ".toList ++ file ++ ":".toList ++ line, by simp⟩⟩

theorem ctorLines_eq (o : Options) (types loc : Str) (arg doc : Option Str) :
    ctorLines o types loc arg doc = commaLines ".def(".toList (lib o) "::init<".toList types ">()".toList o.indent loc arg doc := by
  unfold ctorLines commaLines
  rw [maybeComma_eq]

theorem ctorStatement_eq (o : Options) (types loc : Str) (anns : List Str) :
    Spec.ctorStatement (lib o) types loc o.indent anns = ctorClosed (ctorFirst o types) o.indent loc anns := by
  cases anns <;> rfl

theorem ctorFirst_last (o : Options) (types : Str) : (ctorFirst o types).getLast? = some ')' := by
  have key : ∀ x : Str, (x ++ ['>', '(', ')']).getLast? = some ')' := by
    intro x
    rw [show (['>', '(', ')'] : Str) = ['>', '('] ++ [')'] from rfl, ← List.append_assoc, List.getLast?_concat]
  exact key _

theorem ctorStr_text (o : Options) (f : Func) (args : List Str) (h : UsualCtor o f args) (hdel : "delete".toList ∉ f.specifiers) :
    ctorStr o f = some (unlines (Spec.ctorStatement (lib o) (overloadTypes f.params) (location o f "//".toList) o.indent
      (ctorAnnotations o f args))) := by
  have hi := h.indent
  obtain ⟨hloc, hloc'⟩ := ctorLocation o f args h
  have hA : ∀ a, (if args = [] then none else some (join commaSpace args)) = some a → a ∈ ctorAnnotations o f args := by
    intro a ha
    unfold ctorAnnotations
    split at ha
    · cases ha
    · rename_i hne
      rw [if_neg hne, ← Option.some.inj ha]; simp
  have hD : ∀ d, quoted (docOneLine o f) = some d → d ∈ ctorAnnotations o f args := by
    intro d hd
    unfold ctorAnnotations
    rw [hd]; simp
  have hann : ctorAnnotations o f args = (if args = [] then none else some (join commaSpace args)).toList ++ (quoted (docOneLine o f)).toList := by
    unfold ctorAnnotations
    by_cases hne : args = [] <;> simp [hne]
  have hfill := ctor_fill o (overloadTypes f.params) (location o f "//".toList) (if args = [] then none else some (join commaSpace args))
    (quoted (docOneLine o f)) hi h.types.1 hloc.1 (fun a ha => (h.anns a (hA a ha)).1) (fun d hd => (h.anns d (hD d hd)).1)
  have hmc : maybeComma ∈ placeholders := by decide +kernel
  have hlib : Inert maybeComma (lib o) ∧ '\n' ∉ lib o := by
    unfold lib; split <;> exact ⟨inert_of_no_open (by decide), by decide⟩
  have hcom := commaLines_text ".def(".toList (lib o) "::init<".toList (overloadTypes f.params) ">()".toList o.indent (location o f "//".toList)
    (if args = [] then none else some (join commaSpace args)) (quoted (docOneLine o f)) (by
      simp only [List.cons_append, List.nil_append, List.forall_mem_cons, List.mem_append, or_imp, Option.mem_toList]
      refine ⟨⟨inert_of_no_open (by decide), by decide⟩, hlib, ⟨inert_of_no_open (by decide), by decide⟩, ⟨h.types.1 _ hmc, h.types.2⟩,
        ⟨inert_of_no_open (by decide), by decide⟩, ⟨inert_of_no_open (hi.not_mem (by decide)), hi.not_mem (by decide)⟩,
        ⟨hloc.1 _ hmc, hloc.2⟩, ?_⟩
      intro x
      exact ⟨fun hx => ⟨(h.anns x (hA x hx)).1 _ hmc, (h.anns x (hA x hx)).2.1⟩, fun hx => ⟨(h.anns x (hD x hx)).1 _ hmc, (h.anns x (hD x hx)).2.1⟩⟩)
  have hclose := ctor_close (ctorFirst o (overloadTypes f.params)) o.indent (location o f "//".toList)
    (if args = [] then none else some (join commaSpace args)) (quoted (docOneLine o f)) h.first
    (by
      rw [ctorFirst_last]
      decide)
    (by
      have h1 := h.types.2
      have h2 := hlib.2
      unfold ctorFirst
      simp [h1, h2]) hi hloc' hloc.2 (by
      rw [← hann]
      intro t ht
      exact ⟨(h.anns t ht).2.2, (h.anns t ht).2.1⟩)
  rw [ctorStr, if_neg hdel, h.pyargs, Option.map_some]
  refine congrArg some ?_
  dsimp only
  have hcom' : replaceMaybeComma (textOf (commaLines ".def(".toList (lib o) "::init<".toList (overloadTypes f.params) ">()".toList o.indent
      (location o f "//".toList) (if args = [] then none else some (join commaSpace args)) (quoted (docOneLine o f)))) 0 =
      unlines (ctorMid (ctorFirst o (overloadTypes f.params)) o.indent (location o f "//".toList)
        (if args = [] then none else some (join commaSpace args)) (quoted (docOneLine o f))) := hcom
  rw [hfill, ctorLines_eq, hcom', ctorStatement_eq, hann]
  exact hclose

end Verif.Fn
