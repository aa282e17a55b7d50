import Verif.Fn.Lambda
import Verif.Comment.Lemmas

/-! Filling the template of the statements that bind constructors. -/

namespace Verif.Fn.Spec
open Verif.Py Verif.Comment.Spec

/-- A line of C++ code without comment and without blanks at its end, with literals that litgen handles (see C05). -/
def CodeLine (s : Str) : Prop :=
  ∃ items, render items = s ∧ IsLine items [] ∧ (∀ it ∈ items, it.Handled) ∧ ∃ a c, s = a ++ [c] ∧ isSpace c = false

end Verif.Fn.Spec

namespace Verif.Fn
open Verif.Py Verif.Type Verif.Adapt Verif.Template Verif.Template.Spec
open Spec (Plain Tidy placeholders CodeLine)

theorem addToken_code {s : Str} (h : CodeLine s) (token : Str) : Comment.addTokenToLine token s = s ++ token := by
  obtain ⟨items, rfl, h1, h2, a, c, h3, h4⟩ := h
  have := Comment.position_of_line items [] h1 h2
  simp only [List.append_nil, if_true] at this
  have hr : rstrip (Comment.Spec.render items) = Comment.Spec.render items := by
    rw [h3]; exact rstrip_append_of_not h4
  simp [Comment.addTokenToLine, Comment.lastCodePositionBeforeCppComment, this, hr]

theorem isLine_spaces (items : List Comment.Spec.Item) (n : Nat) (cmt : Str) (h : Comment.Spec.IsLine items [])
    (hl : items.getLast? ≠ some (.plain '/')) :
    Comment.Spec.IsLine (items ++ List.replicate n (.plain ' ')) ("//".toList ++ cmt) := by
  obtain ⟨h1, h2, _⟩ := h
  refine ⟨?_, ?_, .inr ⟨⟨cmt, rfl⟩, ?_⟩⟩
  · intro it hit
    rcases List.mem_append.1 hit with h | h
    · exact h1 it h
    · rw [(List.mem_replicate.1 h).2]; exact ⟨by decide, by decide, by decide⟩
  · rw [List.isChain_append]
    refine ⟨h2, ?_, ?_⟩
    · induction n with
      | zero => exact List.IsChain.nil
      | succ n ih =>
        cases n with
        | zero => simp
        | succ n => exact List.IsChain.cons_cons (by simp) ih
    · intro x _ y hy
      rintro ⟨_, rfl⟩
      have := List.mem_of_mem_head? hy
      simp at this
  · rw [List.getLast?_append]
    cases n with
    | zero => simpa using hl
    | succ n => simp [List.getLast?_replicate]

theorem addToken_comment {s : Str} (h : CodeLine s) (hl : s.getLast? ≠ some '/') (ind cmt token : Str) (hi : Blank ind) :
    Comment.addTokenToLine token (s ++ ind ++ ("//".toList ++ cmt)) = s ++ token ++ ind ++ ("//".toList ++ cmt) := by
  obtain ⟨items, rfl, h1, h2, a, c, h3, h4⟩ := h
  have hl' : items.getLast? ≠ some (.plain '/') := by
    intro e
    obtain ⟨l, rfl⟩ := List.getLast?_eq_some_iff.1 e
    simp [Comment.Spec.render, Comment.Spec.Item.render] at hl
  have hind : ind = List.replicate ind.length ' ' := by
    rw [List.eq_replicate_iff]
    exact ⟨rfl, hi.blank⟩
  have hren : Comment.Spec.render (items ++ List.replicate ind.length (.plain ' ')) = Comment.Spec.render items ++ ind := by
    conv => rhs; rw [hind]
    simp only [Comment.Spec.render, List.flatMap_append, List.append_cancel_left_eq]
    induction ind.length with
    | zero => rfl
    | succ n ih => rw [List.replicate_succ, List.flatMap_cons, ih, List.replicate_succ]; rfl
  have hpos := Comment.position_of_line _ _ (isLine_spaces items ind.length cmt h1 hl') (by
    intro it hit
    rcases List.mem_append.1 hit with h | h
    · exact h2 it h
    · rw [(List.mem_replicate.1 h).2]; exact trivial)
  rw [hren, if_neg (by simp)] at hpos
  obtain ⟨code, blanks, rest, e1, e2, e3, _, _, e4, e5⟩ :=
    Comment.addToken_eq token (Comment.Spec.render items ++ ind ++ ("//".toList ++ cmt))
  have hlen := e4 _ hpos
  have := List.append_inj e1.symm hlen
  obtain ⟨hcb, hrest⟩ := this
  have hcode : code = Comment.Spec.render items := by
    have r1 : rstrip (code ++ blanks) = code := by
      rw [rstrip_append_of_all e2]
      rcases List.eq_nil_or_concat code with rfl | ⟨l, d, rfl⟩
      · rfl
      · rw [List.concat_eq_append]
        exact rstrip_append_of_not (e3 d (by simp))
    have r2 : rstrip (Comment.Spec.render items ++ ind) = Comment.Spec.render items := by
      rw [rstrip_append_of_all (fun c hc => by rw [hi.blank c hc]; decide), h3]
      exact rstrip_append_of_not h4
    rw [← r1, hcb, r2]
  rw [e5, hrest, hcode]
  have hb : blanks = ind := by
    rw [hcode] at hcb
    exact List.append_cancel_left hcb
  rw [hb]

/-! ### The commas between the lines -/

theorem comma_line (n i : Nat) (l : List Template.Spec.Piece) (hl : CleanLine [maybeComma] l) :
    maybeCommaLine n 0 i (source l) = source (l.map (subst maybeComma (if i + 1 = n then [] else [',']))) := by
  have hk : '}' ∉ maybeComma := by decide
  unfold maybeCommaLine
  by_cases h : Template.Spec.Piece.hole maybeComma ∈ l
  · rw [if_pos (contains_line l h)]
    have key : ∀ v, replace (source l) (hole maybeComma) v = source (l.map (subst maybeComma v)) := by
      intro v
      have := replace_pieces (keys := [maybeComma]) v hk (by simp) l [] (.inl rfl) hl
      simpa using this
    rw [key, key]
    have : ((i : Int) = (n : Int) - 1 - ((0 : Nat) : Int)) ↔ i + 1 = n := by omega
    by_cases e : i + 1 = n
    · rw [if_pos (this.2 e), if_pos e]
    · rw [if_neg (fun x => e (this.1 x)), if_neg e]
  · have hn := not_contains_line (keys := [maybeComma]) hk (by simp) l hl (fun p hp e => h (e ▸ hp))
    rw [hn, if_neg Bool.false_ne_true]
    congr 1
    conv => lhs; rw [← List.map_id l]
    apply List.map_congr_left
    intro p hp
    cases p with
    | text t => rfl
    | hole x =>
      have : x ≠ maybeComma := fun e => h (e ▸ hp)
      simp [subst, this]

def ctorPieces : List (List Template.Spec.Piece) :=
  [[.text ".def(".toList, .hole "py".toList, .text "::init<".toList, .hole "arg_types".toList, .text ">()".toList, .hole "maybe_comma".toList,
    .hole "location".toList],
   [.hole "_i_".toList, .hole "maybe_pyarg".toList, .hole "maybe_comma".toList],
   [.hole "_i_".toList, .hole "maybe_docstring".toList]]

theorem ctorTemplate_eq : (Indent.unindentCode ctorTemplateRaw).drop 1 = textOf ctorPieces := by decide +kernel

/-- The lines of the statement of a constructor before the commas are chosen. -/
def ctorLines (o : Options) (types loc : Str) (arg doc : Option Str) : List (List Template.Spec.Piece) :=
  [[.text ".def(".toList, .text (lib o), .text "::init<".toList, .text types, .text ">()".toList, .hole "maybe_comma".toList, .text loc]] ++
  (arg.map (fun a => [Template.Spec.Piece.text o.indent, .text a, .hole "maybe_comma".toList])).toList ++
  (doc.map (fun d => [Template.Spec.Piece.text o.indent, .text d])).toList

theorem ctor_fill (o : Options) (types loc : Str) (arg doc : Option Str) (hi : Blank o.indent) (ht : Plain types) (hl : Plain loc)
    (ha : ∀ a, arg = some a → Plain a) (hd : ∀ d, doc = some d → Plain d) :
    replaceInStringRemoveLineIfNone (replaceInString ((Indent.unindentCode ctorTemplateRaw).drop 1)
      [("_i_".toList, o.indent), ("py".toList, lib o), ("location".toList, loc), ("arg_types".toList, types)])
      [("maybe_docstring".toList, doc), ("maybe_pyarg".toList, arg)] = textOf (ctorLines o types loc arg doc) := by
  have hind : ∀ k, Inert k o.indent := fun k => inert_of_no_open (hi.not_mem (by decide))
  have hlib : ∀ k, Inert k (lib o) := by
    intro k; unfold lib; split <;> exact inert_of_no_open (by decide)
  have hnl : '\n' ∉ o.indent := hi.not_mem (by decide)
  have hK : "maybe_docstring".toList ∈ placeholders ∧ "maybe_pyarg".toList ∈ placeholders := by decide +kernel
  have hA : [("_i_".toList, some o.indent), ("py".toList, some (lib o)), ("location".toList, some loc), ("arg_types".toList, some types)].foldl step
      ctorPieces =
      [[.text ".def(".toList, .text (lib o), .text "::init<".toList, .text types, .text ">()".toList, .hole "maybe_comma".toList, .text loc],
       [.text o.indent, .hole "maybe_pyarg".toList, .hole "maybe_comma".toList],
       [.text o.indent, .hole "maybe_docstring".toList]] := by
    simp only [ctorPieces, List.map_cons, List.map_nil, step_some, subst_text,
      subst_hole, List.foldl_cons, List.foldl_nil, String.toList_inj, String.reduceEq, if_true, if_false]
  have hB : [("maybe_docstring".toList, doc), ("maybe_pyarg".toList, arg)].foldl step
      [[.text ".def(".toList, .text (lib o), .text "::init<".toList, .text types, .text ">()".toList, .hole "maybe_comma".toList, .text loc],
       [.text o.indent, .hole "maybe_pyarg".toList, .hole "maybe_comma".toList],
       [.text o.indent, .hole "maybe_docstring".toList]] = ctorLines o types loc arg doc := by
    cases arg <;> cases doc <;>
    simp only [List.map_cons, List.map_nil, step_some, step_none, isHole_text, isHole_hole, subst_text, List.filter_cons, List.filter_nil,
      List.any_cons, List.any_nil, decide_true, decide_false, Bool.or_true, Bool.or_false, Bool.not_true, Bool.not_false, Bool.false_eq_true,
      subst_hole, List.foldl_cons, List.foldl_nil, String.toList_inj, String.reduceEq, if_true, if_false, ctorLines, Option.map_none,
      Option.map_some, Option.toList_none, Option.toList_some, List.append_nil, List.cons_append, List.nil_append]
  rw [replaceInString_eq, replaceInStringRemoveLineIfNone, ← List.foldl_append, ctorTemplate_eq]
  simp only [List.map_cons, List.map_nil]
  rw [fill_textOf, List.foldl_append, hA, hB]
  · simp only [List.map_cons, List.map_nil, List.nil_append, List.cons_append]
    decide +kernel
  · apply fillable_append
    · refine fillable_some (by decide) (fun kv _ => hind _) (fillable_some (by decide) (fun kv _ => hlib _) ?_)
      apply fillable_plain
      · simp only [List.map_cons, List.map_nil]
        decide +kernel
      · simp only [List.forall_mem_cons]
        exact ⟨⟨_, rfl, hl⟩, ⟨_, rfl, ht⟩, by simp⟩
    · rw [hA]
      have hne : "maybe_comma".toList ≠ "maybe_docstring".toList ∧ "maybe_comma".toList ≠ "maybe_pyarg".toList ∧
        "maybe_pyarg".toList ≠ "maybe_docstring".toList := by decide +kernel
      have hn1 : '\n' ∉ "maybe_docstring".toList := by decide +kernel
      have hn2 : '\n' ∉ "maybe_pyarg".toList := by decide +kernel
      have hn3 : '\n' ∉ "maybe_comma".toList := by decide +kernel
      refine ⟨by decide +kernel, ?_, ?_, by decide +kernel, ?_, ?_, trivial⟩
      · intro x hx
        simp only [List.forall_mem_cons]
        exact ⟨hd x hx _ hK.2, by simp⟩
      · intro _
        unfold Removable
        simp [source, Piece.source, hnl]
      · intro x _
        simp
      · intro harg
        unfold Removable
        cases doc with
        | none =>
          simp only [step_none, isHole_text, isHole_hole, List.filter_cons, List.filter_nil,
            List.any_cons, List.any_nil, decide_true, decide_false, Bool.or_true, Bool.or_false, Bool.not_true, Bool.not_false, Bool.false_eq_true,
            String.toList_inj, String.reduceEq, if_true, if_false]
          simp [source, Piece.source, hnl]
        | some d =>
          simp only [step_some, List.map_cons, List.map_nil, subst_text, subst_hole, String.toList_inj, String.reduceEq, if_true, if_false]
          simp [source, Piece.source, hnl]
    · have hB : ∀ v, Plain v → Inert "maybe_docstring".toList v ∧ Inert "maybe_pyarg".toList v ∧
          ∀ x ∈ ([] : List (Str × Option Str)), Inert x.1 v := fun v hv => ⟨hv _ hK.1, hv _ hK.2, by simp⟩
      simp only [List.forall_mem_cons]
      exact ⟨fun x hx => (Option.some.inj hx) ▸ ⟨hind _, hind _, by simp⟩, fun x hx => (Option.some.inj hx) ▸ ⟨hlib _, hlib _, by simp⟩,
        fun x hx => (Option.some.inj hx) ▸ hB _ hl, fun x hx => (Option.some.inj hx) ▸ hB _ ht, by simp⟩

/-- The annotations of a constructor bound without a lambda. -/
def ctorAnnotations (o : Options) (f : Func) (args : List Str) : List Str :=
  (if args = [] then [] else [join commaSpace args]) ++ (quoted (docOneLine o f)).toList

theorem addItem_lines (ls : List Str) (last item : Str) (hnl : ∀ l ∈ ls ++ [last], '\n' ∉ l) (hne : last ≠ []) :
    Comment.addItemBeforeCppComment (unlines (ls ++ [last])) item = unlines (ls ++ [Comment.addTokenToLine item last]) := by
  have hl : (unlines (ls ++ [last])).length ≠ 0 := by
    intro h
    have h0 := List.length_eq_zero_iff.1 h
    have : lines (unlines (ls ++ [last])) = [[]] := by rw [h0]; rfl
    rw [lines_unlines (by simp) hnl] at this
    have := congrArg List.getLast? this
    simp at this
    exact hne this
  unfold Comment.addItemBeforeCppComment
  rw [if_neg hl, lines_unlines (by simp) hnl]
  simp

theorem commas_lines (ls : List (List Template.Spec.Piece)) (hne : ls ≠ []) (hc : Clean [maybeComma] ls) (hnl : ∀ l ∈ ls, '\n' ∉ source l) :
    replaceMaybeComma (textOf ls) 0 =
      unlines (ls.zipIdx.map (fun p => source (p.1.map (subst maybeComma (if p.2 + 1 = ls.length then [] else [',']))))) := by
  have h1 : lines (textOf ls) = ls.map source := by
    rw [lines_textOf ls hne, List.map_eq_flatMap]
    apply List.flatMap_congr
    intro l hl
    exact splitOn_of_not_mem (hnl l hl)
  unfold replaceMaybeComma
  rw [h1, List.zipIdx_map, List.map_map, List.length_map]
  congr 1
  apply List.map_congr_left
  rintro ⟨l, i⟩ hp
  exact comma_line _ _ l (hc l (List.mem_zipIdx hp |>.2.2 ▸ List.getElem_mem _))

end Verif.Fn
