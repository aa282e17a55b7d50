import Verif.Fn.Text

/-! The exact texts of the statements of the pydef of functions. -/

namespace Verif.Fn
open Verif.Py Verif.Type Verif.Adapt Verif.Template Verif.Template.Spec
open Spec (Plain Tidy placeholders)

/-! ### The first line -/

/-- The location, when it is shown, is an ordinary text. -/
def LocationOk (f : Func) : Prop := ∀ fl, f.location = some fl → Plain fl.1 ∧ Plain fl.2 ∧ Tidy fl.2

theorem location_plain (o : Options) (f : Func) (hi : Blank o.indent) (hl : LocationOk f) : Plain (location o f "//".toList) := by
  unfold location
  cases h : f.location with
  | none => exact plain_nil
  | some fl =>
    obtain ⟨file, line⟩ := fl
    have := hl _ h
    have h0 : ∀ s : Str, '{' ∉ s → Plain s := fun s => plain_of_no_open
    exact plain_append (plain_append (plain_append (plain_append (plain_append (h0 _ (hi.not_mem (by decide)))
      (h0 _ (by decide))) (h0 _ (by decide))) this.1) (h0 _ (by decide))) this.2.1

theorem head_tidy (o : Options) (f : Func) (hl : LocationOk f) (x : Str) : Tidy (x ++ "\",".toList ++ location o f "//".toList) := by
  unfold location
  cases h : f.location with
  | none => simpa using tidy_last (x := x ++ ['"']) (c := ',') (by decide)
  | some fl =>
    obtain ⟨file, line⟩ := fl
    have := tidy_after (x := x ++ "\",".toList ++ o.indent ++ "//".toList ++ " ".toList ++ file) (c := ':') (by decide) (hl _ h).2.2
    simpa using this

def creationPieces : List (List Template.Spec.Piece) :=
  [[.hole "module_or_class".toList, .text ".".toList, .hole "def_maybe_static".toList, .text "(\"".toList,
    .hole "function_name_python".toList, .text "\",".toList, .hole "location".toList]]

theorem creationTemplate_eq : Indent.unindentCode creationTemplateRaw true = textOf creationPieces := by decide +kernel

/-- The object on which `def` is called: the module, or nothing for the statements of a class. -/
def receiver (f : Func) : Str := if isMethod f then [] else f.moduleVar

theorem creationPart_text (o : Options) (f : Func) (hi : Blank o.indent) (hm : Plain f.moduleVar) (hn : Plain (shownName o f))
    (hl : LocationOk f) :
    creationPart o f = Spec.head (receiver f) (staticRet f.ret && isMethod f) (shownName o f) (location o f "//".toList) := by
  have hr : Plain (receiver f) := by unfold receiver; split; exact plain_nil; exact hm
  have hloc := location_plain o f hi hl
  have hd : Plain (if staticRet f.ret && isMethod f then "def_static".toList else "def".toList) := by
    split <;> exact plain_of_no_open (by decide)
  rw [creationPart, processCodeTemplate_eq, creationTemplate_eq, fill_textOf]
  · simp only [List.map_cons, List.map_nil, List.nil_append, List.cons_append, List.append_nil, maybeComma_eq]
    simp only [creationPieces, List.map_cons, List.map_nil, step_some, subst_text,
      subst_hole, List.foldl_cons, List.foldl_nil, String.toList_inj, String.reduceEq, if_true, if_false]
    simp only [textOf, unlines, join, source, Piece.source, List.map_cons, List.map_nil, List.flatMap_cons, List.flatMap_nil,
      List.append_nil]
    have := head_tidy o f hl (receiver f ++ (".".toList ++ ((if staticRet f.ret && isMethod f then "def_static".toList else "def".toList)
      ++ ("(\"".toList ++ shownName o f))))
    simp only [List.append_assoc] at this
    rw [← receiver, dropFinalComma_tidy this, Spec.head]
    cases staticRet f.ret && isMethod f <;> simp
  · simp only [List.map_cons, List.map_nil, List.nil_append, List.cons_append, List.append_nil]
    decide +kernel
  · simp only [List.map_cons, List.map_nil, List.nil_append, List.cons_append, List.append_nil]
    apply fillable_plain
    · simp only [List.map_cons, List.map_nil]
      decide +kernel
    · simp only [List.forall_mem_cons]
      exact ⟨⟨_, rfl, hr⟩, ⟨_, rfl, hn⟩, ⟨_, rfl, hloc⟩, ⟨_, rfl, hd⟩, ⟨_, rfl, plain_of_no_open (by decide)⟩, by simp⟩

/-! ### The end of the statement -/

theorem lstrip_append_closing (l : Str) (m : Bool) : lstrip (l ++ Spec.closing m) = lstrip l ++ Spec.closing m := by
  induction l with
  | nil => cases m <;> rfl
  | cons c cs ih =>
    unfold lstrip at *
    rw [List.cons_append, List.dropWhile_cons, List.dropWhile_cons]
    split
    · exact ih
    · rfl

theorem tidy_lstrip {l : Str} (h : Tidy l) : Tidy (lstrip l) := by
  have hs : lstrip l <:+ l := List.dropWhile_suffix _
  exact ⟨fun h' => h.1 (h'.trans hs), fun h' => h.2.1 (h'.trans hs), fun h' => h.2.2 (h'.trans hs)⟩

theorem lstrip_lstrip (l : Str) : lstrip (lstrip l) = lstrip l := by
  induction l with
  | nil => rfl
  | cons c cs ih =>
    unfold lstrip at *
    rw [List.dropWhile_cons]
    split
    · exact ih
    · rename_i h; rw [List.dropWhile_cons, if_neg h]

theorem no_comma_after (x : Str) {r : Str} (h : Tidy r) (hb : lstrip r ≠ []) : ¬ [',', ' '] <:+ x ++ r := by
  intro hs
  rcases suffix_append hs with h' | ⟨p1, p2, h1, h2, _, h4⟩
  · exact h.1 h'
  · apply hb
    subst h4
    cases p1 with
    | nil => exact absurd rfl h1
    | cons c cs =>
      simp at h2
      cases cs with
      | nil => simp at h2; rw [← h2.2]; rfl
      | cons d ds =>
        simp at h2
        rw [h2.2.2.2]; rfl

theorem tidy_closing {x : Str} (m : Bool) (h : ¬ [',', ' '] <:+ x) : Tidy (x ++ Spec.closing m) := by
  have app : ∀ (p q a b : Str), p ++ q <:+ a ++ b → q.length = b.length → q = b ∧ p <:+ a := by
    rintro p q a b ⟨t, ht⟩ hl
    rw [← List.append_assoc] at ht
    have := List.append_inj' ht hl
    exact ⟨this.2, ⟨t, this.1⟩⟩
  cases m with
  | true =>
    refine ⟨?_, ?_, ?_⟩
    · intro hs; exact absurd (app [','] [' '] x [')'] hs rfl).1 (by decide)
    · intro hs; exact h (app [',', ' '] [')'] x [')'] hs rfl).2
    · intro hs; exact absurd (app [',', ' ', ')'] [';'] x [')'] hs rfl).1 (by decide)
  | false =>
    refine ⟨?_, ?_, ?_⟩
    · intro hs; exact absurd (app [] [',', ' '] x [')', ';'] hs rfl).1 (by decide)
    · intro hs; exact absurd (app [','] [' ', ')'] x [')', ';'] hs rfl).1 (by decide)
    · intro hs; exact h (app [',', ' '] [')', ';'] x [')', ';'] hs rfl).2

theorem drop_closing (x : Str) (m : Bool) : dropFinalComma (x ++ [',', ' '] ++ Spec.closing m) = x ++ Spec.closing m := by
  have nsuf : ∀ (a b p : Str) (c d : Char), c ≠ d → endsWith (a ++ (b ++ [c])) (p ++ [d]) = false := by
    intro a b p c d hcd
    rw [Bool.eq_false_iff]
    intro h
    unfold endsWith at h
    rw [List.isSuffixOf_iff_suffix] at h
    obtain ⟨t, ht⟩ := h
    rw [← List.append_assoc, ← List.append_assoc] at ht
    have := (List.append_inj' ht rfl).2
    simp at this
    exact hcd this.symm
  have suf : ∀ (a b : Str), endsWith (a ++ b) b = true := by intro a b; simp [endsWith]
  cases m with
  | true =>
    have e0 : x ++ [',', ' '] ++ Spec.closing true = x ++ [',', ' ', ')'] := by simp [Spec.closing]
    have e1 : endsWith (x ++ [',', ' ', ')']) [',', ' '] = false := nsuf x [',', ' '] [','] ')' ' ' (by decide)
    have e2 : endsWith (x ++ [',', ' ', ')']) [',', ' ', ')', ';'] = false := nsuf x [',', ' '] [',', ' ', ')'] ')' ';' (by decide)
    have e3 : endsWith (x ++ [',', ' ', ')']) [',', ' ', ')'] = true := suf x _
    have e4 : (x ++ [',', ' ', ')']).take ((x ++ [',', ' ', ')']).length - 3) = x := by simp
    rw [e0]
    simp only [dropFinalComma, e1, e2, e3, e4, Bool.false_eq_true, if_false, if_true]
    rfl
  | false =>
    have e0 : x ++ [',', ' '] ++ Spec.closing false = x ++ [',', ' ', ')', ';'] := by simp [Spec.closing]
    have e1 : endsWith (x ++ [',', ' ', ')', ';']) [',', ' '] = false := nsuf x [',', ' ', ')'] [','] ';' ' ' (by decide)
    have e2 : endsWith (x ++ [',', ' ', ')', ';']) [',', ' ', ')', ';'] = true := suf x _
    have e3 : endsWith (x ++ [')', ';']) [',', ' ', ')'] = false := nsuf x [')'] [',', ' '] ';' ')' (by decide)
    have e4 : (x ++ [',', ' ', ')', ';']).take ((x ++ [',', ' ', ')', ';']).length - 4) = x := by simp
    rw [e0]
    simp only [dropFinalComma, e1, e2, e3, e4, Bool.false_eq_true, if_false, if_true]
    rfl

/-- An annotation: not blank, without a final comma, without the beginning of a placeholder. -/
structure Ann (a : Str) : Prop where
  plain : Plain a
  tidy : Tidy a
  notBlank : lstrip a ≠ []

theorem lstrip_append_ne {a b : Str} (h : lstrip b ≠ []) : lstrip (a ++ b) ≠ [] := by
  induction a with
  | nil => exact h
  | cons c cs ih =>
    unfold lstrip at *
    rw [List.cons_append, List.dropWhile_cons]
    split
    · exact ih
    · simp

theorem lstrip_append_ne' {a b : Str} (h : lstrip a ≠ []) : lstrip (a ++ b) ≠ [] := by
  induction a with
  | nil => exact absurd rfl h
  | cons c cs ih =>
    unfold lstrip at *
    rw [List.cons_append, List.dropWhile_cons]
    rw [List.dropWhile_cons] at h
    split
    · rename_i hc; rw [if_pos hc] at h; exact ih h
    · simp

theorem laid_notBlank (ind : Str) (anns : List Str) (h : anns ≠ []) (hb : ∀ a ∈ anns, lstrip a ≠ []) : lstrip (Spec.laid ind anns) ≠ [] := by
  cases anns with
  | nil => exact absurd rfl h
  | cons a as =>
    have h1 : lstrip (ind ++ a) ≠ [] := lstrip_append_ne (hb a (by simp))
    by_cases e : as = []
    · subst e; simpa [Spec.laid] using h1
    · unfold Spec.laid
      rw [List.map_cons, join_cons_of_ne_nil _ _ (by simpa using e), List.append_assoc]
      exact lstrip_append_ne' h1

/-- The end of the statement as it is put in the template. -/
def endText (strip : Bool) (e : Str) : Str := if contains e ['\n'] then ['\n'] ++ e else if strip then lstrip e else e

theorem drop_tail (x ind : Str) (hi : Blank ind) (strip m : Bool) (anns : List Str) (h : ∀ a ∈ anns, Ann a) :
    dropFinalComma (x ++ [',', ' '] ++ endText strip (Spec.laid ind anns ++ Spec.closing m)) =
      x ++ Spec.tail strip ind anns ++ Spec.closing m := by
  have hnl : contains (Spec.laid ind anns ++ Spec.closing m) ['\n'] = decide ('\n' ∈ Spec.laid ind anns) := by
    rw [contains_char, decide_eq_decide, List.mem_append]
    have : '\n' ∉ Spec.closing m := by cases m <;> decide
    simp [this]
  unfold endText
  rw [hnl, lstrip_append_closing]
  by_cases ha : anns = []
  · subst ha
    have e1 : Spec.laid ind [] = [] := rfl
    have e2 : lstrip [] = [] := rfl
    have e3 : Spec.tail strip ind [] = [] := rfl
    rw [e1, e2, e3]
    simp only [List.not_mem_nil, decide_false, Bool.false_eq_true, if_false, List.nil_append, ite_self, List.append_nil]
    exact drop_closing x m
  · have ht := laid_tidy hi anns (fun a h' => (h a h').tidy)
    have hb := laid_notBlank ind anns ha (fun a h' => (h a h').notBlank)
    have key : ∀ r, Tidy r → lstrip r ≠ [] → dropFinalComma (x ++ [',', ' '] ++ (r ++ Spec.closing m)) = x ++ (", ".toList ++ r) ++ Spec.closing m := by
      intro r h1 h2
      have := dropFinalComma_tidy (tidy_closing m (no_comma_after (x ++ [',', ' ']) h1 h2))
      simpa using this
    unfold Spec.tail
    rw [if_neg ha]
    by_cases hn : '\n' ∈ Spec.laid ind anns
    · simp only [hn, decide_true, if_true]
      have := key ('\n' :: Spec.laid ind anns) (tidy_after (x := []) (by decide) ht) (by unfold lstrip at *; simpa [isSpace] using hb)
      simpa using this
    · simp only [hn, decide_false, if_false, Bool.false_eq_true]
      cases strip
      · exact key _ ht hb
      · exact key _ (tidy_lstrip ht) (by rw [lstrip_lstrip]; exact hb)

theorem laid_plain {ind : Str} (hi : Blank ind) (anns : List Str) (h : ∀ a ∈ anns, Plain a) : Plain (Spec.laid ind anns) := by
  apply plain_join (plain_of_no_open (by decide))
  intro x hx
  obtain ⟨a, ha, rfl⟩ := List.mem_map.1 hx
  exact plain_append (plain_of_no_open (hi.not_mem (by decide))) (h a ha)

theorem endText_plain (strip : Bool) {e : Str} (h : Plain e) : Plain (endText strip e) := by
  unfold endText
  split
  · exact plain_append (plain_of_no_open (by decide)) h
  · split
    · exact plain_lstrip h
    · exact h

/-! ### A statement without lambda -/

def directPieces : List (List Template.Spec.Piece) :=
  [[.hole "pydef_method_creation_part".toList],
   [.hole "_i_".toList, .hole "function_pointer".toList, .hole "maybe_comma".toList, .hole "pydef_end_arg_docstring_returnpolicy".toList]]

theorem directTemplate_eq : (Indent.unindentCode directTemplateRaw).drop 1 = textOf directPieces := by decide +kernel

theorem head_plain {r n l : Str} (s : Bool) (hr : Plain r) (hn : Plain n) (hl : Plain l) : Plain (Spec.head r s n l) := by
  unfold Spec.head
  exact plain_append (plain_append (plain_append (plain_append hr (by cases s <;> exact plain_of_no_open (by decide))) hn)
    (plain_of_no_open (by decide))) hl

/-- What the theorems on the statements ask of a function. -/
structure Usual (o : Options) (f : Func) (args : List Str) : Prop where
  indent : Blank o.indent
  pyargs : pyargList o f = some args
  anns : ∀ a ∈ annotations o f args, Ann a
  moduleVar : Plain f.moduleVar
  name : Plain (shownName o f)
  location : LocationOk f

theorem directStr_text (o : Options) (f : Func) (args : List Str) (h : Usual o f args) (hf : Plain (functionPointer o f)) :
    directStr o f = some (Spec.statement
      (Spec.head (receiver f) (staticRet f.ret && isMethod f) (shownName o f) (location o f "//".toList))
      (functionPointer o f) true o.indent (annotations o f args) (isMethod f)) := by
  have hi := h.indent
  have hend := endPart_text o f args h.pyargs hi (fun a ha => (h.anns a ha).plain) (fun a ha => (h.anns a ha).tidy)
  have hr : Plain (receiver f) := by unfold receiver; split; exact plain_nil; exact h.moduleVar
  have hhead := head_plain (staticRet f.ret && isMethod f) hr h.name (location_plain o f hi h.location)
  have hE : Plain (Spec.laid o.indent (annotations o f args) ++ Spec.closing (isMethod f)) :=
    plain_append (laid_plain hi _ (fun a ha => (h.anns a ha).plain)) (by cases isMethod f <;> exact plain_of_no_open (by decide))
  rw [directStr, hend, Option.map_some, creationPart_text o f hi h.moduleVar h.name h.location]
  refine congrArg some ?_
  have e := endText_plain true hE
  have d := drop_tail (Spec.head (receiver f) (staticRet f.ret && isMethod f) (shownName o f) (location o f "//".toList) ++ ("\n".toList ++ (o.indent ++
    functionPointer o f))) o.indent hi true (isMethod f) (annotations o f args) h.anns
  unfold endText at e d
  simp only [if_true] at e d
  generalize (Spec.laid o.indent (annotations o f args) ++ Spec.closing (isMethod f)) = E at *
  generalize (if contains E ['\n'] = true then ['\n'] ++ E else lstrip E) = T at *
  generalize Spec.head (receiver f) (staticRet f.ret && isMethod f) (shownName o f) (location o f "//".toList) = H at *
  rw [processCodeTemplate_eq, directTemplate_eq, fill_textOf]
  · simp only [List.map_cons, List.map_nil, List.nil_append, List.cons_append, List.append_nil, maybeComma_eq]
    simp only [directPieces, List.map_cons, List.map_nil, step_some, subst_text,
      subst_hole, List.foldl_cons, List.foldl_nil, String.toList_inj, String.reduceEq, if_true, if_false]
    simp only [textOf, unlines, join, source, Piece.source, List.map_cons, List.map_nil, List.flatMap_cons, List.flatMap_nil,
      List.append_nil]
    simp only [List.append_assoc] at d
    simp only [Spec.statement, List.append_assoc]
    exact d
  · simp only [List.map_cons, List.map_nil, List.nil_append, List.cons_append, List.append_nil]
    decide +kernel
  · simp only [List.map_cons, List.map_nil, List.nil_append, List.cons_append, List.append_nil]
    refine fillable_some (by decide) ?_ ?_
    · intro kv _
      exact inert_of_no_open (hi.not_mem (by decide))
    · apply fillable_plain
      · simp only [List.map_cons, List.map_nil]
        decide +kernel
      · simp only [List.forall_mem_cons]
        exact ⟨⟨_, rfl, hhead⟩, ⟨_, rfl, hf⟩, ⟨_, rfl, e⟩, ⟨_, rfl, plain_of_no_open (by decide)⟩, by simp⟩

end Verif.Fn
