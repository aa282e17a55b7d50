import Verif.Fn.Lemmas

/-! The exact texts of the pydef of functions. -/

namespace Verif.Fn.Spec
open Verif.Py Verif.Template

/-- The names of the placeholders of the templates of functions. -/
def placeholders : List Str :=
  ["maybe_py_arg", "maybe_docstring", "maybe_return_value_policy", "maybe_keep_alive", "maybe_call_guard", "maybe_comma",
   "module_or_class", "def_maybe_static", "function_name_python", "location", "pydef_method_creation_part", "function_pointer",
   "pydef_end_arg_docstring_returnpolicy", "params_call_with_self_if_method", "lambda_return_arrow", "lambda_adapter_code",
   "maybe_empty_line", "return_code", "maybe_close_paren_if_ctor", "return_or_nothing", "self_prefix", "function_to_call",
   "params_call_inner", "arg_types", "maybe_pyarg"].map String.toList

/-- No placeholder of a template can begin in this text. -/
def Plain (v : Str) : Prop := ∀ k ∈ placeholders, Template.Spec.Inert k v

/-- The text does not end with a comma that would be taken for one of the template. -/
def Tidy (v : Str) : Prop := ¬ ", ".toList <:+ v ∧ ¬ ", )".toList <:+ v ∧ ¬ ", );".toList <:+ v

instance (v : Str) : Decidable (Plain v) := inferInstanceAs (Decidable (∀ k ∈ placeholders, Template.Spec.Inert k v))
instance (v : Str) : Decidable (Tidy v) :=
  inferInstanceAs (Decidable (¬ ", ".toList <:+ v ∧ ¬ ", )".toList <:+ v ∧ ¬ ", );".toList <:+ v))

end Verif.Fn.Spec

namespace Verif.Fn
open Verif.Py Verif.Type Verif.Adapt Verif.Template Verif.Template.Spec
open Spec (Plain Tidy placeholders)

theorem contains_char (s : Str) (c : Char) : contains s [c] = decide (c ∈ s) := by
  rw [Bool.eq_iff_iff, contains_iff, decide_eq_true_iff]
  constructor
  · rintro ⟨a, b, rfl⟩; simp
  · intro h
    obtain ⟨a, b, rfl⟩ := List.append_of_mem h
    exact ⟨a, b, by simp⟩

theorem plain_of_no_open {v : Str} (h : '{' ∉ v) : Plain v := fun _ _ => inert_of_no_open h

theorem plain_append {a b : Str} (ha : Plain a) (hb : Plain b) : Plain (a ++ b) :=
  fun k hk => inert_append (ha k hk) (hb k hk)

theorem plain_nil : Plain [] := plain_of_no_open (by simp)

theorem plain_join {sep : Str} (hs : Plain sep) (xs : List Str) (h : ∀ x ∈ xs, Plain x) : Plain (join sep xs) := by
  induction xs with
  | nil => exact plain_nil
  | cons x xs ih =>
    by_cases hx : xs = []
    · subst hx; simpa using h x (by simp)
    · rw [join_cons_of_ne_nil _ _ hx]
      exact plain_append (plain_append (h x (by simp)) hs) (ih (fun y hy => h y (by simp [hy])))

theorem plain_lstrip {v : Str} (h : Plain v) : Plain (lstrip v) := by
  intro k hk a b e
  have : ∃ w, v = w ++ lstrip v := ⟨v.takeWhile isSpace, by simp [lstrip]⟩
  obtain ⟨w, hw⟩ := this
  exact h k hk (w ++ a) b (by rw [hw, e]; simp)

theorem inert_of_plain {v k : Str} (h : Plain v) (hk : k ∈ placeholders) : Inert k v := h k hk

/-! ### Final commas -/

theorem suffix_append {x a p : Str} (h : p <:+ x ++ a) : p <:+ a ∨ ∃ p1 p2, p1 ≠ [] ∧ p = p1 ++ p2 ∧ p1 <:+ x ∧ a = p2 := by
  obtain ⟨t, ht⟩ := h
  rcases List.append_eq_append_iff.1 ht with ⟨s, h1, h2⟩ | ⟨s, h1, h2⟩
  · by_cases e : s = []
    · subst e; exact .inl (by simp [h2])
    · exact .inr ⟨s, a, e, h2, ⟨t, h1.symm⟩, rfl⟩
  · exact .inl ⟨s, h2.symm⟩

theorem tidy_append {x a : Str} (hx : ',' ∉ x) (ha : Tidy a) : Tidy (x ++ a) := by
  have key : ∀ q : Str, ¬ (',' :: q) <:+ a → ¬ (',' :: q) <:+ x ++ a := by
    intro q hq h
    rcases suffix_append h with h | ⟨p1, p2, h1, h2, h3, h4⟩
    · exact hq h
    · cases p1 with
      | nil => exact h1 rfl
      | cons c cs =>
        simp at h2
        exact hx (h2.1 ▸ h3.subset (by simp))
  exact ⟨key _ ha.1, key _ ha.2.1, key _ ha.2.2⟩

theorem tidy_after {x y : Str} {c : Char} (hc : c ∉ ", );".toList) (hy : Tidy y) : Tidy (x ++ c :: y) := by
  have key : ∀ q : Str, c ∉ q → ¬ q <:+ y → ¬ q <:+ x ++ c :: y := by
    intro q hq hn h
    rcases suffix_append h with h | ⟨p1, p2, h1, h2, h3, h4⟩
    · rcases List.suffix_cons_iff.1 h with h | h
      · exact hq (by rw [h]; simp)
      · exact hn h
    · exact hq (by rw [h2, ← h4]; simp)
  simp at hc
  exact ⟨key _ (by simp [hc]) hy.1, key _ (by simp [hc]) hy.2.1, key _ (by simp [hc]) hy.2.2⟩

theorem tidy_last {x : Str} {c : Char} (hc : c ∉ " );".toList) : Tidy (x ++ [c]) := by
  simp at hc
  have key : ∀ (q : Str) (d : Char), c ≠ d → ¬ (q ++ [d]) <:+ x ++ [c] := by
    rintro q d hd ⟨t, ht⟩
    rw [← List.append_assoc] at ht
    have := (List.append_inj' ht rfl).2
    simp at this
    exact hd this.symm
  exact ⟨key ",".toList ' ' hc.1, key ", ".toList ')' hc.2.1, key ", )".toList ';' hc.2.2⟩

theorem dropFinalComma_tidy {x : Str} (h : Tidy x) : dropFinalComma x = x := by
  obtain ⟨h1, h2, h3⟩ := h
  have e : ∀ p : Str, ¬ p <:+ x → endsWith x p = false := by
    intro p hp
    rw [Bool.eq_false_iff]
    intro h
    exact hp (List.isSuffixOf_iff_suffix.1 h)
  simp only [dropFinalComma, e [',', ' '] h1, e [',', ' ', ')'] h2, e [',', ' ', ')', ';'] h3, Bool.false_eq_true, if_false]

theorem dropFinalComma_comma {x : Str} (h : Tidy x) : dropFinalComma (x ++ [',', ' ']) = x := by
  obtain ⟨h1, h2, h3⟩ := h
  have e : ∀ p : Str, ¬ p <:+ x → endsWith x p = false := by
    intro p hp
    rw [Bool.eq_false_iff]
    intro h
    exact hp (List.isSuffixOf_iff_suffix.1 h)
  have e1 : endsWith (x ++ [',', ' ']) [',', ' '] = true := by simp [endsWith]
  have e2 : (x ++ [',', ' ']).take ((x ++ [',', ' ']).length - 2) = x := by simp
  simp only [dropFinalComma, e1, if_true, e2, e [',', ' ', ')'] h2, e [',', ' ', ')', ';'] h3, Bool.false_eq_true, if_false]

/-! ### The end of a statement -/

/-- The annotations of a function. -/
def annotations (o : Options) (f : Func) (args : List Str) : List Str :=
  (if args = [] then [] else [join commaSpace args]) ++ (quoted (docOneLine o f)).toList ++ (policyText o f).toList ++
    (keepAlive o f).toList ++ (callGuard o f).toList

def endKeys : List Str :=
  ["maybe_py_arg", "maybe_docstring", "maybe_return_value_policy", "maybe_keep_alive", "maybe_call_guard"].map String.toList

theorem endTemplate_eq : Indent.unindentCode endTemplateRaw true =
    textOf (endKeys.map (fun k => [Piece.hole "_i_".toList, .hole k, .hole maybeComma])) := by decide +kernel

/-- What is known of the options. -/
structure Blank (ind : Str) : Prop where
  blank : ∀ c ∈ ind, c = ' '

theorem Blank.not_mem {ind : Str} (h : Blank ind) {c : Char} (hc : c ≠ ' ') : c ∉ ind := fun hm => hc (h.blank c hm)

theorem laid_tidy {ind : Str} (h : Blank ind) (anns : List Str) (ht : ∀ a ∈ anns, Tidy a) : Tidy (Spec.laid ind anns) := by
  induction anns with
  | nil => exact (by decide : Tidy [])
  | cons a as ih =>
    by_cases e : as = []
    · subst e
      simpa [Spec.laid] using tidy_append (h.not_mem (by decide)) (ht a (by simp))
    · unfold Spec.laid at *
      rw [List.map_cons, join_cons_of_ne_nil _ _ (by simpa using e)]
      have := tidy_after (x := ind ++ a ++ ", ".toList) (c := '\n') (by decide) (ih (fun x hx => ht x (by simp [hx])))
      simpa using this

theorem step_indent (ind : Str) (ks : List Str) (h : ∀ k ∈ ks, k ≠ "_i_".toList) :
    step (ks.map (fun k => [Piece.hole "_i_".toList, .hole k, .hole maybeComma])) ("_i_".toList, some ind) = ks.map (optLine ind) := by
  rw [step_some, List.map_map]
  apply List.map_congr_left
  intro k hk
  have h1 : ¬ maybeComma = "_i_".toList := by decide
  have h2 := h k hk
  simp only [Function.comp, List.map_cons, List.map_nil, subst_hole, if_true, h1, h2, if_false, optLine]

theorem step_comma (ind : Str) (vs : List Str) :
    step (vs.map (optDone ind)) (maybeComma, some [',', ' ']) = vs.map (fun v => [Piece.text ind, Piece.text v, Piece.text [',', ' ']]) := by
  rw [step_some, List.map_map]
  apply List.map_congr_left
  intro k _
  simp only [Function.comp, List.map_cons, List.map_nil, subst_hole, subst_text, if_true, optDone]

theorem fillable_append (a b : List (Str × Option Str)) (ls : List (List Template.Spec.Piece)) (ha : Fillable a ls)
    (hb : Fillable b (a.foldl step ls)) (hab : ∀ kv ∈ a, ∀ x, kv.2 = some x → ∀ k ∈ b, Inert k.1 x) : Fillable (a ++ b) ls := by
  induction a generalizing ls with
  | nil => exact hb
  | cons kv a ih =>
    obtain ⟨k, v⟩ := kv
    obtain ⟨h1, h2, h3, h4⟩ := ha
    refine ⟨h1, ?_, h3, ih _ h4 hb (fun kv hkv => hab kv (by simp [hkv]))⟩
    intro x hx kv hkv
    rcases List.mem_append.1 hkv with h | h
    · exact h2 x hx kv h
    · exact hab (k, v) (by simp) x hx kv h

/-- Filling the five optional lines. -/
theorem fill_end (ind : Str) (hi : Blank ind) (vals : List (Option Str)) (hlen : vals.length = 5)
    (hp : ∀ v ∈ vals, ∀ x, v = some x → Plain x) (ht : ∀ v ∈ vals, ∀ x, v = some x → Tidy x) :
    processCodeTemplate (Indent.unindentCode endTemplateRaw true) [("_i_".toList, ind)] (endKeys.zip vals) =
      Spec.laid ind (vals.filterMap id) := by
  have hfst : (endKeys.zip vals).map (·.1) = endKeys := List.map_fst_zip (by rw [hlen]; decide)
  have hsnd : (endKeys.zip vals).filterMap (·.2) = vals.filterMap id := by
    have : (endKeys.zip vals).map (·.2) = vals := List.map_snd_zip (by rw [hlen]; decide)
    conv => rhs; rw [← this]
    rw [List.filterMap_map]; rfl
  have hkeys : ∀ kv ∈ endKeys.zip vals, kv.1 ∈ endKeys := fun kv h => (List.of_mem_zip h).1
  have hvals : ∀ kv ∈ endKeys.zip vals, kv.2 ∈ vals := fun kv h => (List.of_mem_zip h).2
  have hK : ∀ k ∈ endKeys, k ≠ maybeComma ∧ '}' ∉ k ∧ '\n' ∉ k ∧ k ≠ "_i_".toList ∧ k ∈ placeholders := by decide +kernel
  have hnd : endKeys.Nodup := by decide +kernel
  have hmc : maybeComma ∈ placeholders := by decide +kernel
  have f1 : (endKeys.zip vals).foldl step (endKeys.map (optLine ind)) = (vals.filterMap id).map (optDone ind) := by
    have := foldl_opt ind (endKeys.zip vals) [] (by rw [hfst]; exact hnd) (fun kv h => (hK _ (hkeys kv h)).1)
    rw [hfst, hsnd] at this
    simpa using this
  have inert_ind : ∀ k, Inert k ind := fun k => inert_of_no_open (hi.not_mem (by decide))
  rw [processCodeTemplate_eq, endTemplate_eq]
  simp only [List.map_cons, List.map_nil, List.cons_append, List.nil_append]
  rw [fill_textOf]
  · rw [List.foldl_cons, step_indent ind endKeys (fun k hk => (hK k hk).2.2.2.1), List.foldl_append, f1, List.foldl_cons, List.foldl_nil,
      step_comma]
    by_cases hn : vals.filterMap id = []
    · rw [hn]; rfl
    · rw [join_optDone _ _ hn, dropFinalComma_comma]
      apply laid_tidy hi
      intro a ha
      obtain ⟨v, hv, e⟩ := List.mem_filterMap.1 ha
      exact ht v hv a e
  · rw [List.map_cons, List.map_append, hfst]
    intro l hl
    obtain ⟨k, hk, rfl⟩ := List.mem_map.1 hl
    have hb : ∀ k ∈ endKeys, '{' ∉ k := by decide +kernel
    exact ⟨by decide, ⟨hb k hk, (hK k hk).2.1⟩, by decide, trivial⟩
  · refine ⟨by decide, ?_, (fun h => nomatch h), ?_⟩
    · intro x hx kv _
      rw [← Option.some.inj hx]
      exact inert_ind _
    · rw [step_indent ind endKeys (fun k hk => (hK k hk).2.2.2.1)]
      apply fillable_append
      · have := fillable_opt ind (hi.not_mem (by decide)) (endKeys.zip vals) [] (by rw [hfst]; exact hnd)
          (fun kv h => ⟨(hK _ (hkeys kv h)).1, (hK _ (hkeys kv h)).2.1, (hK _ (hkeys kv h)).2.2.1⟩)
          (fun kv h x hx k hk => hp _ (hvals kv h) x hx _ (hK _ (hkeys k hk)).2.2.2.2)
        rw [hfst] at this
        simpa using this
      · exact ⟨by decide, (fun x hx kv hkv => absurd hkv (by simp)), (fun h => nomatch h), trivial⟩
      · intro kv hkv x hx k hk
        simp at hk
        subst hk
        exact hp _ (hvals kv hkv) x hx _ hmc

theorem endPart_text (o : Options) (f : Func) (args : List Str) (hargs : pyargList o f = some args) (hi : Blank o.indent)
    (hp : ∀ a ∈ annotations o f args, Plain a) (ht : ∀ a ∈ annotations o f args, Tidy a) :
    endPart o f = some (Spec.laid o.indent (annotations o f args) ++ Spec.closing (isMethod f)) := by
  have hann : annotations o f args = ([if args = [] then none else some (join commaSpace args), quoted (docOneLine o f), policyText o f,
      keepAlive o f, callGuard o f] : List (Option Str)).filterMap id := by
    unfold annotations
    by_cases h : args = [] <;> cases quoted (docOneLine o f) <;> cases policyText o f <;> cases keepAlive o f <;> cases callGuard o f <;>
      simp [h]
  have := fill_end o.indent hi [if args = [] then none else some (join commaSpace args), quoted (docOneLine o f), policyText o f,
      keepAlive o f, callGuard o f] rfl
    (fun v hv x hx => hp x (by rw [hann]; exact List.mem_filterMap.2 ⟨v, hv, hx⟩))
    (fun v hv x hx => ht x (by rw [hann]; exact List.mem_filterMap.2 ⟨v, hv, hx⟩))
  rw [endPart, hargs, Option.map_some, hann, ← this]
  cases isMethod f <;> simp [Spec.closing, endKeys]

theorem fillable_plain (items : List (Str × Option Str)) (ls : List (List Template.Spec.Piece))
    (hk : ∀ k ∈ items.map (·.1), '}' ∉ k ∧ k ∈ placeholders) (hv : ∀ kv ∈ items, ∃ v, kv.2 = some v ∧ Plain v) : Fillable items ls := by
  induction items generalizing ls with
  | nil => trivial
  | cons kv items ih =>
    obtain ⟨k, v⟩ := kv
    refine ⟨(hk k (by simp)).1, ?_, ?_, ih _ (fun x hx => hk x (by rw [List.map_cons]; exact List.mem_cons_of_mem _ hx))
      (fun x hx => hv x (List.mem_cons_of_mem _ hx))⟩
    · intro x hx kv hkv
      obtain ⟨w, hw, hp⟩ := hv _ (List.mem_cons_self)
      have : w = x := Option.some.inj (hw.symm.trans hx)
      subst this
      exact hp _ (hk _ (List.mem_map.2 ⟨kv, List.mem_cons_of_mem _ hkv, rfl⟩)).2
    · intro h
      obtain ⟨w, hw, _⟩ := hv _ (List.mem_cons_self)
      rw [h] at hw
      cases hw

theorem maybeComma_eq : maybeComma = "maybe_comma".toList := rfl

end Verif.Fn
