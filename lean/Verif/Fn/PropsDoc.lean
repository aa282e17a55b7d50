import Verif.Fn.StubProps
import Verif.Escape.Lemmas
import Verif.Scope.Lemmas

/-! Properties of the texts of the annotations: the docstring (C62) and the `py::arg` (C64). -/

namespace Verif.Fn.Spec
open Verif.Py

/-- A text without its white space. -/
def ink (s : Str) : Str := s.filter (fun c => !isSpace c)

/-- A default value seen from outside of the class: `A::x` is `Foo::A::x` when `A` is an inner class or enum of `Foo`. -/
def outside (cls : Option Cls) (v : Str) : Str :=
  match cls with
  | none => v
  | some c => if ∃ a ∈ c.inner, (a ++ "::".toList) <+: v then c.name ++ "::".toList ++ v else v

/-- `py::arg("name") = value`; with nanobind, `.none()` for a type that accepts `None`. -/
def argText (lib name : Str) (acceptsNone : Bool) (value : Str) : Str :=
  lib ++ "::arg(\"".toList ++ name ++ "\")".toList ++ (if acceptsNone then ".none()".toList else []) ++
    (if value = [] then [] else " = ".toList ++ value)

end Verif.Fn.Spec

namespace Verif.Fn.Props
open Verif.Py Verif.Type Verif.Adapt Verif.Fn
open Verif.Fn.Spec (ink)

/-! ### C62: the docstring -/

theorem ink_append (a b : Str) : ink (a ++ b) = ink a ++ ink b := List.filter_append ..

theorem ink_nil_of_spaces {s : Str} (h : ∀ c ∈ s, isSpace c = true) : ink s = [] := by
  unfold ink
  rw [List.filter_eq_nil_iff]
  intro c hc
  rw [h c hc]
  decide

theorem ink_rstrip (s : Str) : ink (rstrip s) = ink s := by
  obtain ⟨w, h1, h2⟩ := rstrip_decomp s
  conv => rhs; rw [h1]
  rw [ink_append, ink_nil_of_spaces h2, List.append_nil]

theorem ink_lstrip (s : Str) : ink (lstrip s) = ink s := by
  obtain ⟨w, h1, h2⟩ := lstrip_decomp s
  conv => rhs; rw [h1]
  rw [ink_append, ink_nil_of_spaces h2, List.nil_append]

theorem ink_blank {s : Str} (h : isBlank s = true) : ink s = [] := by
  have e : strip s = [] := by
    unfold isBlank at h
    exact List.length_eq_zero_iff.1 (by simpa using h)
  have := ink_rstrip (lstrip s)
  rw [ink_lstrip] at this
  rw [← this]
  unfold strip at e
  rw [e]
  rfl

theorem ink_unlines (ls : List Str) : ink (unlines ls) = ls.flatMap ink := by
  induction ls with
  | nil => rfl
  | cons l ls ih =>
    cases ls with
    | nil => simp [unlines, join]
    | cons m ms =>
      have e : unlines (l :: m :: ms) = l ++ ['\n'] ++ unlines (m :: ms) := join_cons_cons _ _ _ _
      have hn : ink ['\n'] = [] := by decide
      rw [e, ink_append, ink_append, ih, hn, List.append_nil]
      rfl

theorem ink_dropWhile (ls : List Str) : (ls.dropWhile isBlank).flatMap ink = ls.flatMap ink := by
  induction ls with
  | nil => rfl
  | cons l ls ih =>
    rw [List.dropWhile_cons]
    split
    · rename_i h
      rw [ih, List.flatMap_cons, ink_blank h, List.nil_append]
    · rfl

theorem ink_dropWhile_end (ls : List Str) : ((ls.reverse.dropWhile isBlank).reverse).flatMap ink = ls.flatMap ink := by
  have key : ∀ rs : List Str, ((rs.dropWhile isBlank).reverse).flatMap ink = rs.reverse.flatMap ink := by
    intro rs
    induction rs with
    | nil => rfl
    | cons l rs ih =>
      rw [List.dropWhile_cons]
      split
      · rename_i h
        rw [ih, List.reverse_cons, List.flatMap_append, List.flatMap_cons, List.flatMap_nil, ink_blank h, List.append_nil, List.append_nil]
      · rfl
  rw [key, List.reverse_reverse]

theorem applyComment_eq (o : Options) (hid : ∀ s, o.commentReplacements s = s) (s : Str) :
    ∃ ls : List Str, applyCommentReplacements o s = unlines (ls.map rstrip) ∧ ls.flatMap ink = ink s ∧ (∀ l ∈ ls, l ∈ lines s) := by
  unfold applyCommentReplacements
  dsimp only
  refine ⟨if o.stripEmptyCommentLines = true then Lines.stripEmptyLinesInList (lines s) else lines s, ?_, ?_, ?_⟩
  · generalize (if o.stripEmptyCommentLines = true then Lines.stripEmptyLinesInList (lines s) else lines s) = ls
    split
    · rename_i h; rw [h]; rfl
    · exact hid _
  · split
    · unfold Lines.stripEmptyLinesInList
      dsimp only
      rw [ink_dropWhile_end, ink_dropWhile, ← ink_unlines, unlines_lines]
    · rw [← ink_unlines, unlines_lines]
  · intro l hl
    split at hl
    · unfold Lines.stripEmptyLinesInList at hl
      dsimp only at hl
      rw [List.mem_reverse] at hl
      have := (List.dropWhile_sublist _).subset hl
      rw [List.mem_reverse] at this
      exact (List.dropWhile_sublist _).subset this
    · exact hl

theorem ink_applyComment (o : Options) (hid : ∀ s, o.commentReplacements s = s) (s : Str) : ink (applyCommentReplacements o s) = ink s := by
  obtain ⟨ls, h1, h2, _⟩ := applyComment_eq o hid s
  rw [h1, ink_unlines, ← h2, List.flatMap_map]
  congr 1
  funext l
  exact ink_rstrip l

theorem rstrip_mem {s : Str} {c : Char} (h : c ∈ rstrip s) : c ∈ s := by
  obtain ⟨w, h1, _⟩ := rstrip_decomp s
  rw [h1]
  exact List.mem_append_left _ h

theorem mem_unlines {c : Char} {ls : List Str} (h : c ∈ unlines ls) : c = '\n' ∨ ∃ l ∈ ls, c ∈ l := by
  induction ls with
  | nil => cases h
  | cons l ls ih =>
    cases ls with
    | nil => exact .inr ⟨l, by simp, by simpa [unlines, join] using h⟩
    | cons m ms =>
      have e : unlines (l :: m :: ms) = l ++ ['\n'] ++ unlines (m :: ms) := join_cons_cons _ _ _ _
      rw [e, List.mem_append, List.mem_append] at h
      rcases h with (h | h) | h
      · exact .inr ⟨l, by simp, h⟩
      · exact .inl (by simpa using h)
      · rcases ih h with h | ⟨l', hl', h⟩
        · exact .inl h
        · exact .inr ⟨l', by simp [hl'], h⟩

theorem mem_lines {c : Char} {s l : Str} (hl : l ∈ lines s) (hc : c ∈ l) : c ∈ s := by
  rw [← unlines_lines s]
  generalize lines s = ls at hl
  induction ls with
  | nil => cases hl
  | cons m ms ih =>
    cases ms with
    | nil =>
      rcases List.mem_cons.1 hl with rfl | h
      · simpa [unlines, join] using hc
      · cases h
    | cons n ns =>
      have e : unlines (m :: n :: ns) = m ++ ['\n'] ++ unlines (n :: ns) := join_cons_cons _ _ _ _
      rw [e, List.mem_append, List.mem_append]
      rcases List.mem_cons.1 hl with rfl | h
      · exact .inl (.inl hc)
      · exact .inr (ih h)

theorem applyComment_mem (o : Options) (hid : ∀ s, o.commentReplacements s = s) {s : Str} {c : Char}
    (h : c ∈ applyCommentReplacements o s) : c = '\n' ∨ c ∈ s := by
  obtain ⟨ls, h1, _, h3⟩ := applyComment_eq o hid s
  rw [h1] at h
  rcases mem_unlines h with h | ⟨l, hl, hc⟩
  · exact .inl h
  · obtain ⟨l', hl', rfl⟩ := List.mem_map.1 hl
    exact .inr (mem_lines (h3 l' hl') (rstrip_mem hc))

theorem applyComment_line (o : Options) (hid : ∀ s, o.commentReplacements s = s) {s : Str} (h : '\n' ∉ s) :
    applyCommentReplacements o s = rstrip s := by
  have hl : lines s = [s] := splitOn_of_not_mem h
  have hb : isBlank s = true → rstrip s = [] := by
    intro hb
    have hi := ink_blank hb
    unfold ink at hi
    rw [List.filter_eq_nil_iff] at hi
    refine (rstrip_eq_nil_iff s).2 (fun c hc => ?_)
    have := hi c hc
    simpa using this
  unfold applyCommentReplacements
  rw [hl]
  dsimp only
  by_cases hs : o.stripEmptyCommentLines = true
  · rw [if_pos hs]
    by_cases hbl : isBlank s = true
    · have : Lines.stripEmptyLinesInList [s] = [] := by
        unfold Lines.stripEmptyLinesInList
        simp [hbl]
      rw [this, if_pos rfl, hb hbl]
    · have : Lines.stripEmptyLinesInList [s] = [s] := by
        unfold Lines.stripEmptyLinesInList
        simp [hbl]
      rw [this, if_neg (by simp), hid]
      rfl
  · rw [if_neg hs, if_neg (by simp), hid]
    rfl

theorem part_ink (a b c : List Escape.Spec.Elem) (v : Str) (h : (a ++ b ++ c).map Escape.Spec.Elem.value = v.map some)
    (hs : ∀ e ∈ a ++ c, ∃ c, e = .ordinary c ∧ isSpace c = true) :
    ∃ w, b.map Escape.Spec.Elem.value = w.map some ∧ ink w = ink v := by
  rw [List.map_append, List.map_append] at h
  obtain ⟨v1, v3, hv, h1, h3⟩ := List.map_eq_append_iff.1 h.symm
  obtain ⟨va, vb, hv', ha, hb⟩ := List.map_eq_append_iff.1 h1
  have key : ∀ (es : List Escape.Spec.Elem) (u : Str), (∀ e ∈ es, ∃ c, e = .ordinary c ∧ isSpace c = true) →
      u.map some = es.map Escape.Spec.Elem.value → ∀ x ∈ u, isSpace x = true := by
    intro es u he hu x hx
    have : some x ∈ es.map Escape.Spec.Elem.value := by rw [← hu]; exact List.mem_map.2 ⟨x, hx, rfl⟩
    obtain ⟨e, he1, he2⟩ := List.mem_map.1 this
    obtain ⟨c, rfl, hc⟩ := he e he1
    simp [Escape.Spec.Elem.value] at he2
    rw [← he2]; exact hc
  refine ⟨vb, hb.symm, ?_⟩
  rw [hv, hv', ink_append, ink_append, ink_nil_of_spaces (key a va (fun e he => hs e (by simp [he])) ha),
    ink_nil_of_spaces (key c v3 (fun e he => hs e (by simp [he])) h3), List.nil_append, List.append_nil]

theorem text_noNewline {es : List Escape.Spec.Elem} (h : ∀ e ∈ es, e.WF) : '\n' ∉ Escape.Spec.text es := by
  intro hm
  unfold Escape.Spec.text at hm
  obtain ⟨e, he, hc⟩ := List.mem_flatMap.1 hm
  have := h e he
  cases e with
  | ordinary c =>
    simp only [Escape.Spec.Elem.text, List.mem_singleton] at hc
    exact this.2.2 hc.symm
  | escape c =>
    simp only [Escape.Spec.Elem.text, List.mem_cons, List.not_mem_nil, or_false] at hc
    rcases hc with hc | hc
    · revert hc; decide
    · exact this hc.symm

/-- The docstring of a function, for a comment without a backslash and options that do not change comments: what stands between the quotes is
the content of one C++ string, and its value is the comment, up to white space. -/
theorem C62_docstring_partial (o : Options) (f : Func) (hid : ∀ s, o.commentReplacements s = s) (hb : '\\' ∉ fullComment f) :
    ∃ v, Escape.Spec.Denotes (docOneLine o f) v ∧ ink v = ink (f.previous ++ f.eol) := by
  have hfull : ink (fullComment f) = ink (f.previous ++ f.eol) := by
    unfold fullComment
    split
    · have hn : ink "\n\n".toList = [] := by decide
      rw [ink_append, ink_append, ink_append, hn, List.append_nil]
    · rfl
  have hink := ink_applyComment o hid (fullComment f)
  have hb1 : '\\' ∉ applyCommentReplacements o (fullComment f) := by
    intro hm
    rcases applyComment_mem o hid hm with h | h
    · revert h; decide
    · exact hb h
  rw [hfull] at hink
  unfold docOneLine
  generalize applyCommentReplacements o (fullComment f) = c1 at hink hb1
  have hs : c1 ≠ ['\\'] := by rintro rfl; simp at hb1
  have hw := Escape.elems_wf c1
  have hv := Escape.elems_value c1 hb1
  have h1 : ∃ es v, (∀ e ∈ es, e.WF ∧ ∀ c, e = Escape.Spec.Elem.escape c → c ∈ Escape.emitted) ∧
      Escape.formatCppCommentOnOneLine (some c1) = Escape.Spec.text es ∧ es.map Escape.Spec.Elem.value = v.map some ∧ ink v = ink c1 := by
    rw [Escape.format_eq c1 hs]
    split
    · exact ⟨Escape.elems c1, c1, hw, rfl, hv, rfl⟩
    · obtain ⟨a, b, c, e1, e2, e3⟩ := Escape.strip_text (Escape.elems c1) (fun e he => (hw e he).2)
      rw [e1] at hv
      obtain ⟨w, hw1, hw2⟩ := part_ink a b c c1 hv e2
      exact ⟨b, w, fun e he => hw e (by rw [e1]; simp [he]), e3, hw1, hw2⟩
  obtain ⟨es, v, h2, h3, h4, h5⟩ := h1
  rw [h3, applyComment_line o hid (text_noNewline (fun e he => (h2 e he).1))]
  obtain ⟨a, b, e1, e2, e3⟩ := Escape.rstrip_text es (fun e he => (h2 e he).2)
  have h4' : ([] ++ a ++ b).map Escape.Spec.Elem.value = v.map some := by rw [List.nil_append, ← e1]; exact h4
  obtain ⟨w, hw1, hw2⟩ := part_ink [] a b v h4' (by simpa using e2)
  exact ⟨w, ⟨a, fun e he => (h2 e (by rw [e1]; simp [he])).1, e3, hw1⟩, by rw [hw2, h5, hink]⟩

/-- a comment with a quote and two lines -/
example : docOneLine demoO { demoF with previous := "Says \"hi\"\n twice ".toList } = "Says \\\"hi\\\"\\n twice".toList ∧
    '\\' ∉ fullComment { demoF with previous := "Says \"hi\"\n twice ".toList } := by decide +kernel

/-! ### C64: the text of `py::arg` -/

theorem scoped_spec (cls : Option Cls) (p : Param) (hc : ∀ c ∈ cls, ∀ a ∈ c.inner, ':' ∉ a) :
    (scopedParam cls p).default = Verif.Fn.Spec.outside cls p.default := by
  unfold scopedParam Verif.Fn.Spec.outside
  cases cls with
  | none => rfl
  | some c =>
    dsimp only
    have hj : join colons (split p.default colons) = p.default := by
      unfold split
      rw [Scope.join_splitAux colons (by decide) _ 0 [] (Nat.zero_le _)]
      rfl
    have hiff : (∃ a ∈ c.inner, (a ++ "::".toList) <+: p.default) ↔
        ∃ a b r, split p.default colons = a :: b :: r ∧ a ∈ c.inner := by
      constructor
      · rintro ⟨a, ha, t, ht⟩
        have hs : split p.default colons = a :: split t colons := by
          rw [← ht]
          exact Scope.split_colons_cons a t (hc c rfl a ha)
        cases e : split t colons with
        | nil => exact absurd e (Repl.splitAux_ne_nil _ _ _ _)
        | cons b r => exact ⟨a, b, r, by rw [hs, e], ha⟩
      · rintro ⟨a, b, r, hs, ha⟩
        refine ⟨a, ha, join colons (b :: r), ?_⟩
        rw [← hj, hs]
        exact (join_cons_cons _ _ _ _).symm
    by_cases h : ∃ a ∈ c.inner, (a ++ "::".toList) <+: p.default
    · rw [if_pos h]
      obtain ⟨a, b, r, hs, ha⟩ := hiff.1 h
      have : scopedValue c p.default = some (c.name ++ "::".toList ++ p.default) := by
        unfold scopedValue
        rw [hs]
        dsimp only
        rw [if_pos ha]
        refine congrArg some ?_
        rw [join_cons_cons]
        have e2 : join colons (a :: b :: r) = p.default := by rw [← hs]; exact hj
        rw [e2]
        rfl
      rw [this]
    · rw [if_neg h]
      have : scopedValue c p.default = none := by
        unfold scopedValue
        split
        · rename_i a b r hs
          exact if_neg (fun ha => h (hiff.2 ⟨a, b, r, hs, ha⟩))
        · rfl
      rw [this]

theorem allSome_texts {α : Type} (l : List α) (g : α → Option Str) (t : α → Str) (h : ∀ a ∈ l, g a = some (t a)) :
    allSome (l.map g) = some (l.map t) := by
  induction l with
  | nil => rfl
  | cons a l ih =>
    rw [List.map_cons, h a (by simp), List.map_cons]
    show (allSome (l.map g)).map _ = _
    rw [ih (fun x hx => h x (by simp [hx]))]
    rfl

/-- The `py::arg` of a function: the name in Python and the C++ default value of each named parameter. As in `C64_default_partial`, values in braces
are excluded for pointers and types of several words. -/
theorem C64_values_partial (o : Options) (f : Func) (hctor : o.nanobind = false ∨ Verif.Fn.Spec.isCtor f = false)
    (hin : ∀ c ∈ f.cls, ∀ a ∈ c.inner, ':' ∉ a) (hn : ∀ p ∈ f.aParams, '{' ∉ o.varName p.name)
    (hd : ∀ p ∈ f.aParams, (strip (Verif.Fn.Spec.outside f.cls p.default)).head? = some '{' → star ∉ p.type.modifiers ∧ ∃ t, p.type.typenames = [t]) :
    pyargList o f = some ((f.aParams.filter (fun p => !isArgs p.type && !isKwargs p.type)).map (fun p =>
      Verif.Fn.Spec.argText (Verif.Fn.Spec.libOf o.nanobind) (o.varName p.name)
        (o.nanobind && ("std::optional<".toList).isPrefixOf (nameOnly p.type))
        (Verif.Fn.Spec.cppDefault (Verif.Fn.Spec.libOf o.nanobind) (join " ".toList p.type.typenames) (decide (star ∈ p.type.modifiers))
          (Verif.Fn.Spec.outside f.cls p.default)))) := by
  have hw : withoutCtorSelf o f f.aParams = f.aParams := by
    unfold withoutCtorSelf
    rw [isConstructor_spec]
    cases f.aParams with
    | nil => rfl
    | cons p r =>
      rcases hctor with h | h
      · simp [h]
      · simp [h]
  unfold pyargList
  rw [hw]
  have e : (f.aParams.map (scopedParam f.cls)).filter (fun p => !isArgs p.type && !isKwargs p.type) =
      (f.aParams.filter (fun p => !isArgs p.type && !isKwargs p.type)).map (scopedParam f.cls) := by
    rw [List.filter_map]
    congr 1
    apply List.filter_congr
    intro p _
    simp only [Function.comp, scopedParam_type]
  rw [e, List.map_map]
  refine allSome_texts _ _ _ (fun p hp => ?_)
  have hp' := (List.mem_filter.1 hp).1
  have hdef := scoped_spec f.cls p hin
  have h1 := C64_default_partial o (scopedParam f.cls p) (by rw [hdef, scopedParam_type]; exact hd p hp')
  rw [hdef, scopedParam_type] at h1
  have h2 := pyarg_text o (scopedParam f.cls p) _ h1 (by rw [scopedParam_name]; exact hn p hp')
  rw [scopedParam_name, scopedParam_type] at h2
  exact h2

/-- a method of a class with an inner enum, with default values in this enum, in braces and null -/
example :
    let c : Cls := { demoCls with inner := ["Kind".toList] }
    let ps := [{ demoParam "k" "Kind::A" with type := { specifiers := [], typenames := ["Kind".toList], modifiers := [] } },
      { demoParam "v" "{1}" with type := { specifiers := [], typenames := ["Vec".toList], modifiers := [] } },
      { demoParam "q" "nullptr" with type := { specifiers := [], typenames := ["Foo".toList], modifiers := [star] } }]
    pyargList demoO { demoM with cls := some c, aParams := ps } =
      some ["py::arg(\"k\") = Foo::Kind::A".toList, "py::arg(\"v\") = Vec{1}".toList, "py::arg(\"q\") = py::none()".toList] ∧
    ∀ p ∈ ps, '{' ∉ demoO.varName p.name := by decide +kernel

end Verif.Fn.Props
