import Verif.Print.Lemmas
import Verif.Type.Props
import Verif.Py.Split

/-! C92: the layout of printed C++ code. C93: what is printed of an element. C94: comments. -/

namespace Verif.Print.Props
open Verif.Py Verif.Print Verif.Print.Spec

/-! ### C92 -/

/-- The full statement: a block is printed line by line; each line is at the depth of its element. -/
def C92_layout_statement : Prop := ∀ (prefixes : List Str) (ind : Str) (l : List Elem), (∀ c ∈ ind, c = ' ') →
  (lines (block prefixes ind false l)).map rstrip = (rowsAll prefixes 0 false l).map (Row.line ind) ++ [[]]

/-- It holds when classes and enums have no comment at the end of their line, access zones have no comment, and enums have only enumerators. -/
theorem C92_layout_partial (prefixes : List Str) (ind : Str) (l : List Elem) (hi : ∀ c ∈ ind, c = ' ') (hc : clearAll l = true) :
    (lines (block prefixes ind false l)).map rstrip = (rowsAll prefixes 0 false l).map (Row.line ind) ++ [[]] := by
  have h1 : ∀ c ∈ ind, isSpace c = true := fun c h => by rw [hi c h]; rfl
  have h2 : '\n' ∉ ind := fun h => absurd (hi _ h) (by decide)
  obtain ⟨ls, h3, h4⟩ := rows_all prefixes h1 h2 l false hc (fun h => (by cases h))
  rw [← h4 0]
  by_cases hl : ls = []
  · rw [h3.1, hl]
    rfl
  · rw [h3.1, flat_eq hl, lines_nl, lines_unlines hl h3.2, List.map_append]
    rfl

def noComment : Comments := ⟨[], [], false⟩

/-- `namespace N { /// ... enum class E { A = 1, B, }; struct S : public P { private: int x[2]; // x }; }` -/
def demo : List Elem :=
  [.namespace_ noComment "N".toList
    [.enum ⟨" The values\n(of E)".toList, [], false⟩ true "E".toList []
      [.decl ⟨[], " first".toList, false⟩ ⟨none, "A".toList, [], "1".toList, []⟩, .emptyLine, .decl noComment ⟨none, "B".toList, [], [], []⟩],
     .emptyLine,
     .struct noComment ⟨false, none, "S".toList, some [("public".toList, "P".toList)], [], []⟩
      [.access noComment "private".toList false
        [.decls noComment [(⟨[], " x".toList, false⟩, ⟨some "int".toList, "x".toList, "[2]".toList, [], []⟩)]]]]]

example : clearAll demo = true := by decide +kernel

example : block [] "  ".toList false demo =
    ("namespace N\n{\n  // The values\n  //(of E)\n  enum class E\n  {\n    A = 1, // first\n\n    B\n  };\n\n  struct S : public P\n  {\n  private:\n" ++
    "    int x[2]; // x\n  };\n}\n").toList := by decide +kernel

/-- It fails: the comment at the end of the line of a class is on the next line, where it is the comment of the next element; a comment or a `#ifdef` in
an enum is followed by a comma; the comment of an access zone is printed as code. -/
theorem C92_layout_fails : ¬ C92_layout_statement ∧
    block [] "  ".toList false [.struct ⟨[], " about S".toList, false⟩ ⟨false, none, "S".toList, none, [], []⟩ [],
        .fn noComment ⟨.decl, none, some ⟨[], ["void".toList], []⟩, "f".toList, [], [], none, false⟩] =
      "struct S\n{\n};\n // about S\nvoid f();\n".toList ∧
    block [] "  ".toList false [.enum noComment false "E".toList [] [.decl noComment ⟨none, "A".toList, [], [], []⟩,
        .condition noComment "#ifdef X\n".toList, .decl noComment ⟨none, "B".toList, [], [], []⟩, .condition noComment "#endif\n".toList]] =
      "enum E\n{\n  A,\n  #ifdef X,\n  B,\n  #endif\n};\n".toList ∧
    block [] "  ".toList false [.access ⟨" The data".toList, [], false⟩ "public".toList false []] = " The datapublic:\n".toList := by
  refine ⟨fun h => ?_, by decide +kernel, by decide +kernel, by decide +kernel⟩
  have := h [] "  ".toList [.struct ⟨[], " about S".toList, false⟩ ⟨false, none, "S".toList, none, [], []⟩ []] (by decide)
  revert this
  decide +kernel

/-! ### C93 -/

/-- A declaration, with the width of a bit field. -/
def declText (d : Decl) : Str :=
  (d.ty.elim [] (fun t => t ++ [' '])) ++ (d.name ++ d.array) ++ (if d.bits = [] then [] else [' '] ++ d.bits) ++
    (if d.init = [] then [] else " = ".toList ++ d.init)

def C93_decl_statement : Prop := ∀ d : Decl, d.code = declText d

theorem C93_decl_partial (d : Decl) (h : d.bits = []) : d.code = declText d := by
  have e : (if d.init.length > 0 then " = ".toList ++ d.init else []) = (if d.init = [] then [] else " = ".toList ++ d.init) := by
    by_cases hi : d.init = []
    · rw [hi]; rfl
    · rw [if_pos (List.length_pos_iff.2 hi), if_neg hi]
  unfold Decl.code declText
  rw [e, h, if_pos rfl, List.append_nil]
  cases d.ty <;> rfl

/-- It fails: `unsigned int flag : 3` is printed without its width. -/
theorem C93_decl_fails : ¬ C93_decl_statement := by
  intro h
  have := h ⟨some "unsigned int".toList, "flag".toList, [], [], ": 3".toList⟩
  revert this
  decide +kernel

example : Decl.code ⟨some "const char *".toList, "names".toList, "[2]".toList, "{}".toList, []⟩ = "const char * names[2] = {}".toList := by decide +kernel

/-- The first line of an enum. -/
def enumText (isClass : Bool) (name dataType : Str) : Str :=
  "enum ".toList ++ ((if isClass then "class ".toList else []) ++ (name ++ (if dataType = [] then [] else " : ".toList ++ dataType)))

def C93_enum_statement : Prop := ∀ isClass name dataType, enumCode isClass name dataType = enumText isClass name dataType

theorem C93_enum_partial (isClass : Bool) (name : Str) : enumCode isClass name [] = enumText isClass name [] := by
  unfold enumCode enumText
  rw [if_pos rfl, List.append_nil]
  cases isClass <;> rfl

/-- It fails: the type of the values is not printed. -/
theorem C93_enum_fails : ¬ C93_enum_statement := by
  intro h
  have := h true "E".toList "uint8_t".toList
  revert this
  decide +kernel

/-- The parameters of a template, with their default values. -/
def templateText (t : Option Template) : Str :=
  match t with
  | none => []
  | some t => if t.params = [] then [] else
    "template<".toList ++ join ", ".toList (t.params.map (fun p => p.1 ++ [' '] ++ p.2.1 ++ (if p.2.2 = [] then [] else " = ".toList ++ p.2.2))) ++
      "> ".toList

/-- The template is not an instance, and its parameters have no default value. -/
def Bare (t : Option Template) : Prop := ∀ x ∈ t, x.specialized = [] ∧ ∀ p ∈ x.params, p.2.2 = []

theorem template_text (k : Bool) (t : Option Template) (h : Bare t) : strTemplate k t = templateText t := by
  cases t with
  | none => rfl
  | some t =>
    obtain ⟨h1, h2⟩ := h t rfl
    have e : templateParams t.params [] = t.params.map (fun p => p.1 ++ [' '] ++ p.2.1 ++ (if p.2.2 = [] then [] else " = ".toList ++ p.2.2)) := by
      generalize t.params = ps at h2
      induction ps with
      | nil => rfl
      | cons p ps ih =>
        obtain ⟨a, b, c⟩ := p
        have hc : c = [] := h2 (a, b, c) (by simp)
        subst hc
        show (a ++ [' '] ++ b) :: templateParams ps [] = _
        rw [ih (fun q hq => h2 q (List.mem_cons_of_mem _ hq)), List.map_cons]
        simp only [if_true, List.append_nil]
    unfold strTemplate templateText
    simp only
    by_cases hp : t.params = []
    · rw [if_pos (by rw [hp]; rfl), if_pos hp]
    · rw [if_neg (fun h => hp (List.length_eq_zero_iff.1 h)), if_neg hp, h1, if_pos (show ([] : List Str).length = 0 from rfl), e]

/-- The first line of a class: template, macro, name, `final`, base classes. -/
def headText (h : Head) : Str :=
  templateText h.template ++ ((if h.isClass then "class ".toList else "struct ".toList) ++ ((if h.macro_ = [] then [] else h.macro_ ++ [' ']) ++ (h.name ++
    ((if h.specifier = [] then [] else [' '] ++ h.specifier) ++
      (match h.supers with
        | none => []
        | some [] => []
        | some l => " : ".toList ++ join ", ".toList (l.map (fun s => (if s.1 = [] then [] else s.1 ++ [' ']) ++ s.2)))))))

def C93_class_statement : Prop := ∀ h : Head, (∀ t ∈ h.template, t.specialized = []) → (∀ l ∈ h.supers, ∀ s ∈ l, s.2 ≠ []) → h.code = headText h

theorem supers_text (l : List (Str × Str)) (h : ∀ s ∈ l, s.2 ≠ []) :
    supersCode l = " : ".toList ++ join ", ".toList (l.map (fun s => (if s.1 = [] then [] else s.1 ++ [' ']) ++ s.2)) := by
  have e : ∀ s : Str × Str, superCode s = (if s.1 = [] then [] else s.1 ++ [' ']) ++ s.2 := by
    intro s
    unfold superCode
    by_cases hs : s.1 = []
    · rw [if_neg (by rw [hs]; decide), if_pos hs, List.nil_append]
    · rw [if_pos (List.length_pos_iff.2 hs), if_neg hs]
  unfold supersCode
  rw [Type.joinRemoveEmpty_of]
  · rw [List.map_congr_left (fun s _ => e s)]
  · intro w hw
    obtain ⟨s, hs, rfl⟩ := List.mem_map.1 hw
    rw [e s]
    intro h'
    exact h s hs (List.append_eq_nil_iff.1 h').2

/-- It holds without `final`, macro and default values of the template. -/
theorem C93_class_partial (h : Head) (ht : Bare h.template) (hs : h.specifier = []) (hm : h.macro_ = []) (hsup : ∀ l ∈ h.supers, l ≠ [] ∧ ∀ s ∈ l, s.2 ≠ []) :
    h.code = headText h := by
  unfold Head.code headText
  rw [template_text false h.template ht, hs, hm, if_pos rfl, if_pos rfl, List.nil_append, List.nil_append, List.append_assoc, List.append_assoc]
  cases hl : h.supers with
  | none => rfl
  | some l =>
    obtain ⟨h1, h2⟩ := hsup l hl
    simp only
    rw [supers_text l h2]

/-- It fails: `struct MY_API A final` is printed `struct A`. -/
theorem C93_class_fails : ¬ C93_class_statement := by
  intro h
  have := h ⟨false, none, "A".toList, none, "final".toList, "MY_API".toList⟩ (fun _ h => (by cases h)) (fun _ h => (by cases h))
  revert this
  decide +kernel

example : Head.code ⟨true, some ⟨[("typename".toList, "T".toList, []), ("int".toList, "N".toList, [])], []⟩, "A".toList,
    some [("public".toList, "B".toList), ([], "C".toList)], [], []⟩ = "template<typename T, int N> class A : public B, C".toList := by decide +kernel

/-- A function: template, specifiers and type, name, parameters, `const` and so on, `noexcept`, `= 0`. -/
def fnText (f : Fn) : Str :=
  templateText f.template ++
    ((match f.ret with
      | none => []
      | some t => if isArrow t then "auto ".toList else Type.Spec.words (t.specifiers ++ t.typenames ++ t.modifiers) ++ [' ']) ++
    (f.name ++ ("(".toList ++ (join ", ".toList (f.params.map declText) ++ (")".toList ++
    ((match f.ret with
      | none => []
      | some t => if isArrow t then " -> ".toList ++ Type.Spec.words (t.specifiers ++ t.typenames.tail ++ t.modifiers) else []) ++
    (f.specifiers.flatMap (fun s => ' ' :: s) ++ (f.noexcept.elim [] (fun a => " noexcept".toList ++ a) ++
    ((if f.pureVirtual then " = 0".toList else []) ++ ";".toList)))))))))

/-- The full statement: a declaration is printed as a whole. -/
def C93_function_statement : Prop := ∀ f : Fn, f.kind = .decl ∨ f.kind = .ctorDecl → (∀ t ∈ f.template, t.specialized = []) →
  (∀ t ∈ f.ret, Type.Spec.Proper t ∧ t.specifiers.count "const".toList ≤ 1) → f.code [] = fnText f

theorem specifiers_text (r : Str) (hr : r ≠ []) (l : List Str) :
    (if l.length > 0 then r ++ (if r.length > 0 then [' '] else []) ++ join [' '] l else r) = r ++ l.flatMap (fun s => ' ' :: s) := by
  rw [if_pos (List.length_pos_iff.2 hr)]
  cases l with
  | nil => rw [if_neg (by decide)]; simp
  | cons s l =>
    rw [if_pos (by simp)]
    rw [List.append_assoc]
    congr 1
    induction l generalizing s with
    | nil => simp [join]
    | cons t l ih =>
      have := ih t
      show ([' '] : Str) ++ (s ++ [' '] ++ join [' '] (t :: l)) = _
      rw [List.flatMap_cons, ← this]
      simp

theorem arrow_iff (t : Type.CppType) : isArrow t = decide (t.typenames.length > 1 ∧ t.typenames.head? = some "auto".toList) := by
  unfold isArrow
  match h : t.typenames with
  | [] => rfl
  | [x] =>
    by_cases hx : x = "auto".toList
    · rw [hx]; rfl
    · rw [if_neg (fun h => hx (List.cons.inj h).1)]
      simp only [decide_eq_false hx]
      symm
      rw [decide_eq_false]
      rintro ⟨h1, _⟩
      simp at h1
  | x :: y :: l =>
    rw [if_neg (fun h => by have := congrArg List.length h; simp at this)]
    by_cases hx : x = "auto".toList
    · rw [hx]
      refine (decide_eq_true rfl).trans (decide_eq_true ⟨?_, rfl⟩).symm
      simp
    · refine (decide_eq_false hx).trans (decide_eq_false ?_).symm
      rintro ⟨_, h2⟩
      exact hx (Option.some.inj h2)

/-- It holds for functions with a type which is not static, virtual, inline or extern, without `noexcept`, `= 0`, bit fields (in parameters), and default
values of templates. -/
theorem C93_function_partial (f : Fn) (hk : f.kind = .decl) (ht : Bare f.template) (hn : f.noexcept = none) (hp : f.pureVirtual = false)
    (hb : ∀ p ∈ f.params, p.bits = []) (t : Type.CppType) (hr : f.ret = some t) (hpr : Type.Spec.Proper t) (hc : t.specifiers.count "const".toList ≤ 1)
    (hu : ∀ u ∈ ["inline".toList, "virtual".toList, "extern".toList, "static".toList], u ∉ t.specifiers)
    (ha : isArrow t = true → Type.Spec.words (t.specifiers ++ t.typenames.tail ++ t.modifiers) ≠ "auto".toList) : f.code [] = fnText f := by
  have hret := Type.Props.C29_return_type t hpr hc (fun u hu' => by rw [List.count_eq_zero.2 (hu u hu')]; omega)
  have hfil : t.specifiers.filter (fun w => ¬ w ∈ ["inline".toList, "virtual".toList, "extern".toList, "static".toList]) = t.specifiers := by
    rw [List.filter_eq_self]
    intro w hw
    exact decide_eq_true (fun hm => hu w hm hw)
  rw [hfil] at hret
  have hpar : paramsCode f.params = join ", ".toList (f.params.map declText) := by
    unfold paramsCode
    rw [List.map_congr_left (fun p hp => C93_decl_partial p (hb p hp))]
  have hspec : strSpecialization f.template = [] := by
    unfold strSpecialization
    cases h : f.template with
    | none => rfl
    | some x =>
      simp only
      rw [(ht x h).1]
      rfl
  have hcall : call f = f.name ++ ("(".toList ++ (join ", ".toList (f.params.map declText) ++ ")".toList)) := by
    unfold call
    rw [hspec, hpar, List.append_nil, List.append_assoc, List.append_assoc]
    rfl
  have hcne : call f ≠ [] := by
    rw [hcall]
    intro h
    have := (List.append_eq_nil_iff.1 (List.append_eq_nil_iff.1 h).2).1
    exact absurd this (by decide)
  have hcode : f.code [] = signatureFn [] f ++ [';'] := by
    unfold Fn.code
    rw [hk]
  rw [hcode]
  unfold signatureFn
  simp only [hr]
  rw [specifiers_text]
  · unfold fnText
    simp only [hr, hn, hp]
    rw [template_text true f.template ht]
    by_cases harr : isArrow t = true
    · have h2 : t.typenames.length > 1 ∧ t.typenames.head? = some "auto".toList := by
        rw [arrow_iff] at harr
        exact of_decide_eq_true harr
      have hrc : retCode [] t = Type.Spec.words (t.specifiers ++ t.typenames.tail ++ t.modifiers) := by
        unfold retCode
        rw [hret, if_pos h2]
        rfl
      rw [if_pos harr, if_pos harr, if_pos harr, hrc, if_neg (ha harr), hcall]
      simp only [Option.elim, Bool.false_eq_true, if_false, List.append_assoc, List.nil_append]
      rfl
    · have h2 : ¬ (t.typenames.length > 1 ∧ t.typenames.head? = some "auto".toList) := by
        rw [arrow_iff] at harr
        exact fun h => harr (decide_eq_true h)
      have hrc : retCode [] t = Type.Spec.words (t.specifiers ++ t.typenames ++ t.modifiers) := by
        unfold retCode
        rw [hret, if_neg h2]
        rfl
      rw [if_neg harr, if_neg harr, if_neg harr, hrc, hcall]
      simp only [Option.elim, Bool.false_eq_true, if_false, List.append_assoc, List.nil_append]
      rfl
  · intro h
    have h3 := (List.append_eq_nil_iff.1 h).2
    split at h3
    · split at h3
      · exact hcne (List.append_eq_nil_iff.1 h3).2
      · exact hcne (List.append_eq_nil_iff.1 (List.append_eq_nil_iff.1 (List.append_eq_nil_iff.1 h3).1).1).2
    · exact hcne (List.append_eq_nil_iff.1 h3).2

example : Fn.code [] ⟨.decl, some ⟨[("class".toList, "T".toList, [])], []⟩, some ⟨["const".toList], ["T".toList], ["&".toList]⟩, "get".toList,
    [⟨some "int".toList, "i".toList, [], "0".toList, []⟩], ["const".toList, "override".toList], none, false⟩ =
    "template<class T> const T & get(int i = 0) const override;".toList := by decide +kernel

example : Fn.code [] ⟨.decl, none, some ⟨[], ["auto".toList, "int".toList], ["*".toList]⟩, "f".toList, [], [], none, false⟩ = "auto f() -> int *;".toList := by
  decide +kernel

/-- It fails: `static`, `virtual`, `noexcept`, `= 0` are not printed, nor the default values of the parameters of a template, nor the template of a conversion
operator; the declaration of a constructor has no semicolon. -/
theorem C93_function_fails : ¬ C93_function_statement ∧
    Fn.code [] ⟨.decl, none, some ⟨["virtual".toList], ["int".toList], []⟩, "f".toList, [], ["const".toList], some [], true⟩ = "int f() const;".toList ∧
    Fn.code [] ⟨.decl, none, some ⟨["static".toList], ["int".toList], []⟩, "f".toList, [], [], none, false⟩ = "int f();".toList ∧
    Fn.code [] ⟨.decl, some ⟨[("int".toList, "N".toList, "3".toList)], []⟩, some ⟨[], ["int".toList], []⟩, "f".toList, [], [], none, false⟩ =
      "template<int N> int f();".toList ∧
    Fn.code [] ⟨.decl, some ⟨[("class".toList, "T".toList, [])], []⟩, none, "operator T".toList, [], ["const".toList], none, false⟩ = "operator T() const;".toList ∧
    Fn.code [] ⟨.ctorDecl, none, none, "S".toList, [⟨some "int".toList, "x".toList, [], [], []⟩], [], none, false⟩ = "S(int x)".toList := by
  refine ⟨fun h => ?_, by decide +kernel, by decide +kernel, by decide +kernel, by decide +kernel, by decide +kernel⟩
  have := h ⟨.ctorDecl, none, none, "S".toList, [], [], none, false⟩ (.inr rfl) (fun _ h => (by cases h)) (fun _ h => (by cases h))
  revert this
  decide +kernel

/-! ### C94 -/

/-- The line is a comment. -/
def IsComment (l : Str) : Prop := ∃ a b, l = a ++ "//".toList ++ b ∧ ∀ c ∈ a, isSpace c = true

theorem comment_of_strip {l : Str} (h : startsWith (strip l) "//".toList = true) : IsComment l := by
  obtain ⟨t, ht⟩ := List.isPrefixOf_iff_prefix.1 h
  obtain ⟨a, ha, hb⟩ := lstrip_decomp l
  obtain ⟨w, hw, _⟩ := rstrip_decomp (lstrip l)
  refine ⟨a, t ++ w, ?_, hb⟩
  have e : lstrip l = "//".toList ++ t ++ w := by
    refine hw.trans ?_
    rw [ht]
    rfl
  calc l = a ++ lstrip l := ha
    _ = _ := by rw [e]; simp only [List.append_assoc]

theorem lineComment_comment (l : Str) : IsComment (lineComment l) := by
  unfold lineComment
  split
  · next h => exact comment_of_strip h
  · exact ⟨[], l, rfl, fun _ h => (by cases h)⟩

theorem lineComment_ne (l : Str) : lineComment l ≠ [] := by
  obtain ⟨a, b, h, _⟩ := lineComment_comment l
  rw [h]
  intro h'
  have := (List.append_eq_nil_iff.1 (List.append_eq_nil_iff.1 h').1).2
  exact absurd this (by decide)

theorem lineComment_nl {l : Str} (h : '\n' ∉ l) : '\n' ∉ lineComment l := by
  unfold lineComment
  split
  · exact h
  · intro hm
    rcases List.mem_append.1 hm with hm | hm
    · exact absurd hm (by decide)
    · exact h hm

theorem splitlines_nl (s : Str) : splitlines (s ++ ['\n']) = lines s := by
  unfold splitlines
  rw [if_pos (nl_ends s), lines_nl, List.dropLast_concat]

theorem splitlines_spec (s : Str) : ∀ l ∈ splitlines s, '\n' ∉ l := by
  intro l hl
  unfold splitlines at hl
  split at hl
  · exact not_mem_of_mem_lines ((List.dropLast_sublist _).subset hl)
  · split at hl
    · cases hl
    · exact not_mem_of_mem_lines hl

theorem not_nl_end {ls : List Str} (h : ∀ l ∈ ls, l ≠ [] ∧ '\n' ∉ l) : endsWith (unlines ls) ['\n'] = false := by
  cases hl : ls with
  | nil => rfl
  | cons x xs =>
    refine Bool.eq_false_iff.2 (fun he => ?_)
    obtain ⟨t, ht⟩ := ends_nl he
    have h1 : lines (unlines (x :: xs)) = x :: xs := lines_unlines (by simp) (fun l hm => (h l (hl ▸ hm)).2)
    rw [ht, lines_nl] at h1
    have : ([] : Str) ∈ ls := by rw [hl, ← h1]; simp
    exact (h _ this).1 rfl

theorem top_flat (c : Comments) (hc : c.cStyle = false) : topCode c = ((splitlines c.top).map lineComment).flatMap (fun l => l ++ ['\n']) := by
  have hx : ∀ l ∈ (splitlines c.top).map lineComment, l ≠ [] ∧ '\n' ∉ l := by
    intro l hl
    obtain ⟨m, hm, rfl⟩ := List.mem_map.1 hl
    exact ⟨lineComment_ne m, lineComment_nl (splitlines_spec _ m hm)⟩
  unfold topCode
  rw [hc]
  simp only [Bool.false_eq_true, if_false]
  generalize (splitlines c.top).map lineComment = ls at hx
  cases ls with
  | nil => rfl
  | cons x xs =>
    rw [not_nl_end hx, if_pos, flat_eq (by simp)]
    · simp
    · refine List.length_pos_iff.2 (fun h => ?_)
      have h1 : lines (unlines (x :: xs)) = x :: xs := lines_unlines (by simp) (fun l hm => (hx l hm).2)
      rw [h] at h1
      exact (hx x (by simp)).1 (List.cons.inj h1).1.symm

/-- The comment above an element is printed line by line: each line of it is a comment, with the text of the line, and a line break ends it. -/
theorem C94_top (c : Comments) (hc : c.cStyle = false) :
    ∃ ls : List Str, topCode c = ls.flatMap (fun l => l ++ ['\n']) ∧ (∀ l ∈ ls, IsComment l ∧ '\n' ∉ l) ∧
      ls.length = (splitlines c.top).length ∧ ∀ p ∈ ls.zip (splitlines c.top), p.1 = p.2 ∨ p.1 = "//".toList ++ p.2 := by
  refine ⟨_, top_flat c hc, ?_, List.length_map _, ?_⟩
  · intro l hl
    obtain ⟨m, hm, rfl⟩ := List.mem_map.1 hl
    exact ⟨lineComment_comment m, lineComment_nl (splitlines_spec _ m hm)⟩
  · generalize splitlines c.top = ls
    induction ls with
    | nil => exact fun _ h => (by cases h)
    | cons x xs ih =>
      intro p hp
      rcases List.mem_cons.1 hp with rfl | hp
      · show lineComment x = x ∨ lineComment x = "//".toList ++ x
        unfold lineComment
        by_cases h : startsWith (strip x) "//".toList = true
        · rw [if_pos h]; exact .inl rfl
        · rw [if_neg h]; exact .inr rfl
      · exact ih p hp

example : topCode ⟨" The values\n// of E\n".toList, [], false⟩ = "// The values\n// of E\n".toList := by decide +kernel

/-- The full statement: each line of the comment after an element is a comment. -/
def C94_eol_statement : Prop := ∀ c : Comments, c.eol ≠ [] → ∀ l ∈ lines (eolCode c), IsComment l

/-- It holds when the comment has one line. -/
theorem C94_eol_partial (c : Comments) (h : c.eol ≠ []) (hn : '\n' ∉ c.eol) : ∀ l ∈ lines (eolCode c), IsComment l := by
  have h1 : '\n' ∉ eolCode c ∧ IsComment (eolCode c) := by
    unfold eolCode
    rw [if_neg (fun h' => h (List.length_eq_zero_iff.1 h'))]
    split
    · next hs => exact ⟨hn, comment_of_strip hs⟩
    · refine ⟨fun hm => ?_, [' '], c.eol, rfl, by decide⟩
      rcases List.mem_append.1 hm with hm | hm
      · exact absurd hm (by decide)
      · exact hn hm
  intro l hl
  have : lines (eolCode c) = [eolCode c] := lines_unlines (ls := [eolCode c]) (by simp) (by simpa using h1.1)
  rw [this] at hl
  rw [List.mem_singleton.1 hl]
  exact h1.2

/-- It fails: the second line is printed as code. -/
theorem C94_eol_fails : ¬ C94_eol_statement ∧ eolCode ⟨[], " one\ntwo".toList, false⟩ = " // one\ntwo".toList := by
  refine ⟨fun h => ?_, by decide +kernel⟩
  obtain ⟨a, b, hab, _⟩ := h ⟨[], " one\ntwo".toList, false⟩ (by decide) "two".toList (by decide +kernel)
  have : '/' ∈ "two".toList := by
    rw [hab]
    exact List.mem_append_left _ (List.mem_append_right _ (by decide))
  exact absurd this (by decide)

theorem join_nl (x : Str) : ∀ ls : List Str, ls ≠ [] → x ++ join ('\n' :: x) ls = unlines (ls.map (x ++ ·))
  | [], h => absurd rfl h
  | [a], _ => rfl
  | a :: b :: ls, _ => by
    have := join_nl x (b :: ls) (by simp)
    show x ++ (a ++ ('\n' :: x) ++ join ('\n' :: x) (b :: ls)) = x ++ a ++ ['\n'] ++ unlines ((b :: ls).map (x ++ ·))
    rw [← this]
    simp

theorem strip_comment (l : Str) : startsWith (strip ("// ".toList ++ l)) "//".toList = true := by
  have e : lstrip ("// ".toList ++ l) = "// ".toList ++ l := lstrip_cons_of_not (c := '/') (by decide)
  show startsWith (rstrip (lstrip ("// ".toList ++ l))) "//".toList = true
  rw [e]
  have e2 : rstrip ("// ".toList ++ l) = "//".toList ++ rstrip (' ' :: l) ∨ ∀ c ∈ ' ' :: l, isSpace c = true := by
    by_cases hb : ∃ c ∈ ' ' :: l, isSpace c = false
    · exact .inl (rstrip_right (a := "//".toList) hb)
    · right
      intro c hc
      cases hs : isSpace c with
      | true => rfl
      | false => exact absurd ⟨c, hc, hs⟩ hb
  rcases e2 with e2 | e2
  · rw [e2]
    exact List.isPrefixOf_iff_prefix.2 ⟨_, rfl⟩
  · have e3 : rstrip ("// ".toList ++ l) = rstrip "//".toList := rstrip_blank (a := "//".toList) e2
    rw [e3]
    decide

theorem replace_lines (new : Str) : ∀ ls : List Str, (∀ l ∈ ls, '\n' ∉ l) → replace (unlines ls) ['\n'] new = join new ls := by
  have h0 : ∀ l : Str, '\n' ∉ l → l.flatMap (fun x => if x = '\n' then new else [x]) = l := by
    intro l
    induction l with
    | nil => intro _; rfl
    | cons x xs ih =>
      intro h
      rw [List.flatMap_cons, if_neg (fun e => h (by rw [e]; simp)), ih (fun hm => h (List.mem_cons_of_mem _ hm))]
      rfl
  intro ls h
  rw [replace_char]
  induction ls with
  | nil => rfl
  | cons x xs ih =>
    cases xs with
    | nil => exact h0 x (h x (by simp))
    | cons y ys =>
      have := ih (fun l hl => h l (List.mem_cons_of_mem _ hl))
      show (x ++ ['\n'] ++ unlines (y :: ys)).flatMap _ = x ++ new ++ join new (y :: ys)
      rw [List.flatMap_append, List.flatMap_append, this, h0 x (h x (by simp))]
      simp

/-- `from_comments`: each line of the comment is printed after `// `; the lines of the comment at the end of the line are joined with ` | `. -/
theorem C94_from_comments (top eol : Str) :
    topCode (fromComments top eol) = (if top = [] then [] else (lines top).flatMap (fun l => "// ".toList ++ l ++ ['\n'])) ∧
    eolCode (fromComments top eol) = (if eol = [] then [] else " // ".toList ++ join " | ".toList (lines eol)) := by
  have hsl : ∀ l : Str, '\n' ∉ l → '\n' ∉ "// ".toList ++ l := fun l h hm => by
    rcases List.mem_append.1 hm with hm | hm
    · exact absurd hm (by decide)
    · exact h hm
  have ht : (fromComments top eol).top = if top = [] then [] else unlines ((lines top).map ("// ".toList ++ ·)) ++ ['\n'] := by
    unfold fromComments
    by_cases h : top = []
    · rw [h]; rfl
    · rw [if_neg h]
      simp only [if_pos (List.length_pos_iff.2 h)]
      have e : "// ".toList ++ join "\n// ".toList (lines top) = unlines ((lines top).map ("// ".toList ++ ·)) := join_nl "// ".toList _ (lines_ne_nil top)
      rw [e, not_nl_end]
      · simp
      · intro l hl
        obtain ⟨m, hm, rfl⟩ := List.mem_map.1 hl
        exact ⟨fun h => absurd (List.append_eq_nil_iff.1 h).1 (by decide), hsl m (not_mem_of_mem_lines hm)⟩
  have hcs : (fromComments top eol).cStyle = false := by
    have e : (fromComments top eol).cStyle = startsWith (fromComments top eol).top "/*".toList := rfl
    rw [e, ht]
    by_cases h : top = []
    · rw [if_pos h]; rfl
    · rw [if_neg h]
      obtain ⟨x, xs, hx⟩ := List.exists_cons_of_ne_nil (lines_ne_nil top)
      rw [hx]
      cases xs <;> rfl
  constructor
  · rw [top_flat _ hcs, ht]
    by_cases h : top = []
    · rw [if_pos h, if_pos h]; rfl
    · rw [if_neg h, if_neg h, splitlines_nl, lines_unlines]
      · rw [List.map_map, List.flatMap_map]
        congr 1
        funext l
        have : lineComment ("// ".toList ++ l) = "// ".toList ++ l := by
          unfold lineComment
          rw [if_pos (strip_comment l)]
        show lineComment ("// ".toList ++ l) ++ ['\n'] = _
        rw [this]
      · exact fun h' => lines_ne_nil top (List.map_eq_nil_iff.1 h')
      · intro l hl
        obtain ⟨m, hm, rfl⟩ := List.mem_map.1 hl
        exact hsl m (not_mem_of_mem_lines hm)
  · by_cases h : eol = []
    · rw [h]; rfl
    · have e : (fromComments top eol).eol = " // ".toList ++ replace eol ['\n'] " | ".toList := if_pos (List.length_pos_iff.2 h)
      have e1 : replace eol ['\n'] " | ".toList = join " | ".toList (lines eol) := by
        have := replace_lines " | ".toList (lines eol) (fun l hl => not_mem_of_mem_lines hl)
        rwa [unlines_lines] at this
      have e2 : startsWith (strip (" // ".toList ++ join " | ".toList (lines eol))) "//".toList = true := strip_comment _
      unfold eolCode
      rw [if_neg h, e, e1, if_neg, if_pos e2]
      intro h'
      exact absurd (List.append_eq_nil_iff.1 (List.length_eq_zero_iff.1 h')).1 (by decide)

example : topCode (fromComments "Two\nlines".toList "a\nb".toList) = "// Two\n// lines\n".toList ∧
    eolCode (fromComments "Two\nlines".toList "a\nb".toList) = " // a | b".toList := by decide +kernel

/-- `add_comment_on_previous_lines`: the full statement, the lines of the comment are added to those which are there. -/
def C94_add_statement : Prop := ∀ (c : Comments) (s : Str), c.cStyle = false → topCode (addTop c s) = topCode c ++ topCode ⟨s, [], false⟩

/-- It holds when the comment which is there does not end with a line break, and the new one is not empty. -/
theorem C94_add_partial (c : Comments) (s : Str) (hc : c.cStyle = false) (he : endsWith c.top ['\n'] = false) (hs : s ≠ []) :
    topCode (addTop c s) = topCode c ++ topCode ⟨s, [], false⟩ := by
  have h1 : splitlines (addTop c s).top = splitlines c.top ++ splitlines s := by
    by_cases h : c.top = []
    · have e : (addTop c s).top = s := by unfold addTop; rw [h]; rfl
      rw [e, h]
      rfl
    · have e : (addTop c s).top = c.top ++ ['\n'] ++ s := by
        unfold addTop
        rw [if_neg (fun h' => h (List.length_eq_zero_iff.1 h'))]
      have e1 : splitlines c.top = lines c.top := by
        unfold splitlines
        rw [he, if_neg (by decide), if_neg h]
      have e2 : ∀ u, lines (c.top ++ ['\n'] ++ u) = lines c.top ++ lines u := by
        intro u
        have := lines_unlines (ls := lines c.top ++ lines u) (fun h' => lines_ne_nil _ (List.append_eq_nil_iff.1 h').1) (fun l hl =>
          (List.mem_append.1 hl).elim not_mem_of_mem_lines not_mem_of_mem_lines)
        have e3 : unlines (lines c.top ++ lines u) = unlines (lines c.top) ++ ['\n'] ++ unlines (lines u) :=
          Type.join_append (lines_ne_nil _) (lines_ne_nil _)
        rw [← this, e3, unlines_lines, unlines_lines]
      rw [e, e1]
      by_cases hse : endsWith s ['\n'] = true
      · obtain ⟨t, rfl⟩ := ends_nl hse
        rw [← List.append_assoc, splitlines_nl, splitlines_nl, e2]
      · have hse' : endsWith (c.top ++ ['\n'] ++ s) ['\n'] = false := by
          refine Bool.eq_false_iff.2 (fun h' => hse ?_)
          obtain ⟨t, ht⟩ := ends_nl h'
          obtain ⟨a, x, rfl⟩ : ∃ a x, s = a ++ [x] := ⟨_, _, (List.dropLast_concat_getLast hs).symm⟩
          rw [← List.append_assoc] at ht
          have : x = '\n' := (List.cons.inj (List.append_inj' ht rfl).2).1
          rw [this]
          exact nl_ends a
        have e3 : ∀ u : Str, endsWith u ['\n'] = false → u ≠ [] → splitlines u = lines u := by
          intro u h1 h2
          unfold splitlines
          rw [h1, if_neg (by decide), if_neg h2]
        rw [e3 _ hse' (by simp), e3 s (Bool.eq_false_iff.2 hse) hs, e2]
  have h2 : (addTop c s).cStyle = false := hc
  rw [top_flat _ h2, top_flat c hc, top_flat ⟨s, [], false⟩ rfl, h1, List.map_append, List.flatMap_append]

example : topCode (addTop ⟨" One".toList, [], false⟩ " Two\n".toList) = "// One\n// Two\n".toList := by decide +kernel

/-- It fails: the comments made by `from_comments` end with a line break, and an empty comment comes between. -/
theorem C94_add_fails : ¬ C94_add_statement ∧ topCode (addTop (fromComments "One".toList []) "Two".toList) = "// One\n//\n//Two\n".toList := by
  refine ⟨fun h => ?_, by decide +kernel⟩
  have := h (fromComments "One".toList []) "Two".toList rfl
  revert this
  decide +kernel

end Verif.Print.Props
