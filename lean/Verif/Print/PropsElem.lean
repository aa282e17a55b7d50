import Verif.Print.Props

/-! Properties C93 and C94 for the other elements: instances of templates, definitions, macros, comments, statements of several declarations, and the place of
the comments of an element. -/

namespace Verif.Print.Props
open Verif.Py Verif.Print

theorem flat_last : ∀ (ls : List Str) (s : Str), ls.flatMap (fun l => l ++ ['\n']) ++ s = unlines (ls ++ [s])
  | [], s => rfl
  | [l], s => by
    rw [List.flatMap_cons, List.flatMap_nil, List.append_nil]
    rfl
  | l :: m :: ls, s => by
    have ih := flat_last (m :: ls) s
    rw [List.flatMap_cons, List.append_assoc, ih]
    rfl

/-- The text `t` is that of an element: the comment above on its own lines, then the text of the element, the separator, and the comment at the end of the
line on this line. -/
def Placed (c : Comments) (code sep t : Str) : Prop :=
  ∃ (ls : List Str) (e : Str), lines t = ls ++ [code ++ sep ++ e] ∧ (∀ l ∈ ls, IsComment l) ∧ ls.length = (splitlines c.top).length ∧
    (∀ p ∈ ls.zip (splitlines c.top), p.1 = p.2 ∨ p.1 = "//".toList ++ p.2) ∧
    (c.eol = [] → e = []) ∧ (c.eol ≠ [] → IsComment e ∧ (e = c.eol ∨ e = " //".toList ++ c.eol))

theorem eol_spec (c : Comments) (hn : '\n' ∉ c.eol) : '\n' ∉ eolCode c ∧ (c.eol = [] → eolCode c = []) ∧
    (c.eol ≠ [] → IsComment (eolCode c) ∧ (eolCode c = c.eol ∨ eolCode c = " //".toList ++ c.eol)) := by
  by_cases h : c.eol = []
  · have e : eolCode c = [] := by unfold eolCode; rw [if_pos (List.length_eq_zero_iff.2 h)]
    exact ⟨by rw [e]; exact List.not_mem_nil, fun _ => e, fun k => absurd h k⟩
  · have e : eolCode c = if startsWith (strip c.eol) "//".toList then c.eol else " //".toList ++ c.eol := by
      unfold eolCode
      rw [if_neg (fun k => h (List.length_eq_zero_iff.1 k))]
    by_cases hs : startsWith (strip c.eol) "//".toList = true
    · rw [if_pos hs] at e
      exact ⟨by rw [e]; exact hn, fun k => absurd k h, fun _ => ⟨by rw [e]; exact comment_of_strip hs, .inl e⟩⟩
    · rw [if_neg hs] at e
      refine ⟨?_, fun k => absurd k h, fun _ => ⟨⟨[' '], c.eol, by rw [e]; rfl, by decide⟩, .inr e⟩⟩
      rw [e]
      intro hm
      rcases List.mem_append.1 hm with hm | hm
      · exact absurd hm (by decide)
      · exact hn hm

/-- C94: the comment above an element is before it, on its own lines, and the comment at the end of the line is on its line, after the `,` of an enumerator
and the `;` of a declaration. -/
theorem C94_place (c : Comments) (isEnum isDecl : Bool) (s : Str) (hc : c.cStyle = false) (hs : '\n' ∉ s) (he : '\n' ∉ c.eol) :
    Placed c s ((if isEnum then [','] else []) ++ (if isDecl then [';'] else [])) (withComments c isEnum isDecl s) := by
  obtain ⟨ls, h1, h2, h3, h4⟩ := C94_top c hc
  obtain ⟨e1, e2, e3⟩ := eol_spec c he
  refine ⟨ls, eolCode c, ?_, fun l hl => (h2 l hl).1, h3, h4, e2, e3⟩
  have e : withComments c isEnum isDecl s =
      ls.flatMap (fun l => l ++ ['\n']) ++ (s ++ ((if isEnum then [','] else []) ++ (if isDecl then [';'] else [])) ++ eolCode c) := by
    unfold withComments
    rw [h1]
    simp only [List.append_assoc]
  rw [e, flat_last, lines_unlines (by simp)]
  intro l hl
  rcases List.mem_append.1 hl with hl | hl
  · exact (h2 l hl).2
  · obtain rfl := List.mem_singleton.1 hl
    intro hm
    rcases List.mem_append.1 hm with hm | hm
    · rcases List.mem_append.1 hm with hm | hm
      · exact hs hm
      · revert hm; cases isEnum <;> cases isDecl <;> decide
    · exact e1 hm

example : withComments ⟨" One\n// Two".toList, " last".toList, false⟩ true true "A = 1".toList = "// One\n// Two\nA = 1,; // last".toList := by decide +kernel

/-- C94: a comment `/* */` is closed at its end, and not before when its text has no `*/`. -/
theorem C94_c_style (c : Comments) (hc : c.cStyle = true) (hn : contains c.top "*/".toList = false) :
    (∃ a, topCode c = "/*".toList ++ (a ++ "*/".toList) ∧ a = c.top) ∧
    ∀ a b, topCode c = "/*".toList ++ (a ++ "*/".toList ++ b) → a = c.top ∧ b = [] := by
  have e : topCode c = "/*".toList ++ (c.top ++ "*/".toList) := by unfold topCode; rw [if_pos hc]
  refine ⟨⟨_, e, rfl⟩, ?_⟩
  intro a b h
  rw [e] at h
  replace h := List.append_cancel_left h
  have hno : ∀ x y, c.top ≠ x ++ "*/".toList ++ y := fun x y k => by
    rw [(contains_iff _ _).2 ⟨x, y, k⟩] at hn; cases hn
  revert h hno
  generalize c.top = t
  clear hn e
  induction t generalizing a with
  | nil =>
    intro h _
    have hl := congrArg List.length h
    have e2 : "*/".toList.length = 2 := rfl
    simp only [List.length_append, List.length_nil, e2] at hl
    exact ⟨List.length_eq_zero_iff.1 (by omega), List.length_eq_zero_iff.1 (by omega)⟩
  | cons c t ih =>
    intro h hno
    cases a with
    | nil =>
      exfalso
      have h : c :: (t ++ ['*', '/']) = '*' :: '/' :: b := h
      injection h with h1 h2
      cases t with
      | nil => exact absurd (List.cons.inj h2).1 (by decide)
      | cons d t =>
        injection h2 with h2 h3
        exact hno [] t (by rw [h1, h2]; rfl)
    | cons d a =>
      have h : c :: (t ++ "*/".toList) = d :: (a ++ "*/".toList ++ b) := h
      injection h with h1 h2
      obtain ⟨h3, h4⟩ := ih a h2 (fun x y k => hno (c :: x) y (by rw [k]; rfl))
      exact ⟨by rw [h1, h3], h4⟩

example : topCode ⟨" a * b ".toList, [], true⟩ = "/* a * b */".toList ∧ contains " a * b ".toList "*/".toList = false := by decide +kernel

/-- C93: the parameters of a template are shown in a comment with the types of the instance, and these types are the arguments of the name. -/
theorem C93_instance (params : List (Str × Str × Str)) (types : List Str) (h : types.length = params.length) (hne : types ≠ []) :
    (∀ k n d t, (((k, n, d), t) ∈ params.zip types → k ++ [' '] ++ n ++ ['='] ++ t ∈ templateParams params types)) ∧
    (templateParams params types).length = params.length ∧
    strTemplate false (some ⟨params, types⟩) = "/*template<".toList ++ (join ", ".toList (templateParams params types) ++ ">*/ ".toList) ∧
    strTemplate true (some ⟨params, types⟩) = "template</*".toList ++ (join ", ".toList (templateParams params types) ++ "*/> ".toList) ∧
    strSpecialization (some ⟨params, types⟩) = ['<'] ++ (join ", ".toList types ++ ['>']) := by
  have hp : ¬ params.length = 0 := by
    rw [← h]; exact fun k => hne (List.length_eq_zero_iff.1 k)
  have ht : ¬ types.length = 0 := by rw [h]; exact hp
  refine ⟨?_, ?_, ?_, ?_, ?_⟩
  · clear hne hp ht h
    induction params generalizing types with
    | nil => intro k n d t hm; cases hm
    | cons p ps ih =>
      obtain ⟨k', n', d'⟩ := p
      cases types with
      | nil => intro k n d t hm; cases hm
      | cons s ss =>
        intro k n d t hm
        show _ ∈ (k' ++ [' '] ++ n' ++ ['='] ++ s) :: templateParams ps ss
        rcases List.mem_cons.1 hm with hm | hm
        · injection hm with h1 h2
          injection h1 with h3 h4
          injection h4 with h5 h6
          rw [h3, h5, h2]
          exact .head _
        · exact .tail _ (ih ss k n d t hm)
  · clear hne hp ht h
    induction params generalizing types with
    | nil => rfl
    | cons p ps ih =>
      obtain ⟨k', n', d'⟩ := p
      cases types with
      | nil => exact congrArg Nat.succ (ih [])
      | cons s ss => exact congrArg Nat.succ (ih ss)
  · unfold strTemplate
    dsimp only
    rw [if_neg hp, if_neg ht, if_neg (by decide), List.append_assoc]
  · unfold strTemplate
    dsimp only
    rw [if_neg hp, if_neg ht, if_pos rfl, List.append_assoc]
  · unfold strSpecialization
    dsimp only
    rw [if_pos (Nat.pos_of_ne_zero ht), List.append_assoc]

example : strTemplate false (some ⟨[("typename".toList, "T".toList, []), ("int".toList, "N".toList, [])], ["float".toList, "3".toList]⟩) =
    "/*template<typename T=float, int N=3>*/ ".toList := by decide +kernel

/-- C93: the text of a definition is that of the declaration, with the mark of the block in place of the semicolon. -/
theorem C93_definition (prefixes : List Str) (f : Fn) : ∃ sig,
    Fn.code prefixes { f with kind := .decl } = sig ++ [';'] ∧ Fn.code prefixes { f with kind := .defn } = sig ++ "<unprocessed_block/>".toList ∧
    Fn.code prefixes { f with kind := .ctor } = Fn.code prefixes { f with kind := .ctorDecl } ++ "<unprocessed_block/>".toList :=
  ⟨_, rfl, rfl, rfl⟩

example : Fn.code [] ⟨.defn, none, some ⟨[], ["int".toList], []⟩, "f".toList, [], [], none, false⟩ = "int f()<unprocessed_block/>".toList := by decide +kernel

/-- C93: a comment of several lines has its mark on each line. -/
theorem C93_comment (t : Str) : lines (commentCode t) = (lines t).map ("// ".toList ++ ·) := by
  unfold commentCode
  refine lines_unlines (fun h => lines_ne_nil t (List.map_eq_nil_iff.1 h)) (fun l hl => ?_)
  obtain ⟨m, hm, rfl⟩ := List.mem_map.1 hl
  intro h
  rcases List.mem_append.1 h with h | h
  · exact absurd h (by decide)
  · exact not_mem_of_mem_lines hm h

example : commentCode "One\ntwo".toList = "// One\n// two".toList := by decide +kernel

/-- C93: the definition of a macro has its name, its parameters and its value. -/
theorem C93_define (name : Str) : defineCode name none none = "#define ".toList ++ name ∧
    (∀ v, defineCode name none (some v) = "#define ".toList ++ (name ++ (' ' :: v))) ∧
    (∀ p, defineCode name (some p) none = "#define ".toList ++ (name ++ p)) ∧
    ∀ p v, defineCode name (some p) (some v) = "#define ".toList ++ (name ++ (p ++ (' ' :: v))) := by
  unfold defineCode
  refine ⟨?_, fun v => ?_, fun p => ?_, fun p v => ?_⟩
  · rw [List.append_nil, List.append_nil]
  · rw [List.append_nil, List.append_assoc]; rfl
  · rw [List.append_nil, List.append_assoc]
  · rw [List.append_assoc, List.append_assoc]; rfl

example : defineCode "SQR".toList (some "(x)".toList) (some "x * x".toList) = "#define SQR(x) x * x".toList := by decide +kernel

/-- C93, C94: a statement of several declarations is printed as one statement for each, in their order, each with its `;` and its comments. -/
theorem C93_decls (ds : List (Comments × Decl)) :
    ∃ ts : List Str, declsCode ds = join ['\n'] ts ∧ ts.length = ds.length ∧
      ∀ p ∈ ds.zip ts, p.1.1.cStyle = false → '\n' ∉ p.1.2.code → '\n' ∉ p.1.1.eol → Placed p.1.1 p.1.2.code [';'] p.2 := by
  refine ⟨ds.map (fun x => withComments x.1 false true x.2.code), ?_, List.length_map _, ?_⟩
  · refine Type.joinRemoveEmpty_of (fun w hw h => ?_) _
    obtain ⟨x, _, rfl⟩ := List.mem_map.1 hw
    have : ';' ∈ withComments x.1 false true x.2.code := by
      unfold withComments
      exact List.mem_append_left _ (List.mem_append_right _ (.head _))
    rw [h] at this
    cases this
  · induction ds with
    | nil => intro p hp; cases hp
    | cons d ds ih =>
      intro p hp
      rcases List.mem_cons.1 hp with rfl | hp
      · intro h1 h2 h3
        exact C94_place d.1 false true d.2.code h1 h2 h3
      · exact ih p hp

example : declsCode [(⟨" First".toList, [], false⟩, ⟨some "int".toList, "a".toList, [], "1".toList, []⟩),
    (⟨[], " second".toList, false⟩, ⟨some "int".toList, "b".toList, [], [], []⟩)] = "// First\nint a = 1;\nint b; // second".toList := by decide +kernel

end Verif.Print.Props
