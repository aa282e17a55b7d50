import Verif.Parse.LemmasStmt

/-! C57 - C60: what is parsed of the types, the declarations and the functions. -/

namespace Verif.Parse.Props
open Verif.Py Verif.Type Spec Lemmas

/-! ### Material for the examples -/

/-- An XML element without children. -/
def leaf (t : Tag) (s : String) : Xml := .node { tag := t, text := some s.toList } []
def node (t : Tag) (cs : List Xml) : Xml := .node { tag := t } cs

/-- Options with the API prefix `MY_API`; the code of an element is its text. -/
def env0 : Env := ⟨["MY_API".toList], codeOf, codeOf, true, fun _ => .ok []⟩

/-! ### C58: types -/

/-- C58, full statement: the names, specifiers and modifiers of a type are kept in their order; its API names become specifiers. -/
def C58_type_statement : Prop :=
  ∀ (env : Env) (x : Xml) (ws : List Word), TypeXml env x ws → Writable ws →
    ∃ t, parseType env x none false = .ok (t, false) ∧ TypeOf env ws t

/-- C58 (part): if no two API names follow each other. -/
theorem C58_type_partial (env : Env) (x : Xml) (ws : List Word) (previous : Previous) (op : Bool) (hx : TypeXml env x ws) (hw : Writable ws)
    (hs : Spaced env (namesOf ws)) : ∃ t, parseType env x previous op = .ok (t, false) ∧ TypeOf env ws t :=
  parseType_good env hx ⟨hw, hs⟩ previous op

/-- `MY_API unsigned const int *` -/
example : TypeXml env0 (node .type [leaf .name "MY_API", leaf .name "unsigned", leaf .specifier "const", leaf .name "int", leaf .modifier "*"])
      [.name "MY_API".toList, .name "unsigned".toList, .specifier "const".toList, .name "int".toList, .modifier "*".toList] ∧
    Writable [.name "MY_API".toList, .name "unsigned".toList, .specifier "const".toList, .name "int".toList, .modifier "*".toList] ∧
    Spaced env0 ["MY_API".toList, "unsigned".toList, "int".toList] ∧
    parseType env0 (node .type [leaf .name "MY_API", leaf .name "unsigned", leaf .specifier "const", leaf .name "int", leaf .modifier "*"])
      none false = .ok (⟨["MY_API".toList, "const".toList], ["unsigned".toList, "int".toList], ["*".toList]⟩, false) := by
  refine ⟨⟨rfl, ?_⟩, ⟨by decide, by decide⟩, ?_, by decide +kernel⟩
  · refine .cons ⟨rfl, .inl rfl⟩ (.cons ⟨rfl, .inl rfl⟩ (.cons ⟨rfl, rfl⟩ (.cons ⟨rfl, .inl rfl⟩ (.cons ⟨rfl, rfl⟩ .nil))))
  · refine ⟨fun h => ?_, fun h => ?_, trivial⟩
    · have := (isApiName_iff env0 _).2 h.2; revert this; decide
    · have := (isApiName_iff env0 _).2 h.2; revert this; decide

theorem C58_type_fails : ¬ C58_type_statement := by
  intro h
  obtain ⟨t, h1, h2⟩ := h env0 (node .type [leaf .name "MY_API", leaf .name "MY_API_INLINE", leaf .name "int"])
    [.name "MY_API".toList, .name "MY_API_INLINE".toList, .name "int".toList]
    ⟨rfl, .cons ⟨rfl, .inl rfl⟩ (.cons ⟨rfl, .inl rfl⟩ (.cons ⟨rfl, .inl rfl⟩ .nil))⟩ ⟨by decide, by decide⟩
  have he : parseType env0 (node .type [leaf .name "MY_API", leaf .name "MY_API_INLINE", leaf .name "int"]) none false =
      .ok (⟨["MY_API".toList], ["MY_API_INLINE".toList, "int".toList], []⟩, false) := by decide +kernel
  rw [he] at h1
  cases h1
  obtain ⟨f, hf, hn⟩ := h2.names
  have hm : "MY_API_INLINE".toList ∈ (namesOf [.name "MY_API".toList, .name "MY_API_INLINE".toList, .name "int".toList]).filter f := by
    rw [← hn]; decide
  have := (hf _).1 (List.mem_filter.1 hm).2
  exact this ((isApiName_iff env0 _).1 (by decide))

/-- C58. Nothing is lost: the specifiers and the names together are those of the source, the modifiers are kept, and the names that are not
API names keep their order; an API name only moves to the specifiers. -/
theorem C58_nothing_lost (env : Env) (x : Xml) (ws : List Word) (previous : Previous) (op : Bool) (hx : TypeXml env x ws) (hw : Writable ws) :
    ∃ t, parseType env x previous op = .ok (t, false) ∧ t.modifiers = modifiersOf ws ∧
      (t.specifiers ++ t.typenames).Perm (specifiersOf ws ++ namesOf ws) ∧ specifiersOf ws <:+ t.specifiers ∧
      t.typenames.Sublist (namesOf ws) ∧
      ∀ f : Str → Bool, (∀ n, f n = true ↔ ¬ Api env n) → t.typenames.filter f = (namesOf ws).filter f := by
  obtain ⟨h1, h2⟩ := hx
  refine ⟨processApi env.apiPrefixes ⟨specifiersOf ws, namesOf ws, modifiersOf ws⟩, ?_, ?_⟩
  · unfold parseType
    rw [if_pos h1, typeFold env h2 _ hw.1]
    simp only [List.nil_append]
    show (inheritNames previous op _ >>= _) = _
    unfold inheritNames
    rw [lacksName_false hw]
    cases op <;> rfl
  · obtain ⟨h3, h4, h5, h6⟩ := apiLoop_perm env.apiPrefixes (namesOf ws).length 0 ⟨specifiersOf ws, namesOf ws, modifiersOf ws⟩
    refine ⟨h4, h3, h6, h5, fun f hf => ?_⟩
    have hfe : f = fun n => !isApiName env.apiPrefixes n := by
      funext n
      have h7 := hf n
      rw [← isApiName_iff] at h7
      cases h8 : isApiName env.apiPrefixes n <;> simp [h8] at h7 <;> simp [h7]
    rw [hfe]
    exact apiLoop_keeps env.apiPrefixes _ _ _

example : Writable [.name "MY_API".toList, .name "MY_API_INLINE".toList, .name "int".toList] := ⟨by decide, by decide⟩

/-- C58, full statement: a type written with a name keeps a name. -/
def C58_has_name_statement : Prop :=
  ∀ (env : Env) (x : Xml) (ws : List Word), TypeXml env x ws → Writable ws → namesOf ws ≠ [] →
    ∃ t, parseType env x none false = .ok (t, false) ∧ t.typenames ≠ []

/-- The type `MY_APIResult` has a name that starts with the API prefix. -/
theorem C58_has_name_fails : ¬ C58_has_name_statement := by
  intro h
  obtain ⟨t, h1, h2⟩ := h env0 (node .type [leaf .name "MY_APIResult"]) [.name "MY_APIResult".toList]
    ⟨rfl, .cons ⟨rfl, .inl rfl⟩ .nil⟩ ⟨by decide, by decide⟩ (by decide)
  have he : parseType env0 (node .type [leaf .name "MY_APIResult"]) none false = .ok (⟨["MY_APIResult".toList], [], []⟩, false) := by
    decide +kernel
  rw [he] at h1
  cases h1
  exact h2 rfl

/-- C58 (part): if one of its names is not an API name. -/
theorem C58_has_name_partial (env : Env) (x : Xml) (ws : List Word) (previous : Previous) (op : Bool) (hx : TypeXml env x ws)
    (hw : Writable ws) (n : Str) (hn : n ∈ namesOf ws) (ha : ¬ Api env n) :
    ∃ t, parseType env x previous op = .ok (t, false) ∧ n ∈ t.typenames := by
  obtain ⟨t, h1, _, _, _, _, h2⟩ := C58_nothing_lost env x ws previous op hx hw
  have := h2 (fun n => !isApiName env.apiPrefixes n) (fun n => by rw [← isApiName_iff]; simp)
  refine ⟨t, h1, ?_⟩
  have hm : n ∈ (namesOf ws).filter (fun n => !isApiName env.apiPrefixes n) :=
    List.mem_filter.2 ⟨hn, by rw [← isApiName_iff] at ha; simpa using ha⟩
  rw [← this] at hm
  exact (List.mem_filter.1 hm).1

example : "int".toList ∈ namesOf [.name "MY_API".toList, .name "int".toList] ∧ ¬ Api env0 "int".toList :=
  ⟨by decide, fun h => absurd ((isApiName_iff env0 _).2 h) (by decide)⟩

/-- C58. A modifier which is not `*`, `&`, `&&` or `...` is refused, with the exception that `fill_block` handles. -/
theorem C58_unknown_modifier (env : Env) (x : Xml) (ws : List Word) (previous : Previous) (op : Bool) (hx : TypeXml env x ws)
    (m : Str) (hm : m ∈ modifiersOf ws) (hn : m ∉ ["*".toList, "&".toList, "&&".toList, "...".toList]) :
    parseType env x previous op = .error .detailed := by
  obtain ⟨h1, h2⟩ := hx
  unfold parseType
  rw [if_pos h1]
  have : ∀ t : CppType, x.children.foldlM (typeChild env) t = .error .detailed := by
    clear h1
    generalize x.children = l at h2
    induction h2 with
    | nil => simp [modifiersOf] at hm
    | @cons c w cs ws hc _ ih =>
      intro t
      rw [List.foldlM_cons]
      cases w with
      | specifier s =>
        have : typeChild env t c = .ok { t with specifiers := t.specifiers ++ [s] } := by
          unfold typeChild; rw [hc.1]; simp [hc.2]
        rw [this]
        exact ih (by simpa [modifiersOf] using hm) _
      | name n =>
        have : typeChild env t c = .ok { t with typenames := t.typenames ++ [recomposeTypeName env c] } := by
          unfold typeChild; rw [hc.1]
        rw [this]
        exact ih (by simpa [modifiersOf] using hm) _
      | modifier m' =>
        by_cases hmem : m' ∈ authorizedModifiers
        · have : typeChild env t c = .ok { t with modifiers := t.modifiers ++ [m'] } := by
            unfold typeChild; rw [hc.1]; simp [hc.2, hmem]
          rw [this]
          refine ih ?_ _
          simp only [modifiersOf, List.filterMap_cons, List.mem_cons] at hm
          rcases hm with hm | hm
          · subst hm; exact absurd hmem hn
          · exact hm
        · have : typeChild env t c = .error .detailed := by
            unfold typeChild; rw [hc.1]; simp [hc.2, hmem]
          rw [this]; rfl
  rw [this]; rfl

example : "^".toList ∈ modifiersOf [.name "Foo".toList, .modifier "^".toList] ∧
    "^".toList ∉ ["*".toList, "&".toList, "&&".toList, "...".toList] := by decide

/-! ### C57: statements that declare several variables -/

/-- C57, full statement: each declarator stands for a declaration with the words of the statement and its own modifiers; it keeps its name,
its array sizes, its initial value, the comments of the statement and its own. -/
def C57_statement : Prop :=
  ∀ (env : Env) (x : Xml) (base : List Word) (d : Declarator) (ds : List Declarator) (c : Comments), StmtXml env x base d ds →
    modifiersOf base = [] → namesOf base ≠ [] → (∀ n ∈ namesOf base, ¬ Api env n) →
    (∀ e ∈ d :: ds, ∀ m ∈ e.modifiers, m = "*".toList ∨ m = "&".toList ∨ m = "&&".toList) →
    ∃ rs, parseDeclStmt env x c = .ok rs ∧ List.Forall₂ (fun e r => DeclOf env c (e.decl base) r) (d :: ds) rs

/-- C57. What the statements give: the first declarator gets everything; the others get the names of the type (without API names), and
their own modifiers, names, values and comments, but none of the specifiers of the statement. -/
theorem C57_declarators (env : Env) (x : Xml) (base : List Word) (d : Declarator) (ds : List Declarator) (c : Comments)
    (hx : StmtXml env x base d ds) (hb : modifiersOf base = []) (hs : Spaced env (namesOf base))
    (f : Str → Bool) (hf : ∀ n, f n = true ↔ ¬ Api env n) (hne : (namesOf base).filter f ≠ [])
    (hm : ∀ e ∈ d :: ds, ∀ m ∈ e.modifiers, m = "*".toList ∨ m = "&".toList ∨ m = "&&".toList) :
    ∃ r rs, parseDeclStmt env x c = .ok (r :: rs) ∧ DeclOf env c (d.decl base) r ∧
      List.Forall₂ (fun e r => DeclOf env c (e.decl (((namesOf base).filter f).map .name)) r) ds rs := by
  obtain ⟨htag, y, cs, ys, hch, hy, hcs, hys⟩ := hx
  have hnames : namesOf (base ++ d.modifiers.map .modifier) = namesOf base := by
    rw [namesOf_append, namesOf_modifiers, List.append_nil]
  have hmods : modifiersOf (base ++ d.modifiers.map .modifier) = d.modifiers := by
    rw [modifiersOf_append, hb, modifiersOf_modifiers]; rfl
  have hgood : GoodType env (base ++ d.modifiers.map .modifier) := by
    refine ⟨⟨?_, .inl ?_⟩, ?_⟩
    · rw [hmods]; intro m hh
      rcases hm d (by simp) m hh with h | h | h
      · exact .inl h
      · exact .inr (.inl h)
      · exact .inr (.inr (.inl h))
    · rw [hnames]; intro he; rw [he] at hne; exact hne rfl
    · rw [hnames]; exact hs
  obtain ⟨t, ht, hto⟩ := typeXml_ok env hgood none
  obtain ⟨r, h1, h2, h3, h4, h5, h6, h7⟩ := parseDecl_with hy c none ht
  obtain ⟨s, hs'⟩ := extractName_decl hy rfl
  have htn : t.typenames = (namesOf base).filter f := by
    obtain ⟨f', hf', he⟩ := hto.names
    rw [he, hnames]
    apply List.filter_congr
    intro n _
    have h8 := hf n; have h9 := hf' n
    cases h10 : f n <;> cases h11 : f' n <;> simp_all
  have hstep : declStmtChild env c [] y = .ok [r] := by
    unfold declStmtChild
    rw [hy.1]
    simp only [hs', List.head?_nil, Option.map_none, h1]
    show Except.ok (pushDecl [] r) = _
    unfold pushDecl
    rw [h3]
  obtain ⟨rs, h8, h9⟩ := nextFold (c := c) (names := (namesOf base).filter f) hne
    (fun n hn => (hf n).1 (List.mem_filter.1 hn).2) hys (fun e he => hm e (by simp [he]))
    [{ r with comments := { r.comments with endOfLine := joined r.comments.endOfLine d.after } }] (by simp)
    (by intro e he; rw [List.mem_singleton] at he; subst he; exact ⟨t, h2, htn⟩)
  refine ⟨{ r with comments := { r.comments with endOfLine := joined r.comments.endOfLine d.after } }, rs, ?_, ?_, h9⟩
  · unfold parseDeclStmt
    rw [if_pos htag, hch, foldlM_ok_cons hstep, foldlM_ok_append (stmtComments env c hcs r []), h8]
    simp [bind, Except.bind]
  · refine ⟨⟨t, h2, hto⟩, h4, ?_, h6, ?_, ?_⟩
    · unfold Declarator.decl; revert h5; cases d.init <;> exact id
    · show r.comments.previousLines = _; rw [h7]
    · show joined r.comments.endOfLine d.after = joined c.endOfLine (d.comments ++ d.after)
      rw [h7, joined_append]

/-- `static int a = 1, *b[3] // text` -/
def stmt2 : Xml := node .declStmt
  [node .decl [node .type [leaf .specifier "static", leaf .name "int"], leaf .name "a", node .init [node .expr [leaf .literal "1"]]],
   node .decl [node .type [leaf .modifier "*"], leaf .name "b[3]"], leaf .comment "// text"]

theorem stmt2_xml : StmtXml env0 stmt2 [.specifier "static".toList, .name "int".toList] ⟨[], "a".toList, .value "1".toList, [], [], none⟩
    [⟨["*".toList], "b[3]".toList, .none, [], ["// text".toList], none⟩] := by
  refine ⟨rfl, _, [], _, rfl, ⟨rfl, _, [leaf .name "a"], [], [node .init [node .expr [leaf .literal "1"]]], [], rfl, ⟨rfl, ?_⟩, ?_, rfl, ?_,
    .nil⟩, .nil, ?_⟩
  · exact .cons ⟨rfl, rfl⟩ (.cons ⟨rfl, .inl rfl⟩ .nil)
  · exact ⟨_, _, rfl, ⟨rfl, .inl rfl⟩, rfl⟩
  · exact ⟨_, _, rfl, rfl, ⟨[], [], rfl, rfl, by simp⟩, rfl, .inl ⟨_, rfl, .inl rfl, rfl⟩⟩
  · refine .cons _ [leaf .comment "// text"] [] _ _ ⟨rfl, _, [leaf .name "b[3]"], [], [], [], rfl, ⟨rfl, .cons ⟨rfl, rfl⟩ .nil⟩, ?_, rfl,
      rfl, .nil⟩ (.cons ⟨rfl, rfl⟩ .nil) .nil
    exact ⟨_, _, rfl, ⟨rfl, .inl rfl⟩, rfl⟩

example : StmtXml env0 stmt2 [.specifier "static".toList, .name "int".toList] ⟨[], "a".toList, .value "1".toList, [], [], none⟩
      [⟨["*".toList], "b[3]".toList, .none, [], ["// text".toList], none⟩] ∧
    parseDeclStmt env0 stmt2 ⟨"doc".toList, []⟩ =
      .ok [{ cppType := some ⟨["static".toList], ["int".toList], []⟩, name := "a".toList, initialValue := "1".toList,
             comments := ⟨"doc".toList, []⟩ },
           { cppType := some ⟨[], ["int".toList], ["*".toList]⟩, name := "b".toList, arrayCode := "[3]".toList, sharesNames := true,
             comments := ⟨"doc".toList, " text".toList⟩ }] := ⟨stmt2_xml, by decide +kernel⟩

theorem C57_fails : ¬ C57_statement := by
  intro h
  obtain ⟨rs, h1, h2⟩ := h env0 stmt2 _ _ _ ⟨"doc".toList, []⟩ stmt2_xml (by decide) (by decide)
    (by
      intro n hn ha
      have := (isApiName_iff env0 n).2 ha
      have hn' : n = "int".toList := by simpa [namesOf] using hn
      subst hn'
      revert this; decide)
    (by decide)
  have he : parseDeclStmt env0 stmt2 ⟨"doc".toList, []⟩ =
      .ok [{ cppType := some ⟨["static".toList], ["int".toList], []⟩, name := "a".toList, initialValue := "1".toList,
             comments := ⟨"doc".toList, []⟩ },
           { cppType := some ⟨[], ["int".toList], ["*".toList]⟩, name := "b".toList, arrayCode := "[3]".toList, sharesNames := true,
             comments := ⟨"doc".toList, " text".toList⟩ }] := by decide +kernel
  rw [he] at h1
  cases h1
  cases h2 with
  | cons _ h2 =>
    cases h2 with
    | cons h3 _ =>
      obtain ⟨t, ht, ho⟩ := h3.type
      cases ht
      obtain ⟨f, _, hs⟩ := ho.specifiers
      have := congrArg List.length hs
      simp [specifiersOf, Declarator.decl] at this

/-- C57 (part): if the statement has no specifiers and no API names, or declares one variable. -/
theorem C57_partial (env : Env) (x : Xml) (base : List Word) (d : Declarator) (ds : List Declarator) (c : Comments)
    (hx : StmtXml env x base d ds) (hb : modifiersOf base = []) (hne : namesOf base ≠ []) (hapi : ∀ n ∈ namesOf base, ¬ Api env n)
    (hm : ∀ e ∈ d :: ds, ∀ m ∈ e.modifiers, m = "*".toList ∨ m = "&".toList ∨ m = "&&".toList)
    (hsp : specifiersOf base = [] ∨ ds = []) :
    ∃ rs, parseDeclStmt env x c = .ok rs ∧ List.Forall₂ (fun e r => DeclOf env c (e.decl base) r) (d :: ds) rs := by
  have hs : Spaced env (namesOf base) := by
    generalize namesOf base = names at hapi
    clear hne
    induction names with
    | nil => trivial
    | cons a r ih =>
      cases r with
      | nil => trivial
      | cons b r' => exact ⟨fun h => hapi a (by simp) h.1, ih (fun n hn => hapi n (by simp [hn]))⟩
  have hfilter : (namesOf base).filter (fun n => !isApiName env.apiPrefixes n) = namesOf base := by
    rw [List.filter_eq_self]; intro n hn
    have := hapi n hn
    rw [← isApiName_iff] at this; simpa using this
  obtain ⟨r, rs, h1, h2, h3⟩ := C57_declarators env x base d ds c hx hb hs (fun n => !isApiName env.apiPrefixes n)
    (fun n => by rw [← isApiName_iff]; simp) (by rw [hfilter]; exact hne) hm
  refine ⟨r :: rs, h1, .cons h2 ?_⟩
  rcases hsp with hsp | hsp
  · rw [hfilter] at h3
    refine h3.imp (fun e r hr => ?_)
    obtain ⟨⟨t, ht, ho⟩, h4, h5, h6, h7, h8⟩ := hr
    refine ⟨⟨t, ht, ?_⟩, h4, h5, h6, h7, h8⟩
    obtain ⟨hom, hon, hos⟩ := ho
    unfold Declarator.decl at hom hon hos ⊢
    simp only [modifiersOf_append, modifiersOf_names, namesOf_append, namesOf_names, specifiersOf_append, specifiersOf_names] at hom hon hos
    refine ⟨?_, ?_, ?_⟩
    · rw [hom]; simp [modifiersOf_append, hb]
    · obtain ⟨f, hf, he⟩ := hon; exact ⟨f, hf, by rw [he]; simp [namesOf_append]⟩
    · obtain ⟨f, hf, he⟩ := hos; exact ⟨f, hf, by rw [he]; simp [namesOf_append, specifiersOf_append, hsp]⟩
  · subst hsp
    cases h3; exact .nil

/-- `unsigned int a, b;` -/
example : specifiersOf [.name "unsigned".toList, .name "int".toList] = [] ∧ namesOf [.name "unsigned".toList, .name "int".toList] ≠ [] ∧
    modifiersOf [.name "unsigned".toList, .name "int".toList] = [] := by decide

/-! ### C60: declarations -/

/-- C60, full statement: a declaration keeps its type, its name, the sizes of its array, its bit field, its initial value and its comments. -/
def C60_declaration_statement : Prop :=
  ∀ (env : Env) (x : Xml) (w : WDecl) (c : Comments), DeclXml env x w → Writable w.words →
    ∃ d, parseDecl env x c none = .ok d ∧ DeclOf env c w d

/-- C60 (part): if no two API names follow each other. -/
theorem C60_declaration_partial (env : Env) (x : Xml) (w : WDecl) (c : Comments) (previous : Previous) (hx : DeclXml env x w)
    (hw : Writable w.words) (hs : Spaced env (namesOf w.words)) : ∃ d, parseDecl env x c previous = .ok d ∧ DeclOf env c w d := by
  obtain ⟨d, h1, h2, _⟩ := parseDecl_good hx ⟨hw, hs⟩ c previous
  exact ⟨d, h1, h2⟩

/-- `int m[2][3] = {1, x}` -/
example : ∃ x, DeclXml env0 x ⟨[.name "int".toList], some "m[2][3]".toList, .list ["1".toList, "x".toList], [], none⟩ ∧
    parseDecl env0 x {} none = .ok
      { cppType := some ⟨[], ["int".toList], []⟩, name := "m".toList, arrayCode := "[2][3]".toList,
        initialValue := "{1, x}".toList, viaInitializerList := true } := by
  refine ⟨node .decl [node .type [leaf .name "int"], leaf .name "m[2][3]",
    node .argumentList [node .argument [node .expr [leaf .literal "1"]], node .argument [node .expr [leaf .name "x"]]]],
    ⟨rfl, _, [leaf .name "m[2][3]"], [], [_], [], rfl, ⟨rfl, .cons ⟨rfl, .inl rfl⟩ .nil⟩, ⟨_, _, rfl, ⟨rfl, .inl rfl⟩, rfl⟩, rfl, ?_, .nil⟩,
    by decide +kernel⟩
  refine ⟨_, rfl, rfl, by decide, .cons ⟨_, ⟨[], [], rfl, rfl, by simp⟩, rfl, .inl ⟨_, rfl, .inl rfl, rfl⟩⟩
    (.cons ⟨_, ⟨[], [], rfl, rfl, by simp⟩, rfl, .inl ⟨_, rfl, .inr rfl, rfl⟩⟩ .nil)⟩

theorem C60_declaration_fails : ¬ C60_declaration_statement := by
  intro h
  let x := node .decl [node .type [leaf .name "MY_API", leaf .name "MY_API_INLINE", leaf .name "int"], leaf .name "a"]
  obtain ⟨d, h1, h2⟩ := h env0 x ⟨[.name "MY_API".toList, .name "MY_API_INLINE".toList, .name "int".toList], some "a".toList, .none, [], none⟩ {}
    ⟨rfl, _, [leaf .name "a"], [], [], [], rfl, ⟨rfl, .cons ⟨rfl, .inl rfl⟩ (.cons ⟨rfl, .inl rfl⟩ (.cons ⟨rfl, .inl rfl⟩ .nil))⟩,
      ⟨_, _, rfl, ⟨rfl, .inl rfl⟩, rfl⟩, rfl, rfl, .nil⟩ ⟨by decide, by decide⟩
  have he : parseDecl env0 x {} none =
      .ok { cppType := some ⟨["MY_API".toList], ["MY_API_INLINE".toList, "int".toList], []⟩, name := "a".toList } := by decide +kernel
  rw [he] at h1
  cases h1
  obtain ⟨t, ht, ho⟩ := h2.type
  cases ht
  obtain ⟨f, hf, hn⟩ := ho.names
  have hm : "MY_API_INLINE".toList ∈ (namesOf [.name "MY_API".toList, .name "MY_API_INLINE".toList, .name "int".toList]).filter f := by
    rw [← hn]; decide
  exact (hf _).1 (List.mem_filter.1 hm).2 ((isApiName_iff env0 _).1 (by decide))

/-! ### C59: functions -/

/-- C59, full statement: the declaration of a function keeps its name, its return type, all its parameters in order with their default
values, its specifiers, whether it is pure virtual or `noexcept`, its template parameters and its comments. -/
def C59_function_statement : Prop :=
  ∀ (env : Env) (x : Xml) (w : WFunc) (c : Comments), x.tag = .functionDecl → FuncXml env x w → Tail.memberInit ∉ w.tail →
    Writable w.ret → (∀ p ∈ w.params, Writable p.words) → GoodTemplate env w.template →
    ∃ f, parseFunctionDecl env x c = .ok f ∧ FuncOf env .functionDecl c w f

/-- C59 (part): if no two API names follow each other in a type. -/
theorem C59_function_decl_partial (env : Env) (x : Xml) (w : WFunc) (c : Comments) (hx : x.tag = .functionDecl) (hf : FuncXml env x w)
    (hm : Tail.memberInit ∉ w.tail) (hr : GoodType env w.ret) (hp : ∀ p ∈ w.params, GoodType env p.words)
    (ht : GoodTemplate env w.template) : ∃ f, parseFunctionDecl env x c = .ok f ∧ FuncOf env .functionDecl c w f := by
  obtain ⟨ts, t, n, ps, tail, h1, h2, h3, h4, h5, h6⟩ := hf
  obtain ⟨tp, rt, qs, h7, h8, h9, h10⟩ := functionHead (.inl hx) { kind := .functionDecl, comments := c } rfl rfl ht hr hp (tail := tail)
    h2 h3 h4 h5
  have hok := h7.trans (tailFold env x h6 hm _)
  rw [← h1] at hok
  refine ⟨_, (if_pos (.inl hx)).trans hok, rfl, rfl, ⟨rt, rfl, h9⟩, ⟨qs, rfl, h10⟩, ?_, ?_, ?_, h8, ?_, rfl⟩
  · simp
  · simp
  · show (tailNoexcept w.tail).or none = _; simp
  · simp

theorem bodyFold {env : Env} {cs : List Xml} {ts : List Tail} (h : List.Forall₂ (TailXml env) cs ts)
    (hm : Tail.memberInit ∉ ts) (hp : Tail.pure ∉ ts) : ∀ f : Func,
      cs.foldlM functionBodyChild f = .ok { f with hasBody := f.hasBody || decide (Tail.body ∈ ts) } := by
  induction h with
  | nil => intro f; cases f; simp [pure, Except.pure]
  | @cons c t cs ts hc _ ih =>
    intro f
    have ih := ih (fun hh => hm (List.mem_cons_of_mem _ hh)) (fun hh => hp (List.mem_cons_of_mem _ hh))
    cases t with
    | specifier s =>
      rw [foldlM_ok_cons (b := f)]
      · rw [ih]; simp
      · unfold functionBodyChild; rw [hc.1]
    | noexcept_ o =>
      rw [foldlM_ok_cons (b := f)]
      · rw [ih]; simp
      · unfold functionBodyChild; rw [(noexcept_good hc).1]
    | pure => simp at hp
    | «attribute» =>
      rw [foldlM_ok_cons (b := f)]
      · rw [ih]; simp
      · unfold functionBodyChild; rw [show c.tag = .attribute from hc]
    | memberInit => simp at hm
    | body =>
      rw [foldlM_ok_cons (b := { f with hasBody := true })]
      · rw [ih]; simp
      · unfold functionBodyChild; rw [show c.tag = .block from hc]

theorem bodySkip {cs : List Xml} (h : ∀ c ∈ cs, c.tag = .template_ ∨ c.tag = .type ∨ c.tag = .name ∨ c.tag = .parameterList) (f : Func) :
    cs.foldlM functionBodyChild f = .ok f := by
  induction cs with
  | nil => rfl
  | cons c cs ih =>
    rw [foldlM_ok_cons (b := f)]
    · exact ih (fun c hc => h c (by simp [hc]))
    · unfold functionBodyChild
      rcases h c (by simp) with h | h | h | h <;> rw [h]

/-- C59 (part): a function with a body. -/
theorem C59_function_partial (env : Env) (x : Xml) (w : WFunc) (c : Comments) (hx : x.tag = .function) (hf : FuncXml env x w)
    (hm : Tail.memberInit ∉ w.tail) (hpure : Tail.pure ∉ w.tail) (hr : GoodType env w.ret) (hp : ∀ p ∈ w.params, GoodType env p.words)
    (ht : GoodTemplate env w.template) : ∃ f, parseFunction env x c = .ok f ∧ FuncOf env .function c w f := by
  obtain ⟨ts, t, n, ps, tail, h1, h2, h3, h4, h5, h6⟩ := hf
  obtain ⟨tp, rt, qs, h7, h8, h9, h10⟩ := functionHead (.inr hx) { kind := .function, comments := c } rfl rfl ht hr hp (tail := tail)
    h2 h3 h4 h5
  have hn : n.tag = .name := by
    rcases h4 with ⟨s, h, _⟩ | ⟨_, _, h, _⟩
    · exact h.1
    · exact h
  have htags : ∀ d ∈ ts ++ [t, n, ps], d.tag = .template_ ∨ d.tag = .type ∨ d.tag = .name ∨ d.tag = .parameterList := by
    intro d hd
    simp only [List.mem_append, List.mem_cons, List.not_mem_nil, or_false] at hd
    rcases hd with hd | rfl | rfl | rfl
    · cases hw : w.template with
      | none => rw [hw] at h2; unfold TemplateXml at h2; subst h2; simp at hd
      | some ws => rw [hw] at h2; obtain ⟨a, l, rfl, h, _⟩ := h2; simp at hd; subst hd; exact .inl h
    · exact .inr (.inl h3.1)
    · exact .inr (.inr (.inl hn))
    · exact .inr (.inr (.inr h5.1))
  have hok := h7.trans (tailFold env x h6 hm _)
  rw [← h1] at hok
  have hbody : ∀ f : Func, x.children.foldlM functionBodyChild f = .ok { f with hasBody := f.hasBody || decide (Tail.body ∈ w.tail) } := by
    intro f
    rw [h1, show ts ++ t :: n :: ps :: tail = (ts ++ [t, n, ps]) ++ tail by simp, foldlM_ok_append (bodySkip htags _), bodyFold h6 hm hpure]
  have hall : ∀ f, fillFunctionDecl env x { kind := .function, comments := c } = .ok f →
      parseFunction env x c = x.children.foldlM functionBodyChild f := by
    intro f hf
    unfold parseFunction
    rw [if_pos (.inl hx), hf]
    rfl
  refine ⟨_, (hall _ hok).trans (hbody _), rfl, rfl, ⟨rt, rfl, h9⟩, ⟨qs, rfl, h10⟩, ?_, ?_, ?_, h8, ?_, rfl⟩
  · simp
  · simp
  · show (tailNoexcept w.tail).or none = _; simp
  · simp

/-- `template<typename T> MY_API virtual void f(T a, int = 3) const noexcept = 0;` -/
def fun1 : Xml := node .functionDecl
  [node .template_ [node .parameterList [node .parameter [node .type [leaf .name "typename"], leaf .name "T"]]],
   node .type [leaf .name "MY_API", leaf .specifier "virtual", leaf .name "void"], leaf .name "f",
   node .parameterList [node .parameter [node .decl [node .type [leaf .name "T"], leaf .name "a"]],
     node .parameter [node .decl [node .type [leaf .name "int"], node .init [node .expr [leaf .literal "3"]]]]],
   leaf .specifier "const", node .noexcept_ [], leaf .literal "0"]

def wfun1 : WFunc := ⟨some [.type "typename".toList "T".toList none], [.name "MY_API".toList, .specifier "virtual".toList, .name "void".toList],
  "f".toList, [⟨[.name "T".toList], some "a".toList, .none, [], none⟩, ⟨[.name "int".toList], none, .value "3".toList, [], none⟩],
  [.specifier "const".toList, .noexcept_ none, .pure]⟩

theorem fun1_xml : FuncXml env0 fun1 wfun1 := by
  refine ⟨[_], _, _, _, _, rfl, ?_, ⟨rfl, ?_⟩, .inl ⟨"f".toList, ⟨rfl, .inl rfl⟩, rfl, by decide⟩, ⟨rfl, by decide, ?_⟩, ?_⟩
  · exact ⟨_, _, rfl, rfl, rfl, rfl, by decide, .cons ⟨rfl, _, _, rfl, rfl, ⟨_, ⟨[], [], rfl, rfl, by simp⟩, rfl⟩, rfl, rfl⟩ .nil⟩
  · exact .cons ⟨rfl, .inl rfl⟩ (.cons ⟨rfl, rfl⟩ (.cons ⟨rfl, .inl rfl⟩ .nil))
  · refine .cons ⟨rfl, _, rfl, rfl, _, [leaf .name "a"], [], [], [], rfl, ⟨rfl, .cons ⟨rfl, .inl rfl⟩ .nil⟩, ⟨_, _, rfl, ⟨rfl, .inl rfl⟩,
      rfl⟩, rfl, rfl, .nil⟩ (.cons ⟨rfl, _, rfl, rfl, _, [], [], [_], [], rfl, ⟨rfl, .cons ⟨rfl, .inl rfl⟩ .nil⟩, rfl, rfl, ?_, .nil⟩ .nil)
    exact ⟨_, _, rfl, rfl, ⟨[], [], rfl, rfl, by simp⟩, rfl, .inl ⟨_, rfl, .inl rfl, rfl⟩⟩
  · exact .cons ⟨rfl, rfl⟩ (.cons ⟨rfl, by decide⟩ (.cons ⟨rfl, _, rfl, by decide⟩ .nil))

example : FuncXml env0 fun1 wfun1 ∧ fun1.tag = .functionDecl ∧ Tail.memberInit ∉ wfun1.tail ∧
    parseFunctionDecl env0 fun1 {} = .ok
      { kind := .functionDecl, returnType := some ⟨["MY_API".toList, "virtual".toList], ["void".toList], []⟩, name := "f".toList,
        params := some [{ decl := some { cppType := some ⟨[], ["T".toList], []⟩, name := "a".toList } },
          { decl := some { cppType := some ⟨[], ["int".toList], []⟩, initialValue := "3".toList } }],
        specifiers := ["const".toList], template := some [{ templateType := some "typename".toList, templateName := "T".toList }],
        pureVirtual := true, noexcept_ := some [] } := ⟨fun1_xml, by decide, by decide, by decide +kernel⟩

/-- `MY_API MY_API_INLINE void f();` -/
def fun2 : Xml := node .functionDecl
  [node .type [leaf .name "MY_API", leaf .name "MY_API_INLINE", leaf .name "void"], leaf .name "f", node .parameterList []]

theorem C59_function_fails : ¬ C59_function_statement := by
  intro h
  obtain ⟨f, h1, h2⟩ := h env0 fun2 ⟨none, [.name "MY_API".toList, .name "MY_API_INLINE".toList, .name "void".toList], "f".toList, [], []⟩ {} rfl
    ⟨[], _, _, _, _, rfl, rfl, ⟨rfl, .cons ⟨rfl, .inl rfl⟩ (.cons ⟨rfl, .inl rfl⟩ (.cons ⟨rfl, .inl rfl⟩ .nil))⟩,
      .inl ⟨"f".toList, ⟨rfl, .inl rfl⟩, rfl, by decide⟩, ⟨rfl, by decide, .nil⟩, .nil⟩ (by decide) ⟨by decide, by decide⟩ (by simp)
    (fun ws hws => by cases hws)
  have he : parseFunctionDecl env0 fun2 {} = .ok
      { kind := .functionDecl, returnType := some ⟨["MY_API".toList], ["MY_API_INLINE".toList, "void".toList], []⟩, name := "f".toList,
        params := some [] } := by decide +kernel
  rw [he] at h1
  cases h1
  obtain ⟨t, ht, ho⟩ := h2.ret
  cases ht
  obtain ⟨f, hf, hn⟩ := ho.names
  have hm : "MY_API_INLINE".toList ∈ (namesOf [.name "MY_API".toList, .name "MY_API_INLINE".toList, .name "void".toList]).filter f := by
    rw [← hn]; decide
  exact (hf _).1 (List.mem_filter.1 hm).2 ((isApiName_iff env0 _).1 (by decide))

/-- C59, full statement: the same for the constructors, with or without body. -/
def C59_constructor_statement : Prop :=
  ∀ (env : Env) (x : Xml) (w : WFunc) (c : Comments), CtorXml env x w → Tail.pure ∉ w.tail → (∀ p ∈ w.params, GoodType env p.words) →
    w.template = none →
    (x.tag = .constructorDecl → Tail.memberInit ∉ w.tail → ∃ f, parseConstructorDecl env x c = .ok f ∧ CtorOf env .constructorDecl c w f) ∧
    (x.tag = .constructor → ∃ f, parseConstructor env x c = .ok f ∧ CtorOf env .constructor c w f)

theorem ctorFold (env : Env) {cs : List Xml} {ts : List Tail} (h : List.Forall₂ (TailXml env) cs ts) (hp : Tail.pure ∉ ts) :
    ∀ f : Func, cs.foldlM (constructorChild env) f =
      .ok { f with specifiers := f.specifiers ++ tailSpecifiers ts, noexcept_ := (tailNoexcept ts).or f.noexcept_ } := by
  induction h with
  | nil => intro f; simp [tailSpecifiers, tailNoexcept, pure, Except.pure]
  | @cons c t cs ts hc _ ih =>
    intro f
    have ih := ih (fun hh => hp (List.mem_cons_of_mem _ hh))
    cases t with
    | specifier s =>
      rw [foldlM_ok_cons (b := { f with specifiers := f.specifiers ++ [s] })]
      · rw [ih]; simp [tailSpecifiers, tailNoexcept]
      · unfold constructorChild; rw [hc.1]; simp only [hc.2]
    | noexcept_ o =>
      obtain ⟨h1, h2⟩ := noexcept_good hc
      rw [foldlM_ok_cons (b := { f with noexcept_ := some (o.getD []) })]
      · rw [ih, tailNoexcept_cons o ts f.noexcept_]; simp [tailSpecifiers]
      · unfold constructorChild; rw [h1]; simp only [h2]
    | pure => simp at hp
    | «attribute» =>
      rw [foldlM_ok_cons (b := f)]
      · rw [ih]; simp [tailSpecifiers, tailNoexcept]
      · unfold constructorChild; rw [show c.tag = .attribute from hc]
    | memberInit =>
      rw [foldlM_ok_cons (b := f)]
      · rw [ih]; simp [tailSpecifiers, tailNoexcept]
      · unfold constructorChild; rw [show c.tag = .memberInitList from hc]
    | body =>
      rw [foldlM_ok_cons (b := f)]
      · rw [ih]; simp [tailSpecifiers, tailNoexcept]
      · unfold constructorChild; rw [show c.tag = .block from hc]

theorem ctorBodyFold {env : Env} {cs : List Xml} {ts : List Tail} (h : List.Forall₂ (TailXml env) cs ts) (hp : Tail.pure ∉ ts)
    (hn : ∀ o, Tail.noexcept_ o ∉ ts) : ∀ f : Func, cs.foldlM constructorBodyChild f =
      .ok { f with hasBody := f.hasBody || decide (Tail.body ∈ ts), hasMemberInit := f.hasMemberInit || decide (Tail.memberInit ∈ ts) } := by
  induction h with
  | nil => intro f; cases f; simp [pure, Except.pure]
  | @cons c t cs ts hc _ ih =>
    intro f
    have ih := ih (fun hh => hp (List.mem_cons_of_mem _ hh)) (fun o hh => hn o (List.mem_cons_of_mem _ hh))
    cases t with
    | specifier s =>
      rw [foldlM_ok_cons (b := f)]
      · rw [ih]; simp
      · unfold constructorBodyChild; rw [hc.1]
    | noexcept_ o => exact absurd (by simp) (hn o)
    | pure => simp at hp
    | «attribute» =>
      rw [foldlM_ok_cons (b := f)]
      · rw [ih]; simp
      · unfold constructorBodyChild; rw [show c.tag = .attribute from hc]
    | memberInit =>
      rw [foldlM_ok_cons (b := { f with hasMemberInit := true })]
      · rw [ih]; simp
      · unfold constructorBodyChild; rw [show c.tag = .memberInitList from hc]
    | body =>
      rw [foldlM_ok_cons (b := { f with hasBody := true })]
      · rw [ih]; simp
      · unfold constructorBodyChild; rw [show c.tag = .block from hc]

/-- C59 (part): the constructors, but for those which are `noexcept` and have a body. -/
theorem C59_constructor_partial (env : Env) (x : Xml) (w : WFunc) (c : Comments) (hx : CtorXml env x w) (hp : Tail.pure ∉ w.tail)
    (hw : ∀ p ∈ w.params, GoodType env p.words) (ht : w.template = none) :
    (x.tag = .constructorDecl → Tail.memberInit ∉ w.tail → ∃ f, parseConstructorDecl env x c = .ok f ∧ CtorOf env .constructorDecl c w f) ∧
    (x.tag = .constructor → (∀ o, Tail.noexcept_ o ∉ w.tail) → ∃ f, parseConstructor env x c = .ok f ∧ CtorOf env .constructor c w f) := by
  obtain ⟨ts, n, ps, tail, h1, h2, ⟨s, h3, h3'⟩, h4, h5⟩ := hx
  rw [ht] at h2
  unfold TemplateXml at h2
  subst h2
  obtain ⟨qs, h6, h7⟩ := parseParameterList_good h4 hw
  have hhead : ∀ k, ([] ++ n :: ps :: tail).foldlM (constructorChild env) { kind := k, comments := c } =
      .ok { kind := k, comments := c, name := w.name, params := some qs, specifiers := [] ++ tailSpecifiers w.tail,
            noexcept_ := (tailNoexcept w.tail).or none } := by
    intro k
    rw [List.nil_append, foldlM_ok_cons (b := { kind := k, comments := c, name := w.name }),
      foldlM_ok_cons (b := { kind := k, comments := c, name := w.name, params := some qs }), ctorFold env h5 hp]
    · unfold constructorChild; rw [h4.1]; simp only [h6]; rfl
    · unfold constructorChild; rw [h3.1]; simp only [parseName_names h3, h3']; rfl
  rw [← h1] at hhead
  refine ⟨fun hk hmi => ⟨_, (if_pos hk).trans (hhead _), rfl, rfl, ⟨qs, rfl, h7⟩, by simp, ?_, ?_, by simp, by simp, rfl⟩, fun hk hno => ?_⟩
  · show (tailNoexcept w.tail).or none = _; simp
  · rw [ht]; rfl
  · have hbody : ∀ f : Func, x.children.foldlM constructorBodyChild f =
        .ok { f with hasBody := f.hasBody || decide (Tail.body ∈ w.tail), hasMemberInit := f.hasMemberInit || decide (Tail.memberInit ∈ w.tail) } := by
      intro f
      rw [h1, List.nil_append, foldlM_ok_cons (b := f), foldlM_ok_cons (b := f), ctorBodyFold h5 hp hno]
      · unfold constructorBodyChild; rw [h4.1]
      · unfold constructorBodyChild; rw [h3.1]
    have hall : ∀ f, fillConstructorDecl env x { kind := .constructor, comments := c } = .ok f →
        parseConstructor env x c = x.children.foldlM constructorBodyChild f := by
      intro f hf
      unfold parseConstructor
      rw [if_pos hk, hf]
      rfl
    refine ⟨_, (hall _ (hhead _)).trans (hbody _), rfl, rfl, ⟨qs, rfl, h7⟩, by simp, ?_, ?_, by simp, by simp, rfl⟩
    · show (tailNoexcept w.tail).or none = _; simp
    · rw [ht]; rfl

/-- `Foo() noexcept {}` -/
def ctor1 : Xml := node .constructor [leaf .name "Foo", node .parameterList [], node .noexcept_ [], leaf .block "{}"]

theorem C59_constructor_fails : ¬ C59_constructor_statement := by
  intro h
  obtain ⟨f, h1, _⟩ := (h env0 ctor1 ⟨none, [], "Foo".toList, [], [.noexcept_ none, .body]⟩ {}
    ⟨[], _, _, _, rfl, rfl, ⟨"Foo".toList, ⟨rfl, .inl rfl⟩, rfl⟩, ⟨rfl, by decide, .nil⟩,
      .cons ⟨rfl, by decide⟩ (.cons rfl .nil)⟩ (by decide) (by simp) rfl).2 rfl
  have he : parseConstructor env0 ctor1 {} = .error .detailed := by decide +kernel
  rw [he] at h1
  cases h1

/-- `Foo(int a) : x(a) {}` -/
example : ∃ w, CtorXml env0 (node .constructor [leaf .name "Foo", node .parameterList [node .parameter [node .decl
      [node .type [leaf .name "int"], leaf .name "a"]]], leaf .memberInitList ": x(a)", leaf .block "{}"]) w ∧ w.tail = [.memberInit, .body] ∧
      w.params.length = 1 := by
  refine ⟨⟨none, [], "Foo".toList, [⟨[.name "int".toList], some "a".toList, .none, [], none⟩], [.memberInit, .body]⟩,
    ⟨[], _, _, _, rfl, rfl, ⟨"Foo".toList, ⟨rfl, .inl rfl⟩, rfl⟩, ⟨rfl, by decide, ?_⟩, .cons rfl (.cons rfl .nil)⟩, rfl, rfl⟩
  exact .cons ⟨rfl, _, rfl, rfl, _, [leaf .name "a"], [], [], [], rfl, ⟨rfl, .cons ⟨rfl, .inl rfl⟩ .nil⟩, ⟨_, _, rfl, ⟨rfl, .inl rfl⟩, rfl⟩,
    rfl, rfl, .nil⟩ .nil

/-- C59, full statement: a template constructor is parsed. -/
def C59_template_constructor_statement : Prop :=
  ∀ (env : Env) (x : Xml) (w : WFunc) (c : Comments), x.tag = .constructorDecl → CtorXml env x w → w.tail = [] →
    (∀ p ∈ w.params, GoodType env p.words) → GoodTemplate env w.template → ∃ f, parseConstructorDecl env x c = .ok f

theorem C59_template_constructor_fails : ¬ C59_template_constructor_statement := by
  intro h
  let x := node .constructorDecl [node .template_ [node .parameterList [node .parameter [node .type [leaf .name "typename"], leaf .name "T"]]],
    leaf .name "Foo", node .parameterList []]
  obtain ⟨f, h1⟩ := h env0 x ⟨some [.type "typename".toList "T".toList none], [], "Foo".toList, [], []⟩ {} rfl
    ⟨[_], _, _, _, rfl, ⟨_, _, rfl, rfl, rfl, rfl, by decide, .cons ⟨rfl, _, _, rfl, rfl, ⟨_, ⟨[], [], rfl, rfl, by simp⟩, rfl⟩, rfl, rfl⟩ .nil⟩,
      ⟨"Foo".toList, ⟨rfl, .inl rfl⟩, rfl⟩, ⟨rfl, by decide, .nil⟩, .nil⟩ rfl (by simp) (by
        intro ws hws w hw
        cases hws
        rw [List.mem_singleton] at hw
        subst hw; trivial)
  have he : parseConstructorDecl env0 x {} = .error .detailed := by decide +kernel
  rw [he] at h1
  cases h1

/-- The XML of a function with a trailing return type, `auto f(...) -> T`. -/
def TrailingXml (env : Env) (x : Xml) (name : Str) (params : List WDecl) (ret : List Word) : Prop :=
  x.tag = .functionDecl ∧ ∃ t n ps r, x.children = [t, n, ps, r] ∧ TypeXml env t [.name "auto".toList] ∧ FuncNameXml env n name ∧
    ParamsXml env ps params ∧ TypeXml env r ret

/-- C59, full statement: the return type of `auto f() -> T`, as it is printed (`str_return_type`), is the one of `T f()`. -/
def C59_trailing_statement : Prop :=
  ∀ (env : Env) (x : Xml) (name : Str) (params : List WDecl) (ret : List Word) (c : Comments), TrailingXml env x name params ret →
    GoodType env ret → ¬ Api env "auto".toList → (∀ n ∈ namesOf ret, ¬ Api env n) →
    (namesOf ret).head? ≠ some "auto".toList → (∀ p ∈ params, GoodType env p.words) →
    ∃ f t, parseFunctionDecl env x c = .ok f ∧ f.returnType = some t ∧
      strReturnType [] false t = strReturnType [] false ⟨specifiersOf ret, namesOf ret, modifiersOf ret⟩

theorem typeOf_plain {env : Env} {ws : List Word} {t : CppType} (h : TypeOf env ws t) (ha : ∀ n ∈ namesOf ws, ¬ Api env n) :
    t = ⟨specifiersOf ws, namesOf ws, modifiersOf ws⟩ := by
  obtain ⟨h1, ⟨f, hf, h2⟩, ⟨g, hg, h3⟩⟩ := h
  have h4 : (namesOf ws).filter f = namesOf ws := by
    rw [List.filter_eq_self]; intro n hn; exact (hf n).2 (ha n hn)
  have h5 : (namesOf ws).filter g = [] := by
    rw [List.filter_eq_nil_iff]; intro n hn hh; exact ha n hn ((hg n).1 hh)
  rw [h4] at h2; rw [h5] at h3
  cases t
  simp only at h1 h2 h3
  subst h1; subst h2; subst h3; rfl

/-- C59 (part): if the trailing type has neither specifiers nor modifiers. -/
theorem C59_trailing_partial (env : Env) (x : Xml) (name : Str) (params : List WDecl) (ret : List Word) (c : Comments)
    (hx : TrailingXml env x name params ret) (hr : GoodType env ret) (hauto : ¬ Api env "auto".toList)
    (hapi : ∀ n ∈ namesOf ret, ¬ Api env n) (hhead : (namesOf ret).head? ≠ some "auto".toList)
    (hp : ∀ p ∈ params, GoodType env p.words) (hs : specifiersOf ret = []) (hm : modifiersOf ret = []) :
    ∃ f t, parseFunctionDecl env x c = .ok f ∧ f.returnType = some t ∧
      strReturnType [] false t = strReturnType [] false ⟨specifiersOf ret, namesOf ret, modifiersOf ret⟩ := by
  obtain ⟨htag, t, n, ps, r, hch, ht, hn, hps, hrx⟩ := hx
  have hga : GoodType env [.name "auto".toList] := ⟨⟨by decide, by decide⟩, trivial⟩
  obtain ⟨tp, rt, qs, h7, h8, h9, h10⟩ := functionHead (w := ⟨none, [.name "auto".toList], name, params, []⟩) (.inl htag)
    { kind := .functionDecl, comments := c } rfl rfl (fun ws h => by cases h) hga hp (tail := [r]) (ts := []) rfl ht hn hps
  have h9' := typeOf_plain h9 (by
    intro a ha hh
    have : a = "auto".toList := by simpa [namesOf] using ha
    subst this; exact hauto hh)
  obtain ⟨t2, h11, h12⟩ := parseType_good env hrx hr none false
  have h12' := typeOf_plain h12 hapi
  subst h9'
  have hne : namesOf ret ≠ [] := by
    intro he
    rcases hr.1.2 with h | h | h
    · exact h he
    · rw [hm] at h; cases h
    · rw [hs] at h; cases h
  rw [← show x.children = [] ++ t :: n :: ps :: [r] from hch] at h7
  rw [foldlM_ok_cons (b := ⟨.functionDecl, some ⟨[], "auto".toList :: namesOf ret, []⟩, name, some qs, [], tp, false, none, false, false, c⟩)]
    at h7
  · refine ⟨_, ⟨[], "auto".toList :: namesOf ret, []⟩, (if_pos (.inl htag)).trans h7, rfl, ?_⟩
    rw [hs, hm]
    have : returnName ("auto".toList :: namesOf ret) = returnName (namesOf ret) := by
      revert hne hhead
      generalize namesOf ret = l
      intro hhead hne
      match l with
      | [] => exact absurd rfl hne
      | [a] => rfl
      | a :: b :: m =>
        have : a ≠ "auto".toList := fun h => hhead (by simp [h])
        simp only [returnName, if_true, if_neg this]
    unfold strReturnType
    simp only [this]
  · unfold functionChild returnTypeChild
    rw [hrx.1]
    simp only [h11, h12']
    rfl

/-- `auto f() -> const Foo &` -/
def fun3 : Xml := node .functionDecl
  [node .type [leaf .name "auto"], leaf .name "f", node .parameterList [],
   node .type [leaf .specifier "const", leaf .name "Foo", leaf .modifier "&"]]

theorem C59_trailing_fails : ¬ C59_trailing_statement := by
  intro h
  obtain ⟨f, t, h1, h2, h3⟩ := h env0 fun3 "f".toList [] [.specifier "const".toList, .name "Foo".toList, .modifier "&".toList] {}
    ⟨rfl, _, _, _, _, rfl, ⟨rfl, .cons ⟨rfl, .inl rfl⟩ .nil⟩, .inl ⟨"f".toList, ⟨rfl, .inl rfl⟩, rfl, by decide⟩, ⟨rfl, by decide, .nil⟩,
      ⟨rfl, .cons ⟨rfl, rfl⟩ (.cons ⟨rfl, .inl rfl⟩ (.cons ⟨rfl, rfl⟩ .nil))⟩⟩ ⟨⟨by decide, by decide⟩, trivial⟩
    (fun h => absurd ((isApiName_iff env0 _).2 h) (by decide))
    (by
      intro n hn ha
      have := (isApiName_iff env0 n).2 ha
      have hn' : n = "Foo".toList := by simpa [namesOf] using hn
      subst hn'
      revert this; decide)
    (by decide) (by simp)
  have he : parseFunctionDecl env0 fun3 {} = .ok
      { kind := .functionDecl, returnType := some ⟨[], ["auto".toList, "Foo".toList], []⟩, name := "f".toList, params := some [] } := by
    decide +kernel
  rw [he] at h1
  cases h1
  cases h2
  revert h3
  decide +kernel

/-- `auto f() -> std::vector<int>` -/
example : ∃ x, TrailingXml env0 x "f".toList [] [.name "std::vector<int>".toList] :=
  ⟨node .functionDecl [node .type [leaf .name "auto"], leaf .name "f", node .parameterList [], node .type [leaf .name "std::vector<int>"]],
    rfl, _, _, _, _, rfl, ⟨rfl, .cons ⟨rfl, .inl rfl⟩ .nil⟩, .inl ⟨"f".toList, ⟨rfl, .inl rfl⟩, rfl, by decide⟩, ⟨rfl, by decide, .nil⟩,
      ⟨rfl, .cons ⟨rfl, .inl rfl⟩ .nil⟩⟩

end Verif.Parse.Props
