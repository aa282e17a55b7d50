import Verif.Parse.PropsBlock

/-! Properties C56: the parser does not end with an exception that it does not catch, under local conditions on the XML tree. -/

namespace Verif.Parse.Spec
open Verif.Py Verif.Type

/-- The conditions on one XML element under which its parser raises no other exception than `SrcmlcppExceptionDetailed`. -/
structure Regular (env : Env) (y : Xml) : Prop where
  /-- Specifiers, modifiers and comments have a text. -/
  texts : y.tag = .specifier ∨ y.tag = .modifier ∨ y.tag = .comment → ∃ t, y.text = some t
  /-- A comment has no child. -/
  comment : y.tag = .comment → y.children = []
  /-- A function has one name. -/
  function : y.tag = .functionDecl ∨ y.tag = .destructorDecl ∨ y.tag = .function ∨ y.tag = .destructor → ∃ n, Only y .name n
  /-- A destructor has no type. -/
  destructor : y.tag = .destructorDecl ∨ y.tag = .destructor → ∀ c ∈ y.children, c.tag ≠ .type
  /-- The name of an operator holds one name. -/
  operator : y.tag = .name → NameIs env y "operator".toList → ∃ n, Only y .name n
  /-- The type of a template parameter has one name, and its name a text. -/
  parameter : y.tag = .parameter → ∀ c ∈ y.children, (c.tag = .type → ∃ n, Only c .name n) ∧ (c.tag = .name → ∃ t, c.text = some t)
  /-- An access section is `type="default"` or has no such attribute. -/
  access : y.tag = .public_ ∨ y.tag = .protected_ ∨ y.tag = .private_ →
    y.meta.typeAttr = none ∨ y.meta.typeAttr = some [] ∨ y.meta.typeAttr = some "default".toList
  /-- The declarations of a statement have a type (`<type ref="prev"/>` for the second and the next ones). -/
  types : y.tag = .declStmt → ∀ d ∈ y.children, d.tag = .decl → ∃ c ∈ d.children, c.tag = .type
  /-- A macro before the name of a class has one name. -/
  classMacro : y.tag = .struct_ ∨ y.tag = .class_ → ∀ c ∈ y.children, c.tag = .macro_ → ∃ n, Only c .name n
  /-- The conditions of C61 on the statements which are functions. -/
  braces : y.tag = .declStmt → (∀ code, rewriteDecl env y = .ok (some code) → Props.OneFunction env code) ∧
    ∀ d, Only y .decl d → ∀ l ∈ d.children, l.tag = .argumentList → ∀ c ∈ l.children, ∃ out, ArgText c out
  /-- srcML reads a macro as a function, or not. -/
  macro_ : y.tag = .macro_ → ∀ k, env.reparse ("void blah".toList ++ (env.verbatim y).drop k ++ [';']) ≠ .error .crash

def Good (env : Env) (x : Xml) : Prop := ∀ y, Inside x y → Regular env y

end Verif.Parse.Spec

namespace Verif.Parse.Lemmas
open Verif.Py Verif.Type Spec

theorem good_self {env : Env} {x : Xml} (h : Good env x) : Regular env x := h x (.refl x)

theorem good_child {env : Env} {x c : Xml} (h : Good env x) (hc : c ∈ x.children) : Good env c := fun y hy => h y (.child x c y hc hy)

/-- No exception other than `SrcmlcppExceptionDetailed`. -/
def NC {α : Type} (r : Except Err α) : Prop := r ≠ .error .crash

theorem nc_ok {α : Type} (a : α) : NC (.ok a : Except Err α) := fun h => by cases h
theorem nc_detailed {α : Type} : NC (.error .detailed : Except Err α) := fun h => by cases h

theorem nc_bind {α β : Type} {r : Except Err α} {f : α → Except Err β} (h : NC r) (hf : ∀ a, r = .ok a → NC (f a)) : NC (r >>= f) := by
  cases r with
  | ok a => exact hf a rfl
  | error e =>
    cases e with
    | crash => exact absurd rfl h
    | detailed => exact nc_detailed

theorem nc_fold {σ : Type} {step : σ → Xml → Except Err σ} (I : σ → Prop) : ∀ (cs : List Xml) (s : σ), I s →
    (∀ c ∈ cs, ∀ s, I s → NC (step s c) ∧ ∀ s', step s c = .ok s' → I s') → NC (cs.foldlM step s) := by
  intro cs
  induction cs with
  | nil => intro s _ _; exact nc_ok s
  | cons c cs ih =>
    intro s hs h
    rw [List.foldlM_cons]
    obtain ⟨h1, h2⟩ := h c (by simp) s hs
    exact nc_bind h1 (fun a ha => ih a (h2 a ha) (fun d hd => h d (by simp [hd])))

theorem nc_fold' {σ : Type} {step : σ → Xml → Except Err σ} (cs : List Xml) (s : σ) (h : ∀ c ∈ cs, ∀ s, NC (step s c)) : NC (cs.foldlM step s) :=
  nc_fold (fun _ => True) cs s trivial (fun c hc s _ => ⟨h c hc s, fun _ _ => trivial⟩)

theorem nc_mapM {β : Type} {f : Xml → Except Err β} : ∀ (cs : List Xml), (∀ c ∈ cs, NC (f c)) → NC (cs.mapM f) := by
  intro cs
  induction cs with
  | nil => intro _; exact nc_ok []
  | cons c cs ih =>
    intro h
    rw [List.mapM_cons]
    exact nc_bind (h c (by simp)) (fun a _ => nc_bind (ih (fun d hd => h d (by simp [hd]))) (fun b _ => nc_ok _))

/-! ### Types, names, declarations -/

theorem nc_parseType {env : Env} {c : Xml} (h : Good env c) (ht : c.tag = .type) {p : Previous} (hp : p ≠ some none) (op : Bool) :
    NC (parseType env c p op) := by
  unfold parseType
  rw [if_pos ht]
  refine nc_bind (nc_fold' _ _ ?_) (fun t _ => nc_bind ?_ (fun r _ => nc_ok _))
  · intro d hd s
    have hr := good_self (good_child h hd)
    unfold typeChild
    split
    · exact nc_ok _
    · rename_i hs
      obtain ⟨t, ht⟩ := hr.texts (.inl hs)
      rw [ht]; exact nc_ok _
    · rename_i hs
      obtain ⟨t, ht⟩ := hr.texts (.inr (.inl hs))
      rw [ht]
      simp only
      split
      · exact nc_ok _
      · exact nc_detailed
    · exact nc_detailed
  · unfold inheritNames
    split
    · exact nc_ok _
    · split
      · split
        · exact nc_detailed
        · exact absurd rfl hp
        · simp only
          split
          · exact nc_detailed
          · exact nc_ok _
      · exact nc_ok _

theorem nc_parseExpr {env : Env} {x : Xml} (h : x.tag = .expr) : NC (parseExpr env x) := by
  unfold parseExpr
  rw [if_pos h]
  exact nc_ok _

theorem nc_parseInitExpr {env : Env} {x : Xml} (h : x.tag = .init) : NC (parseInitExpr env x) := by
  unfold parseInitExpr
  rw [if_pos h]
  split
  · rename_i e he
    obtain ⟨a, b, _, h2, _⟩ := Props.only_of_theChild he
    exact nc_parseExpr h2
  · exact nc_ok _

theorem nc_parseName {env : Env} {x : Xml} (h : x.tag = .name) : NC (parseName env x) := by
  unfold parseName
  rw [if_pos h]
  exact nc_ok _

theorem withTag_tag {x c : Xml} {t : Tag} (h : c ∈ x.withTag t) : c ∈ x.children ∧ c.tag = t := by
  unfold Xml.withTag at h
  obtain ⟨h1, h2⟩ := List.mem_filter.1 h
  exact ⟨h1, by simpa using h2⟩

theorem nc_declChild {env : Env} {p : Previous} (hp : p ≠ some none) {c : Xml} (h : Good env c) (d : Decl) : NC (declChild env p d c) := by
  unfold declChild
  split
  · exact nc_bind (nc_parseType h (by assumption) hp _) (fun _ _ => nc_ok _)
  · refine nc_bind (nc_parseName (by assumption)) (fun _ _ => ?_)
    split <;> exact nc_ok _
  · exact nc_bind (nc_parseInitExpr (by assumption)) (fun _ _ => nc_ok _)
  · refine nc_bind ?_ (fun _ _ => nc_ok _)
    unfold parseInitializerList
    rw [if_pos (by assumption)]
    refine nc_bind (nc_mapM _ ?_) (fun _ _ => nc_ok _)
    intro a _
    unfold argumentValue
    split
    · exact nc_detailed
    · rename_i e he
      obtain ⟨a, b, _, h2, _⟩ := Props.only_of_theChild he
      exact nc_parseExpr h2
  · exact nc_ok _
  · exact nc_ok _
  · exact nc_detailed

theorem nc_parseDecl {env : Env} {p : Previous} (hp : p ≠ some none) {x : Xml} (h : Good env x) (ht : x.tag = .decl) (c : Comments) :
    NC (parseDecl env x c p) := by
  unfold parseDecl
  rw [if_pos ht]
  exact nc_fold' _ _ (fun d hd s => nc_declChild hp (good_child h hd) s)

/-- A declaration with a type has one in the end. -/
theorem parseDecl_typed {env : Env} {p : Previous} {x : Xml} {c : Comments} {d : Decl} (h : parseDecl env x c p = .ok d)
    (ht : ∃ k ∈ x.children, k.tag = .type) : d.cppType ≠ none := by
  unfold parseDecl at h
  split at h
  · have := foldField (step := declChild env p) Decl.cppType .type (fun _ v => v ≠ none) ?_ ?_ _ _ _ h
    · rcases this with ⟨h1, _⟩ | ⟨_, _, h2⟩
      · obtain ⟨k, hk, hkt⟩ := ht
        exact absurd hkt (h1 k hk)
      · exact h2
    · intro s c s' hs hne
      unfold declChild at hs
      split at hs
      · rename_i he; exact absurd he hne
      · obtain ⟨n, _, h2⟩ := ok_bind hs
        split at h2 <;> (cases h2; rfl)
      · obtain ⟨n, _, h2⟩ := ok_bind hs; cases h2; rfl
      · obtain ⟨n, _, h2⟩ := ok_bind hs; cases h2; rfl
      · cases hs; rfl
      · cases hs; split <;> rfl
      · cases hs
    · intro s c s' hs he
      unfold declChild at hs
      rw [he] at hs
      obtain ⟨n, _, h2⟩ := ok_bind hs
      cases h2
      exact fun h => by cases h
  · cases h

theorem propagate_typed (names : List Str) : ∀ ds : List Decl, (∀ d ∈ ds, d.cppType ≠ none) → ∀ d ∈ propagate names ds, d.cppType ≠ none := by
  intro ds
  induction ds with
  | nil => intro _ d hd; cases hd
  | cons e ds ih =>
    intro h d hd
    have he : e.cppType.map (fun t => { t with typenames := names }) ≠ none := by
      have := h e (by simp)
      cases hx : e.cppType with
      | none => exact absurd hx this
      | some t => simp
    rw [propagate] at hd
    split at hd
    · rcases List.mem_cons.1 hd with rfl | hd
      · exact he
      · exact ih (fun d hd => h d (by simp [hd])) d hd
    · rcases List.mem_cons.1 hd with rfl | hd
      · exact he
      · exact h d (by simp [hd])

theorem pushDecl_typed {done : List Decl} {d : Decl} (h : ∀ e ∈ done, e.cppType ≠ none) (hd : d.cppType ≠ none) :
    ∀ e ∈ pushDecl done d, e.cppType ≠ none := by
  intro e he
  unfold pushDecl at he
  split at he
  · rcases List.mem_cons.1 he with rfl | he
    · exact hd
    · exact propagate_typed _ _ h e he
  · rcases List.mem_cons.1 he with rfl | he
    · exact hd
    · exact h e he

theorem nc_parseDeclStmt {env : Env} {x : Xml} (h : Good env x) (ht : x.tag = .declStmt) (c : Comments) : NC (parseDeclStmt env x c) := by
  unfold parseDeclStmt
  rw [if_pos ht]
  refine nc_bind (nc_fold (fun done => ∀ d ∈ done, d.cppType ≠ none) _ _ (by simp) ?_) (fun _ _ => nc_ok _)
  intro k hk done hdone
  unfold declStmtChild
  split
  · rename_i hd
    have hprev : done.head?.map Decl.cppType ≠ some none := by
      cases done with
      | nil => simp
      | cons e es => simpa using hdone e (by simp)
    split
    · exact ⟨nc_detailed, fun _ h => by cases h⟩
    · refine ⟨nc_bind (nc_parseDecl hprev (good_child h hk) hd c) (fun _ _ => nc_ok _), ?_⟩
      intro s' hs
      obtain ⟨d, h1, h2⟩ := ok_bind hs
      cases h2
      exact pushDecl_typed hdone (parseDecl_typed h1 ((good_self h).types ht k hk hd))
  · refine ⟨nc_ok _, ?_⟩
    intro s' hs
    cases hs
    split
    · intro d hd
      rcases List.mem_cons.1 hd with rfl | hd
      · rename_i p _ _ _
        exact hdone p (by simp)
      · exact hdone d (by simp [hd])
    · exact hdone
  · exact ⟨nc_detailed, fun _ h => by cases h⟩

/-! ### Parameters, functions -/

theorem extractName_some {env : Env} {x : Xml} (h : ∃ n, Only x .name n) : ∃ s, extractName env x = some s := by
  obtain ⟨n, hn⟩ := h
  have := only_filter hn
  unfold extractName Xml.withTag
  rw [this]
  exact ⟨_, rfl⟩

theorem nc_parseParameterList {env : Env} {x : Xml} (h : Good env x) (ht : x.tag = .parameterList) : NC (parseParameterList env x) := by
  unfold parseParameterList
  rw [if_pos ht]
  refine nc_mapM _ ?_
  intro p hp
  obtain ⟨hp1, hp2⟩ := withTag_tag hp
  unfold parseParameter
  rw [if_pos hp2]
  refine nc_fold' _ _ ?_
  intro c hc s
  have hg := good_child (good_child h hp1) hc
  obtain ⟨hr1, hr2⟩ := (good_self (good_child h hp1)).parameter hp2 c hc
  unfold parameterChild
  split
  · exact nc_bind (nc_parseDecl (by simp) hg (by assumption) _) (fun _ _ => nc_ok _)
  · rename_i hct
    obtain ⟨s, hs⟩ := extractName_some (env := env) (hr1 hct)
    rw [hs]; exact nc_ok _
  · rename_i hct
    obtain ⟨s, hs⟩ := hr2 hct
    rw [hs]; exact nc_ok _
  · exact nc_bind (nc_parseInitExpr (by assumption)) (fun _ _ => nc_ok _)
  · exact nc_detailed

theorem nc_parseTemplate {env : Env} {x : Xml} (h : Good env x) (ht : x.tag = .template_) : NC (parseTemplate env x) := by
  unfold parseTemplate
  rw [if_pos ht]
  refine nc_bind (nc_fold' _ _ ?_) (fun _ _ => nc_ok _)
  intro c hc s
  unfold templateChild
  split
  · exact nc_bind (nc_parseParameterList (good_child h hc) (by assumption)) (fun _ _ => nc_ok _)
  · exact nc_detailed

theorem nc_functionName {env : Env} {c : Xml} (h : Good env c) (ht : c.tag = .name) : NC (functionName env c) := by
  unfold functionName
  refine nc_bind (nc_parseName ht) (fun n hn => ?_)
  split
  · rename_i he
    obtain ⟨s, hs⟩ := (good_self h).operator ht (by rw [← he]; exact parseName_is hn)
    have hs' := only_filter hs
    unfold Xml.withTag
    rw [hs']
    obtain ⟨_, _, _, h2, _⟩ := hs
    exact nc_bind (nc_parseName h2) (fun _ _ => nc_ok _)
  · exact nc_ok _

theorem nc_fillFunction {env : Env} {x : Xml} (h : Good env x)
    (ht : x.tag = .functionDecl ∨ x.tag = .destructorDecl ∨ x.tag = .function ∨ x.tag = .destructor) (f : Func) : NC (fillFunctionDecl env x f) := by
  unfold fillFunctionDecl
  refine nc_fold' _ _ ?_
  intro c hc s
  have hg := good_child h hc
  unfold functionChild
  split
  · rename_i hct
    have hop : NC (isOperatorFunction x) := by
      unfold isOperatorFunction
      rw [if_pos]
      · exact nc_ok _
      · rcases ht with h1 | h1 | h1 | h1
        · exact .inr h1
        · exact absurd hct ((good_self h).destructor (.inl h1) c hc)
        · exact .inl h1
        · exact absurd hct ((good_self h).destructor (.inr h1) c hc)
    unfold returnTypeChild
    split
    · split
      · exact nc_bind hop (fun _ _ => nc_bind (nc_parseType hg hct (by simp) _) (fun _ _ => nc_ok _))
      · exact nc_bind (nc_parseType hg hct (by simp) _) (fun _ _ => nc_ok _)
    · exact nc_bind hop (fun _ _ => nc_bind (nc_parseType hg hct (by simp) _) (fun _ _ => nc_ok _))
  · exact nc_bind (nc_functionName hg (by assumption)) (fun _ _ => nc_ok _)
  · exact nc_bind (nc_parseParameterList hg (by assumption)) (fun _ _ => nc_ok _)
  · rename_i hct
    obtain ⟨t, ht⟩ := (good_self hg).texts (.inl hct)
    rw [ht]; exact nc_ok _
  · exact nc_ok _
  · exact nc_bind (nc_parseTemplate hg (by assumption)) (fun _ _ => nc_ok _)
  · exact nc_ok _
  · exact nc_detailed
  · exact nc_ok _
  · split
    · exact nc_detailed
    · split
      · exact nc_ok _
      · exact nc_detailed
  · exact nc_ok _
  · exact nc_detailed

theorem nc_parseFunctionDecl {env : Env} {x : Xml} (h : Good env x) (ht : x.tag = .functionDecl ∨ x.tag = .destructorDecl) (c : Comments) :
    NC (parseFunctionDecl env x c) := by
  unfold parseFunctionDecl
  rw [if_pos ht]
  exact nc_fillFunction h (ht.elim .inl (fun h => .inr (.inl h))) _

theorem nc_parseFunction {env : Env} {x : Xml} (h : Good env x) (ht : x.tag = .function ∨ x.tag = .destructor) (c : Comments) :
    NC (parseFunction env x c) := by
  unfold parseFunction
  rw [if_pos ht]
  refine nc_bind (nc_fillFunction h (.inr (.inr ht)) _) (fun f _ => nc_fold' _ _ ?_)
  intro c _ s
  unfold functionBodyChild
  split <;> first | exact nc_ok _ | exact nc_detailed

theorem nc_fillConstructor {env : Env} {x : Xml} (h : Good env x) (f : Func) : NC (fillConstructorDecl env x f) := by
  unfold fillConstructorDecl
  refine nc_fold' _ _ ?_
  intro c hc s
  have hg := good_child h hc
  unfold constructorChild
  split
  · exact nc_bind (nc_parseName (by assumption)) (fun _ _ => nc_ok _)
  · exact nc_bind (nc_parseParameterList hg (by assumption)) (fun _ _ => nc_ok _)
  · rename_i hct
    obtain ⟨t, ht⟩ := (good_self hg).texts (.inl hct)
    rw [ht]; exact nc_ok _
  · exact nc_ok _
  · exact nc_ok _
  · exact nc_ok _
  · exact nc_ok _
  · exact nc_ok _
  · exact nc_detailed

theorem nc_parseConstructor {env : Env} {x : Xml} (h : Good env x) (ht : x.tag = .constructor) (c : Comments) : NC (parseConstructor env x c) := by
  unfold parseConstructor
  rw [if_pos ht]
  refine nc_bind (nc_fillConstructor h _) (fun f _ => nc_fold' _ _ ?_)
  intro c _ s
  unfold constructorBodyChild
  split <;> first | exact nc_ok _ | exact nc_detailed

/-! ### Classes, namespaces, enumerations -/

theorem nc_addComment {env : Env} {x : Xml} (h : Good env x) (ht : x.tag = .comment) (c : Comments) : NC (addCommentBeforeBlock c x) := by
  unfold addCommentBeforeBlock
  obtain ⟨t, ht⟩ := (good_self h).texts (.inr (.inr ht))
  rw [ht]; exact nc_ok _

theorem nc_parseSuperList {env : Env} {x : Xml} (h : Good env x) (ht : x.tag = .superList) : NC (parseSuperList env x) := by
  unfold parseSuperList
  rw [if_pos ht]
  refine nc_mapM _ ?_
  intro s hs
  unfold parseSuper
  split
  · refine nc_fold' _ _ ?_
    intro c hc st
    have hg := good_child (good_child h hs) hc
    unfold superChild
    split
    · rename_i hct
      obtain ⟨t, ht⟩ := (good_self hg).texts (.inl hct)
      rw [ht]; exact nc_ok _
    · exact nc_bind (nc_parseName (by assumption)) (fun _ _ => nc_ok _)
    · exact nc_detailed
  · exact nc_detailed

theorem nc_finish {α : Type} {r : Except Err (Building α)} {mk : α → Option (List Elem) → Elem} (h : NC r) : NC (finish r mk) := by
  unfold finish
  split
  · rename_i e
    cases e with
    | crash => exact absurd rfl h
    | detailed => exact nc_detailed
  · exact nc_ok _

theorem nc_one {α : Type} {r : Except Err α} {mk : α → Elem} (h : NC r) : NC (one r mk) := by
  unfold one
  split
  · rename_i e
    cases e with
    | crash => exact absurd rfl h
    | detailed => exact nc_detailed
  · exact nc_ok _

theorem nc_structs {env : Env} {m : Meta} {cs : List Xml} (h : Good env (.node m cs)) (ht : m.tag = .struct_ ∨ m.tag = .class_)
    (hf : ∀ c ∈ cs, ∀ ctx, NC (fillOf env c ctx)) (b : Building StructHead) : NC ((cs.zip (fillers env cs)).foldlM (structChild env) b) := by
  rw [zip_fillers, List.foldlM_map]
  refine nc_fold' _ _ ?_
  intro c hc s
  have hg : Good env c := good_child h hc
  unfold structChild
  simp only
  split
  · exact nc_bind (nc_parseName (by assumption)) (fun _ _ => nc_ok _)
  · exact nc_bind (nc_parseSuperList hg (by assumption)) (fun _ _ => nc_ok _)
  · exact nc_bind (hf c hc _) (fun _ _ => nc_ok _)
  · exact nc_bind (nc_parseTemplate hg (by assumption)) (fun _ _ => nc_ok _)
  · exact nc_bind (nc_addComment hg (by assumption) _) (fun _ _ => nc_ok _)
  · rename_i hct
    obtain ⟨t, ht⟩ := (good_self hg).texts (.inl hct)
    rw [ht]; exact nc_ok _
  · rename_i hct
    obtain ⟨t, ht⟩ := extractName_some (env := env) ((good_self h).classMacro ht c hc hct)
    rw [ht]; exact nc_ok _
  · exact nc_detailed

theorem nc_namespaces {env : Env} {m : Meta} {cs : List Xml} (h : Good env (.node m cs))
    (hf : ∀ c ∈ cs, ∀ ctx, NC (fillOf env c ctx)) (b : Building NsHead) : NC ((cs.zip (fillers env cs)).foldlM (namespaceChild env) b) := by
  rw [zip_fillers, List.foldlM_map]
  refine nc_fold' _ _ ?_
  intro c hc s
  have hg : Good env c := good_child h hc
  unfold namespaceChild
  simp only
  split
  · exact nc_bind (nc_parseName (by assumption)) (fun _ _ => nc_ok _)
  · exact nc_bind (hf c hc _) (fun _ _ => nc_ok _)
  · exact nc_bind (nc_addComment hg (by assumption) _) (fun _ _ => nc_ok _)
  · exact nc_detailed

theorem nc_enums {env : Env} {m : Meta} {cs : List Xml} (h : Good env (.node m cs))
    (hf : ∀ c ∈ cs, ∀ ctx, NC (fillOf env c ctx)) (b : Building EnumHead) : NC ((cs.zip (fillers env cs)).foldlM (enumChild env) b) := by
  rw [zip_fillers, List.foldlM_map]
  refine nc_fold' _ _ ?_
  intro c hc s
  have hg : Good env c := good_child h hc
  unfold enumChild
  simp only
  split
  · exact nc_bind (nc_parseName (by assumption)) (fun _ _ => nc_ok _)
  · exact nc_bind (hf c hc _) (fun _ _ => nc_ok _)
  · exact nc_bind (nc_addComment hg (by assumption) _) (fun _ _ => nc_ok _)
  · exact nc_ok _
  · exact nc_detailed

/-! ### Blocks -/

theorem group_some : ∀ (rest done : List Attach.Child), (∀ c ∈ done, c.isComment = true → c.text ≠ none) →
    (∀ c ∈ rest, c.isComment = true → c.text ≠ none) → Attach.groupLoop done rest ≠ none := by
  intro rest
  induction rest with
  | nil => intro done _ _ h; cases h
  | cons c rest ih =>
    intro done hd hr
    rw [Attach.groupLoop.eq_def]
    simp only
    split
    · rename_i hs
      cases done with
      | nil => simp [Attach.shallConcat] at hs
      | cons p ds =>
        have hpc : p.isComment = true ∧ c.isComment = true := by
          simp only [Attach.shallConcat, List.getElem?_cons_zero, Bool.and_eq_true] at hs
          exact ⟨hs.1.1.1.1.2, hs.1.1.1.2⟩
        have h1 := hd p (by simp) hpc.1
        have h2 := hr c (by simp) hpc.2
        cases hp : p.text with
        | none => exact absurd hp h1
        | some t =>
          cases hq : c.text with
          | none => exact absurd hq h2
          | some u =>
            simp only [Attach.concatComment, hp, hq, Option.bind_some]
            refine ih _ ?_ (fun d hd' => hr d (by simp [hd']))
            intro d hd' hc'
            rcases List.mem_cons.1 hd' with rfl | hd'
            · simp
            · exact hd d (by simp [hd']) hc'
    · refine ih _ ?_ (fun d hd' => hr d (by simp [hd']))
      intro d hd' hc'
      rcases List.mem_cons.1 hd' with rfl | hd'
      · exact hr d (by simp) hc'
      · exact hd d hd' hc'

theorem outs_exist {env : Env} {xs : List Xml} (h : ∀ c ∈ xs, Good env c) :
    ∃ outs, Attach.getChildrenWithComments (xs.zipIdx.map attachChild) = some outs := by
  have : Attach.groupConsecutiveComments (xs.zipIdx.map attachChild) ≠ none := by
    refine group_some _ [] (by simp) ?_
    intro c hc hcc
    obtain ⟨⟨x, i⟩, hx, rfl⟩ := List.mem_map.1 hc
    have hxm : x ∈ xs := List.mem_of_getElem? (List.mem_zipIdx_iff_getElem?.1 hx)
    have hxt : x.tag = .comment := by
      have : (x.tag.str == "comment".toList) = true := hcc
      rw [str_comment] at this
      simpa using this
    obtain ⟨t, ht⟩ := (good_self (h x hxm)).texts (.inr (.inr hxt))
    show x.text ≠ none
    rw [ht]; simp
  unfold Attach.getChildrenWithComments
  cases hg : Attach.groupConsecutiveComments (xs.zipIdx.map attachChild) with
  | none => exact absurd hg this
  | some g => exact ⟨_, rfl⟩

theorem withComments_exist {env : Env} {xs : List Xml} (h : ∀ c ∈ xs, Good env c) :
    ∃ l, withComments (childrenOf env xs) = some l ∧ ∀ p ∈ l, p.2.xml ∈ xs ∧ p.2.parser = parseChild env p.2.xml := by
  obtain ⟨outs, ho⟩ := outs_exist h
  have h0 := (outs_spec ho).1
  unfold withComments
  rw [childrenOf_eq, List.map_map, show (Child.xml ∘ fun c => (⟨c, parseChild env c⟩ : Child)) = id from rfl, List.map_id, ho, Option.bind_some]
  clear ho
  induction outs with
  | nil => exact ⟨[], rfl, by simp⟩
  | cons o outs ih =>
    obtain ⟨l, h1, h2⟩ := ih (fun o ho => h0 o (by simp [ho]))
    obtain ⟨x, hx, _⟩ := h0 o (by simp)
    rw [List.mapM_cons, List.getElem?_map, hx, h1]
    refine ⟨_, rfl, ?_⟩
    intro p hp
    rcases List.mem_cons.1 hp with rfl | hp
    · exact ⟨List.mem_of_getElem? hx, rfl⟩
    · exact h2 p hp

theorem nc_blockLoop {env : Env} {ctx : Ctx} : ∀ (l : List (Attach.Out × Child)) (ign : Option Ignored),
    (∀ p ∈ l, (∀ c, NC (p.2.parser ctx c)) ∧ (p.2.xml.tag = .comment → p.2.xml.children = [])) → NC (blockLoop env ctx ign l) := by
  intro l
  induction l with
  | nil => intro ign _; exact nc_ok _
  | cons p l ih =>
    intro ign h
    obtain ⟨o, c⟩ := p
    rw [blockLoop]
    obtain ⟨h1, h2⟩ := h (o, c) (by simp)
    have hs : NC (blockStep env ctx ign o c) := by
      unfold blockStep
      simp only
      split
      · rename_i ht
        rw [h2 ht]
        simp only [List.length_nil, ne_eq, not_true_eq_false, if_false]
        split <;> exact nc_ok _
      · split
        · split
          · exact nc_ok _
          · exact nc_ok _
          · rename_i hp
            exact absurd hp (h1 _)
        · exact nc_ok _
    split
    · rename_i e he
      rw [he] at hs
      cases e with
      | crash => exact absurd rfl hs
      | detailed => exact nc_detailed
    · rename_i es ign' he
      have := ih ign' (fun p hp => h p (by simp [hp]))
      split
      · rename_i e he'
        rw [he'] at this
        cases e with
        | crash => exact absurd rfl this
        | detailed => exact nc_detailed
      · exact nc_ok _

theorem nc_tree {env : Env} : ∀ x : Xml, Good env x → (∀ ctx c, NC (parseChild env x ctx c)) ∧ (∀ ctx, NC (fillOf env x ctx)) ∧
    ∀ c ∈ x.children, ∀ ctx, NC (fillOf env c ctx) := by
  intro x
  induction x using xmlInduct with
  | h m cs ih =>
    intro hg
    have ihc := fun c hc => ih c hc (good_child hg hc)
    have hfill : ∀ ctx, NC (fillOf env (.node m cs) ctx) := by
      intro ctx
      rw [fillOf]
      unfold fillBlock
      obtain ⟨l, h1, h2⟩ := withComments_exist (env := env) (xs := cs) (fun c hc => good_child hg hc)
      rw [h1]
      refine nc_blockLoop l none ?_
      intro p hp
      obtain ⟨h3, h4⟩ := h2 p hp
      refine ⟨fun c => by rw [h4]; exact (ihc _ h3).1 ctx c, fun ht => (good_self (good_child hg h3)).comment ht⟩
    have hsub : ∀ c ∈ cs, ∀ ctx, NC (fillOf env c ctx) := fun c hc => (ihc c hc).2.1
    refine ⟨?_, hfill, hsub⟩
    intro ctx c
    have hr := good_self hg
    have hname : ∀ h : m.tag = .functionDecl ∨ m.tag = .destructorDecl ∨ m.tag = .function ∨ m.tag = .destructor,
        (extractName env (.node m cs)).isNone = false := by
      intro h
      obtain ⟨s, hs⟩ := extractName_some (env := env) (hr.function h)
      rw [hs]; rfl
    have hacc : ∀ (h : m.tag = .public_ ∨ m.tag = .protected_ ∨ m.tag = .private_) (ctx' : Ctx),
        NC (parseChild.accessSection m (fillBlock env (childrenOf env cs) ctx')) := by
      intro h ctx'
      unfold parseChild.accessSection
      rw [if_pos (show m.typeAttr = none ∨ m.typeAttr = some [] ∨ m.typeAttr = some "default".toList from hr.access h)]
      have := hfill ctx'
      rw [fillOf] at this
      exact nc_one this
    rw [parseChild]
    simp only
    split
    · rename_i ht
      refine nc_bind (nc_parseDeclStmt hg ht c) (fun ds _ => ?_)
      obtain ⟨h1, h2⟩ := hr.braces ht
      refine nc_bind (Props.C61_survives_partial env _ h1 h2) (fun o _ => ?_)
      cases o <;> exact nc_ok _
    · rename_i ht
      split
      · refine nc_bind ?_ (fun o _ => ?_)
        · unfold fixMacro
          simp only
          split
          · refine nc_bind (hr.macro_ ht _) (fun fs _ => ?_)
            split
            · exact nc_ok _
            · exact nc_detailed
          · exact nc_ok _
        · cases o <;> exact nc_ok _
      · exact nc_ok _
    · rename_i ht; exact nc_one (nc_parseDecl (by simp) hg ht c)
    · rename_i ht
      rw [hname (.inl ht)]
      exact nc_one (nc_parseFunctionDecl hg (.inl ht) c)
    · rename_i ht
      rw [hname (.inr (.inl ht))]
      exact nc_one (nc_parseFunctionDecl hg (.inr ht) c)
    · rename_i ht
      rw [hname (.inr (.inr (.inl ht)))]
      exact nc_one (nc_parseFunction hg (.inl ht) c)
    · rename_i ht
      rw [hname (.inr (.inr (.inr ht)))]
      exact nc_one (nc_parseFunction hg (.inr ht) c)
    · rename_i ht
      refine nc_one ?_
      unfold parseConstructorDecl
      rw [if_pos (show (Xml.node m cs).tag = .constructorDecl from ht)]
      exact nc_fillConstructor hg _
    · rename_i ht; exact nc_one (nc_parseConstructor hg ht c)
    · rename_i ht
      split
      · exact nc_detailed
      · exact nc_finish (nc_structs hg (.inl ht) hsub _)
    · rename_i ht
      split
      · exact nc_detailed
      · exact nc_finish (nc_structs hg (.inr ht) hsub _)
    · exact nc_finish (nc_namespaces hg hsub _)
    · exact nc_finish (nc_enums hg hsub _)
    · have := hfill .elsewhere
      rw [fillOf] at this
      exact nc_one this
    · exact nc_ok _
    · exact nc_ok _
    · rename_i ht
      intro hcr
      unfold externFill at hcr
      split at hcr
      · split at hcr
        · split at hcr
          · rename_i t f hb
            rw [contents_block] at hb
            obtain ⟨b, hb1, hb2⟩ := map_single hb
            obtain ⟨k, hk1, hk2⟩ := map_single (congrArg Prod.snd hb2)
            have hb' : Only (.node m cs) .block b := filter_only hb1
            have hk' : Only b .blockContent k := filter_only hk1
            rw [← hk2] at hcr
            exact (ihc b (only_mem hb')).2.2 k (only_mem hk') ctx hcr
          · cases hcr
        · cases hcr
      · cases hcr
    · rename_i ht; exact hacc (.inl ht) _
    · rename_i ht; exact hacc (.inr (.inl ht)) _
    · rename_i ht; exact hacc (.inr (.inr ht)) _
    · exact nc_ok _

end Verif.Parse.Lemmas

namespace Verif.Parse.Props
open Verif.Py Verif.Type Spec Lemmas

/-- C56, full statement: the parser always gives a tree. -/
def C56_survives_statement : Prop := ∀ (env : Env) (x : Xml), ∃ es, parseUnit env x = .ok es

/-- A function without a name ends the program: `fill_block` only catches `SrcmlcppExceptionDetailed`. -/
theorem C56_survives_fails : ¬ C56_survives_statement := by
  intro h
  obtain ⟨es, hes⟩ := h env0 (node (.other "unit".toList) [node .functionDecl [node .type [leaf .name "int"], node .parameterList []]])
  have : (match parseUnit env0 (node (.other "unit".toList) [node .functionDecl [node .type [leaf .name "int"], node .parameterList []]]) with
    | .ok _ => true
    | .error _ => false) = false := by decide +kernel
  rw [hes] at this
  cases this

/-- The loop of `fill_block` raises nothing else either. -/
theorem blockLoop_not_detailed (env : Env) (ctx : Ctx) : ∀ (l : List (Attach.Out × Child)) (ign : Option Ignored),
    blockLoop env ctx ign l ≠ .error .detailed := by
  intro l
  induction l with
  | nil => intro ign h; cases h
  | cons p l ih =>
    intro ign
    obtain ⟨o, c⟩ := p
    rw [blockLoop]
    have hs : blockStep env ctx ign o c ≠ .error .detailed := by
      unfold blockStep
      simp only
      split
      · split
        · exact fun h => by cases h
        · split <;> exact fun h => by cases h
      · split
        · split <;> exact fun h => by cases h
        · exact fun h => by cases h
    split
    · rename_i e he
      intro h
      cases h
      exact hs he
    · rename_i es ign' he
      have := ih ign'
      split
      · rename_i e he'
        intro h
        cases h
        exact this he'
      · exact fun h => by cases h

/-- C56 (part): it does if every XML element is as expected (`Regular`), whatever is or is not understood inside. -/
theorem C56_survives_partial (env : Env) (x : Xml) (h : ∀ y, Inside x y → Regular env y) : ∃ es, parseUnit env x = .ok es := by
  have h1 := (nc_tree x h).2.1 .elsewhere
  unfold parseUnit
  cases hp : fillOf env x .elsewhere with
  | ok es => exact ⟨es, rfl⟩
  | error e =>
    cases e with
    | crash => exact absurd hp h1
    | detailed =>
      exfalso
      cases x with
      | node m cs =>
        rw [fillOf] at hp
        unfold fillBlock at hp
        split at hp
        · cases hp
        · exact blockLoop_not_detailed env _ _ _ hp

/-! A tree which is as expected: a check for the elements without declaration statements, macros and templates. -/

def plainNode : Xml → Bool
  | .node m cs =>
    match m.tag with
    | .specifier => m.text.isSome
    | .modifier => m.text.isSome
    | .comment => m.text.isSome && cs.isEmpty
    | .functionDecl => (cs.filter (fun c => c.tag = .name)).length == 1
    | .function => (cs.filter (fun c => c.tag = .name)).length == 1
    | .name => m.text.any (fun t => strip t ≠ "operator".toList)
    | .parameter => cs.all (fun c => c.tag = .decl)
    | .public_ => m.typeAttr = none
    | .private_ => m.typeAttr = none
    | .destructorDecl => false
    | .destructor => false
    | .protected_ => false
    | .declStmt => false
    | .macro_ => false
    | _ => true

def plainTree : Xml → Bool
  | .node m cs => plainNode (.node m cs) && plainTrees cs
where
  plainTrees : List Xml → Bool
  | [] => true
  | c :: cs => plainTree c && plainTrees cs

set_option maxHeartbeats 1000000 in
theorem plain_node {env : Env} {x : Xml} (hx : plainNode x = true) (hm : ∀ c ∈ x.children, c.tag ≠ .macro_) : Regular env x := by
  cases x with
  | node m cs =>
    have honly : (cs.filter (fun c => c.tag = .name)).length = 1 → ∃ n, Only (.node m cs) .name n := by
      intro h
      obtain ⟨n, hn⟩ := List.length_eq_one_iff.1 h
      exact ⟨n, filter_only hn⟩
    unfold plainNode at hx
    simp only at hx
    constructor
    · rintro (h | h | h) <;> (change m.tag = _ at h; rw [h] at hx; simp at hx)
      · exact Option.isSome_iff_exists.1 hx
      · exact Option.isSome_iff_exists.1 hx
      · exact Option.isSome_iff_exists.1 hx.1
    · intro h; change m.tag = _ at h; rw [h] at hx; simp at hx; exact hx.2
    · rintro (h | h | h | h) <;> (change m.tag = _ at h; rw [h] at hx; simp at hx) <;> exact honly (by simpa using hx)
    · rintro (h | h) <;> (change m.tag = _ at h; rw [h] at hx; simp at hx)
    · rintro h ⟨n, ⟨_, hn⟩, hs⟩
      change m.tag = _ at h
      rw [h] at hx
      change m.text.any (fun t => decide (strip t ≠ "operator".toList)) = true at hx
      exfalso
      rcases hn with hn | ⟨hn, _⟩
      · change m.text = some n at hn
        rw [hn] at hx
        exact (of_decide_eq_true hx) hs.symm
      · change m.text = none at hn
        rw [hn] at hx
        cases hx
    · intro h c hc
      change m.tag = _ at h
      rw [h] at hx
      simp at hx
      have := hx c hc
      refine ⟨fun h' => ?_, fun h' => ?_⟩ <;> (rw [this] at h'; cases h')
    · rintro (h | h | h) <;> (change m.tag = _ at h; rw [h] at hx; simp at hx) <;> exact .inl hx
    · intro h; change m.tag = _ at h; rw [h] at hx; simp at hx
    · intro _ c hc hcm; exact absurd hcm (hm c hc)
    · intro h; change m.tag = _ at h; rw [h] at hx; simp at hx
    · intro h; change m.tag = _ at h; rw [h] at hx; simp at hx

theorem plainTree_child {m : Meta} {cs : List Xml} (h : plainTree (.node m cs) = true) : plainNode (.node m cs) = true ∧ ∀ c ∈ cs, plainTree c = true := by
  rw [plainTree] at h
  simp only [Bool.and_eq_true] at h
  refine ⟨h.1, ?_⟩
  have : ∀ cs : List Xml, plainTree.plainTrees cs = true → ∀ c ∈ cs, plainTree c = true := by
    intro cs
    induction cs with
    | nil => intro _ c hc; cases hc
    | cons d ds ihd =>
      intro hh c hc
      rw [plainTree.plainTrees] at hh
      simp only [Bool.and_eq_true] at hh
      rcases List.mem_cons.1 hc with rfl | hc
      · exact hh.1
      · exact ihd hh.2 c hc
  exact this cs h.2

theorem plain_regular {env : Env} {x y : Xml} (h : Inside x y) : plainTree x = true → Regular env y := by
  induction h with
  | refl x =>
    intro h
    cases x with
    | node m cs =>
      obtain ⟨h1, h2⟩ := plainTree_child h
      refine plain_node h1 ?_
      intro c hc hcm
      cases c with
      | node m' cs' =>
        have := (plainTree_child (h2 _ hc)).1
        unfold plainNode at this
        simp only at this
        change m'.tag = _ at hcm
        rw [hcm] at this
        cases this
  | child x c y hc _ ih =>
    intro h
    cases x with
    | node m cs => exact ih ((plainTree_child h).2 c hc)

/-- The file above, and one with a function that is not understood. -/
example : (∀ y, Inside unit1 y → Regular env0 y) ∧
    (∀ y, Inside (node (.other "unit".toList) [fun0 [], fun0 [leaf .modifier "?"]]) y → Regular env0 y) :=
  ⟨fun _ h => plain_regular h (by decide +kernel), fun _ h => plain_regular h (by decide +kernel)⟩

end Verif.Parse.Props
