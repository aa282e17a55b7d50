import Verif.Parse.Lemmas

/-! Lemmas on the statements that declare several variables. -/

namespace Verif.Parse.Lemmas
open Verif.Py Verif.Type Spec

theorem joined_append : ∀ (a b : List Str) (s : Str), joined s (a ++ b) = joined (joined s a) b
  | [], _, _ => rfl
  | t :: a, b, s => joined_append a b _

theorem commentsXml_tags {cs : List Xml} {ts : List Str} (h : CommentsXml cs ts) : ∀ c ∈ cs, c.tag = .comment := by
  induction h with
  | nil => simp
  | cons hx _ ih =>
    intro c hc
    rcases List.mem_cons.1 hc with rfl | hc
    · exact hx.1
    · exact ih c hc

theorem extractName_decl {env : Env} {x : Xml} {ws : List Word} {w : WDecl} {n : Str} (h : DeclXmlWith env x ws w) (hn : w.name = some n) :
    ∃ s, extractName env x = some s := by
  obtain ⟨_, t, ns, bs, is, cs, h2, h3, h4, hb, h5, h6⟩ := h
  rw [hn] at h4
  obtain ⟨c, n', rfl, h7, _⟩ := h4
  have ht : [t].filter (fun c => decide (c.tag = .name)) = [] := by simp [h3.1]
  have hbs : bs.filter (fun c => decide (c.tag = .name)) = [] := by
    cases hw : w.bits with
    | none => rw [hw] at hb; unfold BitsXml at hb; subst hb; rfl
    | some s => rw [hw] at hb; obtain ⟨c, rfl, h8, _⟩ := hb; simp [h8]
  have hi : is.filter (fun c => decide (c.tag = .name)) = [] := by
    cases hw : w.init with
    | none => rw [hw] at h5; unfold InitXml at h5; subst h5; rfl
    | value s => rw [hw] at h5; obtain ⟨i, e, rfl, h8, _⟩ := h5; simp [h8]
    | list vs => rw [hw] at h5; obtain ⟨a, rfl, h8, _⟩ := h5; simp [h8]
  have hc : cs.filter (fun c => decide (c.tag = .name)) = [] := by
    rw [List.filter_eq_nil_iff]; intro d hd; simp [commentsXml_tags h6 d hd]
  have : x.withTag .name = [c] := by
    unfold Xml.withTag
    rw [h2, show t :: ([c] ++ (bs ++ (is ++ cs))) = [t] ++ ([c] ++ (bs ++ (is ++ cs))) from rfl, List.filter_append, List.filter_append,
      List.filter_append, List.filter_append, ht, hbs, hi, hc]
    simp [h7.1]
  unfold extractName
  rw [this]
  exact ⟨_, rfl⟩

/-- All the types have the same names. -/
def SameNames (names : List Str) (done : List Decl) : Prop := ∀ d ∈ done, ∃ t, d.cppType = some t ∧ t.typenames = names

theorem propagate_same {names : List Str} : ∀ {done : List Decl}, SameNames names done → propagate names done = done
  | [], _ => rfl
  | d :: ds, h => by
    obtain ⟨t, h1, h2⟩ := h d (by simp)
    have hd : ({ d with cppType := d.cppType.map (fun t => { t with typenames := names }) } : Decl) = d := by
      cases d; simp only at h1; subst h1; cases t; simp only at h2; subst h2; rfl
    unfold propagate
    simp only [hd]
    rw [propagate_same (fun d hd => h d (by simp [hd]))]
    split <;> rfl

theorem stmtComments (env : Env) (c : Comments) {cs : List Xml} {ts : List Str} (h : CommentsXml cs ts) : ∀ (d : Decl) (done : List Decl),
    cs.foldlM (declStmtChild env c) (d :: done) =
      .ok ({ d with comments := { d.comments with endOfLine := joined d.comments.endOfLine ts } } :: done) := by
  induction h with
  | nil => intro d done; rfl
  | @cons x t cs ts hx _ ih =>
    intro d done
    rw [foldlM_ok_cons (b := { d with comments := d.comments.addEol (Attach.removeCommentTokens t) } :: done)]
    · rw [ih, addEol_eq]; rfl
    · unfold declStmtChild; rw [hx.1]; simp only [hx.2]

theorem specifiersOf_append (a b : List Word) : specifiersOf (a ++ b) = specifiersOf a ++ specifiersOf b := by simp [specifiersOf]
theorem namesOf_append (a b : List Word) : namesOf (a ++ b) = namesOf a ++ namesOf b := by simp [namesOf]
theorem modifiersOf_append (a b : List Word) : modifiersOf (a ++ b) = modifiersOf a ++ modifiersOf b := by simp [modifiersOf]
theorem modifiersOf_modifiers (l : List Str) : modifiersOf (l.map .modifier) = l := by
  induction l with
  | nil => rfl
  | cons a l ih => simp only [modifiersOf, List.map_cons, List.filterMap_cons] at ih ⊢; rw [ih]
theorem specifiersOf_modifiers (l : List Str) : specifiersOf (l.map .modifier) = [] := by
  simp [specifiersOf]
theorem namesOf_modifiers (l : List Str) : namesOf (l.map .modifier) = [] := by
  simp [namesOf]
theorem modifiersOf_names (l : List Str) : modifiersOf (l.map .name) = [] := by
  simp [modifiersOf]
theorem specifiersOf_names (l : List Str) : specifiersOf (l.map .name) = [] := by
  simp [specifiersOf]
theorem namesOf_names (l : List Str) : namesOf (l.map .name) = l := by
  induction l with
  | nil => rfl
  | cons a l ih => simp only [namesOf, List.map_cons, List.filterMap_cons] at ih ⊢; rw [ih]

/-- The type of a declarator which repeats its modifiers only. -/
theorem parseType_next {env : Env} {t : Xml} {mods names : List Str} (ht : TypeXml env t (mods.map .modifier))
    (hm : ∀ m ∈ mods, m = "*".toList ∨ m = "&".toList ∨ m = "&&".toList) {p : CppType} (hp : p.typenames = names) (hne : names ≠ [])
    (hapi : ∀ n ∈ names, ¬ Api env n) : parseType env t (some (some p)) false = .ok (⟨[], names, mods⟩, true) := by
  obtain ⟨h1, h2⟩ := ht
  have h3 := typeFold env h2 ⟨[], [], []⟩ (by
    rw [modifiersOf_modifiers]; intro m hh
    rcases hm m hh with h | h | h
    · exact .inl h
    · exact .inr (.inl h)
    · exact .inr (.inr (.inl h)))
  unfold parseType
  rw [if_pos h1, h3]
  simp only [List.nil_append, specifiersOf_modifiers, namesOf_modifiers, modifiersOf_modifiers]
  show (inheritNames _ false _ >>= _) = _
  have hl : lacksName ⟨[], [], mods⟩ = true := by
    have : mods.contains "...".toList = false := by
      rw [Bool.eq_false_iff]
      intro hh
      rcases hm _ (by simpa using hh) with h | h | h <;> revert h <;> decide
    unfold lacksName
    simp only [this]; rfl
  have hl' : lacksName ⟨[], names, mods⟩ = false := by
    unfold lacksName
    simp [hne]
  unfold inheritNames
  simp only [hl, if_true, hp, hl', Bool.false_eq_true, if_false]
  show Except.ok _ = _
  have hpr : processApi env.apiPrefixes ⟨[], names, mods⟩ = ⟨[], names, mods⟩ := by
    have hs : Spaced env names := by
      clear hne hl' h3 hp
      induction names with
      | nil => trivial
      | cons a r ih =>
        cases r with
        | nil => trivial
        | cons b r' => exact ⟨fun h => hapi a (by simp) h.1, ih (fun n hn => hapi n (by simp [hn]))⟩
    have := apiLoop_spaced env mods names.length names [] [] names.length (Nat.le_refl _) (Nat.le_refl _) (by simp) hs
    unfold processApi
    simp only [List.nil_append, List.length_nil] at this
    rw [this]
    have h1 : names.filter (isApiName env.apiPrefixes) = [] := by
      rw [List.filter_eq_nil_iff]; intro n hn hh; exact hapi n hn ((isApiName_iff env n).1 hh)
    have h2 : names.filter (fun a => !isApiName env.apiPrefixes a) = names := by
      rw [List.filter_eq_self]; intro n hn
      have := hapi n hn
      rw [← isApiName_iff] at this; simpa using this
    rw [h1, h2]; rfl
  rw [hpr]

theorem typeOf_names {env : Env} {names mods : List Str} (hapi : ∀ n ∈ names, ¬ Api env n) :
    TypeOf env (names.map .name ++ mods.map .modifier) ⟨[], names, mods⟩ := by
  have h1 : names.filter (isApiName env.apiPrefixes) = [] := by
    rw [List.filter_eq_nil_iff]; intro n hn hh; exact hapi n hn ((isApiName_iff env n).1 hh)
  have h2 : names.filter (fun a => !isApiName env.apiPrefixes a) = names := by
    rw [List.filter_eq_self]; intro n hn
    have := hapi n hn
    rw [← isApiName_iff] at this; simpa using this
  refine ⟨?_, ⟨fun a => !isApiName env.apiPrefixes a, ?_, ?_⟩, ⟨isApiName env.apiPrefixes, isApiName_iff env, ?_⟩⟩
  · rw [modifiersOf_append, modifiersOf_names, modifiersOf_modifiers]; rfl
  · intro n; rw [← isApiName_iff]; simp
  · rw [namesOf_append, namesOf_names, namesOf_modifiers, List.append_nil, h2]
  · rw [namesOf_append, namesOf_names, namesOf_modifiers, List.append_nil, h1, specifiersOf_append, specifiersOf_names,
      specifiersOf_modifiers]; rfl

/-- The declarators after the first one. -/
theorem nextFold {env : Env} {c : Comments} {names : List Str} (hne : names ≠ []) (hapi : ∀ n ∈ names, ¬ Api env n) {xs : List Xml}
    {ds : List Declarator} (h : NextXml env xs ds) (hm : ∀ d ∈ ds, ∀ m ∈ d.modifiers, m = "*".toList ∨ m = "&".toList ∨ m = "&&".toList) :
    ∀ done : List Decl, done ≠ [] → SameNames names done →
      ∃ rs, xs.foldlM (declStmtChild env c) done = .ok (rs.reverse ++ done) ∧
        List.Forall₂ (fun d r => DeclOf env c (Declarator.decl (names.map .name) d) r) ds rs := by
  induction h with
  | nil => intro done _ _; exact ⟨[], rfl, .nil⟩
  | cons x cs xs d ds hx hcs _ ih =>
    intro done hdne hsame
    obtain ⟨s, hs⟩ := extractName_decl hx rfl
    cases done with
    | nil => exact absurd rfl hdne
    | cons p ps =>
      obtain ⟨pt, hp1, hp2⟩ := hsame p (by simp)
      have hr := fun t ht => parseType_next (env := env) (t := t) ht (hm d (by simp)) hp2 hne hapi
      obtain ⟨r, h1, h2, h3, h4, h5, h6, h7⟩ := parseDecl_with hx c (some (some pt)) hr
      have hstep : declStmtChild env c (p :: ps) x = .ok (r :: p :: ps) := by
        unfold declStmtChild
        rw [hx.1]
        simp only [hs, List.head?_cons, Option.map_some, hp1, h1]
        show Except.ok (pushDecl (p :: ps) r) = _
        unfold pushDecl
        rw [h3, h2]
        simp only
        rw [propagate_same hsame]
      rw [foldlM_ok_cons hstep, foldlM_ok_append (stmtComments env c hcs r (p :: ps))]
      obtain ⟨rs, h8, h9⟩ := ih (fun d' hd' => hm d' (by simp [hd']))
        ({ r with comments := { r.comments with endOfLine := joined r.comments.endOfLine d.after } } :: p :: ps) (by simp)
        (by
          intro e he
          rcases List.mem_cons.1 he with he | he
          · subst he; exact ⟨_, h2, rfl⟩
          · exact hsame e he)
      refine ⟨{ r with comments := { r.comments with endOfLine := joined r.comments.endOfLine d.after } } :: rs, ?_, .cons ?_ h9⟩
      · rw [h8, List.reverse_cons, List.append_assoc]; rfl
      · refine ⟨⟨_, h2, typeOf_names hapi⟩, h4, ?_, h6, ?_, ?_⟩
        · unfold Declarator.decl; revert h5; cases d.init <;> exact id
        · show r.comments.previousLines = _; rw [h7]
        · show joined r.comments.endOfLine d.after = joined c.endOfLine (d.comments ++ d.after)
          rw [h7, joined_append]

end Verif.Parse.Lemmas
