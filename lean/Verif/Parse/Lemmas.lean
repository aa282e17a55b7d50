import Mathlib.Data.List.Perm.Subperm
import Verif.Space.Lemmas
import Verif.Parse.Spec

/-! Lemmas on the parsing of types, declarations and functions. -/

namespace Verif.Parse.Lemmas
open Verif.Py Verif.Type Spec

theorem startsWith_iff (s p : Str) : startsWith s p = true ↔ p <+: s := by
  unfold startsWith; simp

theorem isApiName_iff (env : Env) (n : Str) : isApiName env.apiPrefixes n = true ↔ Api env n := by
  unfold isApiName Api
  simp [startsWith_iff]

/-! ### Types -/

theorem typeFold (env : Env) {cs : List Xml} {ws : List Word} (h : List.Forall₂ (WordXml env) cs ws) :
    ∀ t : CppType, (∀ m ∈ modifiersOf ws, m = "*".toList ∨ m = "&".toList ∨ m = "&&".toList ∨ m = "...".toList) →
      cs.foldlM (typeChild env) t =
        Except.ok ⟨t.specifiers ++ specifiersOf ws, t.typenames ++ namesOf ws, t.modifiers ++ modifiersOf ws⟩ := by
  induction h with
  | nil => intro t _; cases t; simp [specifiersOf, namesOf, modifiersOf, pure, Except.pure]
  | @cons c w cs ws hw _ ih =>
    intro t hm
    cases w with
    | specifier s =>
      obtain ⟨h1, h2⟩ := hw
      rw [List.foldlM_cons]
      have : typeChild env t c = .ok { t with specifiers := t.specifiers ++ [s] } := by
        unfold typeChild; rw [h1]; simp [h2]
      rw [this]
      show cs.foldlM (typeChild env) _ = _
      rw [ih _ (by simpa [modifiersOf] using hm)]
      simp [specifiersOf, namesOf, modifiersOf]
    | name n =>
      obtain ⟨h1, h2⟩ := hw
      rw [List.foldlM_cons]
      have : typeChild env t c = .ok { t with typenames := t.typenames ++ [n] } := by
        unfold typeChild; rw [h1]
        show Except.ok _ = _
        have : recomposeTypeName env c = n := by
          unfold recomposeTypeName
          rcases h2 with h2 | ⟨h2, h3⟩
          · rw [h2]
          · rw [h2]; exact h3
        rw [this]
      rw [this]
      show cs.foldlM (typeChild env) _ = _
      rw [ih _ (by simpa [modifiersOf] using hm)]
      simp [specifiersOf, namesOf, modifiersOf]
    | modifier m =>
      obtain ⟨h1, h2⟩ := hw
      rw [List.foldlM_cons]
      have hmem : m ∈ authorizedModifiers := by
        have := hm m (by simp [modifiersOf])
        simpa [authorizedModifiers] using this
      have : typeChild env t c = .ok { t with modifiers := t.modifiers ++ [m] } := by
        unfold typeChild; rw [h1]; simp [h2, hmem]
      rw [this]
      show cs.foldlM (typeChild env) _ = _
      rw [ih _ (fun x hx => hm x (by simp only [modifiersOf, List.filterMap_cons] at hx ⊢; exact List.mem_cons_of_mem _ hx))]
      simp [specifiersOf, namesOf, modifiersOf]

theorem apiLoop_spaced (env : Env) (M : List Str) : ∀ (n : Nat) (rest pre S : List Str) (k : Nat), rest.length ≤ n → rest.length ≤ k →
    (∀ a ∈ pre, ¬ Api env a) → Spaced env rest →
    apiLoop env.apiPrefixes k pre.length ⟨S, pre ++ rest, M⟩ =
      ⟨(rest.filter (isApiName env.apiPrefixes)).reverse ++ S, pre ++ rest.filter (fun a => !isApiName env.apiPrefixes a), M⟩ := by
  intro n
  induction n with
  | zero =>
    intro rest pre S k h1 h2 h3 h4
    have : rest = [] := List.length_eq_zero_iff.1 (by omega)
    subst this
    cases k <;> simp [apiLoop]
  | succ n ih =>
    intro rest pre S k h1 h2 h3 h4
    cases rest with
    | nil => cases k <;> simp [apiLoop]
    | cons a r =>
      cases k with
      | zero => simp at h2
      | succ k =>
        have hget : (pre ++ a :: r)[pre.length]? = some a := by simp
        unfold apiLoop
        simp only [hget]
        by_cases hapi : isApiName env.apiPrefixes a = true
        · rw [if_pos hapi]
          have hnot : a ∉ pre := fun hm => h3 a hm ((isApiName_iff env a).1 hapi)
          have herase : (pre ++ a :: r).erase a = pre ++ r := by
            rw [List.erase_append_right _ hnot]; simp
          rw [herase]
          cases r with
          | nil =>
            cases k <;> simp [apiLoop, hapi]
          | cons b r' =>
            have hb : ¬ Api env b := fun hb => h4.1 ⟨(isApiName_iff env a).1 hapi, hb⟩
            have hb' : isApiName env.apiPrefixes b = false := by
              rw [Bool.eq_false_iff]; intro hh; exact hb ((isApiName_iff env b).1 hh)
            have hs : Spaced env r' := by
              have := h4.2
              cases r' with
              | nil => trivial
              | cons c r'' => exact this.2
            have := ih r' (pre ++ [b]) (a :: S) k (by simp at h1; omega) (by simp at h2; omega)
              (by
                intro x hx
                rw [List.mem_append] at hx
                rcases hx with hx | hx
                · exact h3 x hx
                · rw [List.mem_singleton] at hx; subst hx; exact hb) hs
            simp only [List.length_append, List.length_cons, List.length_nil, Nat.zero_add, List.append_assoc, List.cons_append,
              List.nil_append] at this
            rw [this]
            simp [hapi, hb']
        · rw [if_neg hapi]
          rw [Bool.not_eq_true] at hapi
          have hs : Spaced env r := by
            cases r with
            | nil => trivial
            | cons c r'' => exact h4.2
          have := ih r (pre ++ [a]) S k (by simp at h1; omega) (by simp at h2; omega)
            (by
              intro x hx
              rw [List.mem_append] at hx
              rcases hx with hx | hx
              · exact h3 x hx
              · rw [List.mem_singleton] at hx; subst hx
                intro hh; rw [(isApiName_iff env x).2 hh] at hapi; cases hapi) hs
          simp only [List.length_append, List.length_cons, List.length_nil, Nat.zero_add, List.append_assoc, List.cons_append,
            List.nil_append] at this
          rw [this]
          simp [hapi]

theorem apiLoop_perm (ps : List Str) : ∀ (k i : Nat) (t : CppType),
    ((apiLoop ps k i t).specifiers ++ (apiLoop ps k i t).typenames).Perm (t.specifiers ++ t.typenames) ∧
    (apiLoop ps k i t).modifiers = t.modifiers ∧ (apiLoop ps k i t).typenames.Sublist t.typenames ∧
    t.specifiers <:+ (apiLoop ps k i t).specifiers := by
  intro k
  induction k with
  | zero => intro i t; simp [apiLoop]
  | succ k ih =>
    intro i t
    unfold apiLoop
    cases hg : t.typenames[i]? with
    | none => simp
    | some n =>
      simp only
      have hmem : n ∈ t.typenames := List.mem_of_getElem? hg
      by_cases hapi : isApiName ps n = true
      · rw [if_pos hapi]
        obtain ⟨h1, h2, h3, h4⟩ := ih (i + 1) { t with typenames := t.typenames.erase n, specifiers := n :: t.specifiers }
        refine ⟨h1.trans ?_, h2, h3.trans List.erase_sublist, (List.suffix_cons _ _).trans h4⟩
        show (n :: (t.specifiers ++ t.typenames.erase n)).Perm _
        refine (List.perm_middle.symm).trans ?_
        exact List.Perm.append_left _ (List.perm_cons_erase hmem).symm
      · rw [if_neg hapi]; exact ih (i + 1) t

/-- A name which is not an API name stays. -/
theorem apiLoop_keeps (ps : List Str) : ∀ (k i : Nat) (t : CppType),
    (apiLoop ps k i t).typenames.filter (fun n => !isApiName ps n) = t.typenames.filter (fun n => !isApiName ps n) := by
  intro k
  induction k with
  | zero => intro i t; simp [apiLoop]
  | succ k ih =>
    intro i t
    unfold apiLoop
    cases hg : t.typenames[i]? with
    | none => simp
    | some n =>
      simp only
      by_cases hapi : isApiName ps n = true
      · rw [if_pos hapi, ih]
        show (t.typenames.erase n).filter _ = _
        generalize t.typenames = l
        induction l with
        | nil => rfl
        | cons a l ihl =>
          by_cases ha : a = n
          · subst ha; simp [hapi]
          · rw [List.erase_cons_tail (by simpa using ha)]
            simp only [List.filter_cons, ihl]
      · rw [if_neg hapi]; exact ih (i + 1) t

theorem lacksName_false {ws : List Word} (h : Writable ws) : lacksName ⟨specifiersOf ws, namesOf ws, modifiersOf ws⟩ = false := by
  unfold lacksName
  rcases h.2 with h | h | h
  · simp [h]
  · have : (modifiersOf ws).contains "...".toList = true := by simpa using h
    simp only [this]; simp
  · have : (specifiersOf ws).contains "auto".toList = true := by simpa using h
    simp only [this]; simp

theorem typeOf_result (env : Env) (ws : List Word) (h : Spaced env (namesOf ws)) :
    TypeOf env ws (processApi env.apiPrefixes ⟨specifiersOf ws, namesOf ws, modifiersOf ws⟩) := by
  have := apiLoop_spaced env (modifiersOf ws) (namesOf ws).length (namesOf ws) [] (specifiersOf ws) (namesOf ws).length
    (Nat.le_refl _) (Nat.le_refl _) (by simp) h
  unfold processApi
  simp only [List.nil_append, List.length_nil] at this
  rw [this]
  refine ⟨rfl, ⟨fun a => !isApiName env.apiPrefixes a, ?_, rfl⟩, ⟨isApiName env.apiPrefixes, isApiName_iff env, rfl⟩⟩
  intro n
  rw [← isApiName_iff]; simp

theorem parseType_good (env : Env) {x : Xml} {ws : List Word} (hx : TypeXml env x ws) (hw : GoodType env ws) (previous : Previous)
    (op : Bool) : ∃ t, parseType env x previous op = .ok (t, false) ∧ TypeOf env ws t := by
  obtain ⟨h1, h2⟩ := hx
  refine ⟨_, ?_, typeOf_result env ws hw.2⟩
  unfold parseType
  rw [if_pos h1, typeFold env h2 _ hw.1.1]
  simp only [List.nil_append]
  show (inheritNames previous op _ >>= _) = _
  unfold inheritNames
  rw [lacksName_false hw.1]
  cases op <;> rfl

/-! ### Values and names -/

theorem theChild_only {x : Xml} {t : Tag} {c : Xml} (h : Only x t c) : x.theChild t = some c := by
  obtain ⟨a, b, h1, h2, h3⟩ := h
  unfold Xml.theChild Xml.withTag
  have ha : a.filter (fun c => decide (c.tag = t)) = [] := by
    rw [List.filter_eq_nil_iff]; intro d hd; simpa using h3 d (by simp [hd])
  have hb : b.filter (fun c => decide (c.tag = t)) = [] := by
    rw [List.filter_eq_nil_iff]; intro d hd; simpa using h3 d (by simp [hd])
  rw [h1, List.filter_append, List.filter_cons, ha, hb]
  simp [h2]

theorem extractName_only {env : Env} {x c : Xml} {s : Str} (h : Only x .name c) (hs : c.text = some s) : extractName env x = some s := by
  have := theChild_only h
  unfold Xml.theChild at this
  unfold extractName
  split at this
  · next d hd => cases this; simp [hs]
  · cases this

theorem exprLiteral_iff (x : Xml) (s : Str) : exprLiteralValue x = some s ↔ Atom x s := by
  unfold exprLiteralValue Atom
  cases hx : x.children with
  | nil => simp
  | cons c cs =>
    cases cs with
    | nil =>
      simp only
      constructor
      · intro h
        split at h
        · next ht => exact ⟨c, rfl, ht, h⟩
        · cases h
      · rintro ⟨d, h1, h2, h3⟩
        cases h1
        rw [if_pos h2, h3]
    | cons d ds => simp

theorem parseExpr_xml {env : Env} {x : Xml} {s : Str} (h : ExprXml env x s) : parseExpr env x = .ok s := by
  obtain ⟨h1, h2⟩ := h
  unfold parseExpr
  rw [if_pos h1]
  rcases h2 with h2 | ⟨h2, h3⟩
  · rw [(exprLiteral_iff x s).2 h2]
  · cases he : exprLiteralValue x with
    | some s' => exact absurd ⟨s', (exprLiteral_iff x s').1 he⟩ h2
    | none => simp only [h3]

theorem parseName_names {env : Env} {c : Xml} {n : Str} (h : Names env c n) : parseName env c = .ok (strip n) := by
  obtain ⟨h1, h2⟩ := h
  unfold parseName
  rw [if_pos h1]
  rcases h2 with h2 | ⟨h2, h3⟩
  · simp only [h2]
  · simp only [h2]
    rw [← h3]
    rw [Space.strip_of_ends (Space.ends_strip _)]

theorem parseList_args {env : Env} {cs : List Xml} {vs : List Str}
    (h : List.Forall₂ (fun c v => ∃ e, Only c .expr e ∧ ExprXml env e v) cs vs) : cs.mapM (argumentValue env) = .ok vs := by
  induction h with
  | nil => rfl
  | @cons c v cs vs hc _ ih =>
    obtain ⟨e, h1, h2⟩ := hc
    have : argumentValue env c = .ok v := by
      unfold argumentValue; rw [theChild_only h1]; exact parseExpr_xml h2
    rw [List.mapM_cons, this, ih]; rfl

theorem parseInitializerList_xml {env : Env} {a : Xml} {vs : List Str} (h1 : a.tag = .argumentList)
    (h2 : ∀ c ∈ a.children, c.tag = .argument)
    (h3 : List.Forall₂ (fun c v => ∃ e, Only c .expr e ∧ ExprXml env e v) a.children vs) :
    parseInitializerList env a = .ok ("{".toList ++ join ", ".toList vs ++ "}".toList) := by
  unfold parseInitializerList
  rw [if_pos h1]
  have : a.withTag .argument = a.children := by
    unfold Xml.withTag
    rw [List.filter_eq_self]; intro c hc; simpa using h2 c hc
  rw [this, parseList_args h3]
  show Except.ok _ = _
  cases vs <;> simp [join]

theorem parseInit_value {env : Env} {i e : Xml} {s : Str} (h1 : i.tag = .init) (h2 : Only i .expr e) (h3 : ExprXml env e s) :
    parseInitExpr env i = .ok s := by
  unfold parseInitExpr
  rw [if_pos h1, theChild_only h2]
  exact parseExpr_xml h3

/-! ### Declarations -/

theorem foldlM_ok_append {α β : Type} {f : β → α → Except Err β} {l l' : List α} {a b : β} (h : l.foldlM f a = .ok b) :
    (l ++ l').foldlM f a = l'.foldlM f b := by
  rw [List.foldlM_append, h]; rfl

theorem foldlM_ok_cons {α β : Type} {f : β → α → Except Err β} {x : α} {l : List α} {a b : β} (h : f a x = .ok b) :
    (x :: l).foldlM f a = l.foldlM f b := by
  rw [List.foldlM_cons, h]; rfl

theorem takeWhile_dropWhile_bracket (s : Str) : s.takeWhile (· != '[') ++ s.dropWhile (· != '[') = s := List.takeWhile_append_dropWhile

theorem not_mem_takeWhile : ∀ s : Str, '[' ∉ s.takeWhile (· != '[')
  | [] => by simp
  | c :: s => by
    rw [List.takeWhile_cons]
    split
    · next h =>
      have := not_mem_takeWhile s
      intro hm
      rcases List.mem_cons.1 hm with hm | hm
      · subst hm; simp at h
      · exact this hm
    · simp

theorem dropWhile_ne_nil : ∀ {s : Str}, '[' ∈ s → s.dropWhile (· != '[') ≠ []
  | c :: s, h => by
    rw [List.dropWhile_cons]
    split
    · next hc =>
      rcases List.mem_cons.1 h with h | h
      · subst h; simp at hc
      · exact dropWhile_ne_nil h
    · simp

theorem endsWith_bracket (s : Str) : endsWith s [']'] = true ↔ s.getLast? = some ']' := by
  unfold endsWith
  rw [List.isSuffixOf_iff_suffix]
  constructor
  · rintro ⟨t, rfl⟩; simp
  · intro h
    rw [List.getLast?_eq_some_iff] at h
    obtain ⟨t, rfl⟩ := h
    exact ⟨t, rfl⟩

theorem nameChild (env : Env) (prev : Previous) (d : Decl) (hd : d.name = []) (hd' : d.arrayCode = []) {ns : List Xml} {n : Option Str}
    (h : NameXml env ns n) : ∃ d', ns.foldlM (declChild env prev) d = .ok d' ∧ NameOf n d' ∧
      d' = { d with name := d'.name, arrayCode := d'.arrayCode } := by
  cases n with
  | none =>
    unfold NameXml at h
    subst h
    refine ⟨d, rfl, ⟨by simp [hd, hd'], by simp [hd'], by simp [hd]⟩, rfl⟩
  | some n =>
    obtain ⟨c, n', rfl, h2, rfl⟩ := h
    have hp := parseName_names h2
    by_cases hb : '[' ∈ strip n' ∧ endsWith (strip n') [']'] = true
    · refine ⟨{ d with name := (splitArray (strip n')).1, arrayCode := (splitArray (strip n')).2 }, ?_, ?_, rfl⟩
      · rw [foldlM_ok_cons (b := { d with name := (splitArray (strip n')).1, arrayCode := (splitArray (strip n')).2 })]
        · rfl
        · unfold declChild; rw [h2.1]; simp only [hp]
          show (if _ then _ else _) = _
          rw [if_pos hb]
      · unfold splitArray
        rw [if_pos hb]
        have hsplit := takeWhile_dropWhile_bracket (strip n')
        have hne : (strip n').dropWhile (· != '[') ≠ [] := dropWhile_ne_nil hb.1
        refine ⟨by simp, fun _ => ⟨not_mem_takeWhile _, ?_, ?_⟩, fun hc => absurd hc hne⟩
        · have := List.head?_dropWhile_not (fun c => c != '[') (strip n')
          simp only at this ⊢
          cases hdw : (strip n').dropWhile (· != '[') with
          | nil => exact absurd hdw hne
          | cons a l =>
            rw [hdw] at this
            simp at this
            simp [this]
        · have := (endsWith_bracket _).1 hb.2
          rw [← hsplit, List.getLast?_append_of_ne_nil _ hne] at this
          exact this
    · refine ⟨{ d with name := strip n' }, ?_, ?_, by rw [hd']⟩
      · rw [foldlM_ok_cons (b := { d with name := strip n' })]
        · rfl
        · unfold declChild; rw [h2.1]; simp only [hp]
          show (if _ then _ else _) = _
          rw [if_neg hb]
      · refine ⟨by simp [hd'], fun hc => absurd hd' hc, fun _ hm hl => hb ⟨hm, (endsWith_bracket _).2 hl⟩⟩

theorem bitsChild (env : Env) (prev : Previous) (d : Decl) (hd : d.bitfield = []) {bs : List Xml} {b : Option Str} (h : BitsXml env bs b) :
    bs.foldlM (declChild env prev) d = .ok { d with bitfield := b.getD [] } := by
  cases b with
  | none => unfold BitsXml at h; subst h; cases d; simp only at hd; subst hd; rfl
  | some s =>
    obtain ⟨c, rfl, h1, rfl⟩ := h
    rw [foldlM_ok_cons (b := { d with bitfield := env.verbatim c })]
    · rfl
    · unfold declChild; rw [h1]

theorem initChild (env : Env) (prev : Previous) (d : Decl) (hd : d.initialValue = []) (hd' : d.viaInitializerList = false)
    {is : List Xml} {i : Init} (h : InitXml env is i) : ∃ d', is.foldlM (declChild env prev) d = .ok d' ∧ InitOf d' i ∧
      d' = { d with initialValue := d'.initialValue, viaInitializerList := d'.viaInitializerList } := by
  cases i with
  | none =>
    unfold InitXml at h
    subst h
    exact ⟨d, rfl, ⟨hd, hd'⟩, rfl⟩
  | value s =>
    obtain ⟨i, e, rfl, h1, h2, h3⟩ := h
    refine ⟨{ d with initialValue := s }, ?_, ⟨rfl, hd'⟩, rfl⟩
    rw [foldlM_ok_cons (b := { d with initialValue := s })]
    · rfl
    · unfold declChild; rw [h1]; simp only [parseInit_value h1 h2 h3]; rfl
  | list vs =>
    obtain ⟨a, rfl, h1, h2, h3⟩ := h
    refine ⟨{ d with initialValue := "{".toList ++ join ", ".toList vs ++ "}".toList, viaInitializerList := true }, ?_, ⟨rfl, rfl⟩, rfl⟩
    rw [foldlM_ok_cons (b := { d with initialValue := "{".toList ++ join ", ".toList vs ++ "}".toList, viaInitializerList := true })]
    · rfl
    · unfold declChild; rw [h1]; simp only [parseInitializerList_xml h1 h2 h3]; rfl

theorem addEol_eq (c : Comments) (t : Str) :
    c.addEol t = { c with endOfLine := if c.endOfLine = [] then t else c.endOfLine ++ " - ".toList ++ t } := by
  unfold Comments.addEol
  by_cases h : c.endOfLine = []
  · simp [h]
  · rw [if_neg (by simpa using h), if_neg h]

theorem commentChildren (env : Env) (prev : Previous) {cs : List Xml} {ts : List Str} (h : CommentsXml cs ts) : ∀ d : Decl,
    cs.foldlM (declChild env prev) d =
      .ok { d with comments := { d.comments with endOfLine := joined d.comments.endOfLine ts } } := by
  induction h with
  | nil => intro d; rfl
  | @cons x t cs ts hx _ ih =>
    intro d
    rw [foldlM_ok_cons (b := { d with comments := d.comments.addEol (Attach.removeCommentTokens t) })]
    · rw [ih, addEol_eq]; rfl
    · unfold declChild; rw [hx.1]; simp only [hx.2]

/-- A declaration, given what its type element is parsed to. -/
theorem parseDecl_with {env : Env} {x : Xml} {ws : List Word} {w : WDecl} (hx : DeclXmlWith env x ws w) (c : Comments) (prev : Previous)
    {r : CppType × Bool} (hr : ∀ t, TypeXml env t ws → parseType env t prev false = .ok r) :
    ∃ d, parseDecl env x c prev = .ok d ∧ d.cppType = some r.1 ∧ d.sharesNames = r.2 ∧ NameOf w.name d ∧ InitOf d w.init ∧
      d.bitfield = w.bits.getD [] ∧ d.comments = { c with endOfLine := joined c.endOfLine w.comments } := by
  obtain ⟨htag, t, ns, bs, is, cs, hch, ht, hns, hbs, his, hcs⟩ := hx
  unfold parseDecl
  rw [if_pos htag, hch]
  have h1 : declChild env prev { comments := c } t = .ok { cppType := some r.1, comments := c, sharesNames := r.2 } := by
    unfold declChild; rw [ht.1]; simp only [hr t ht]; rfl
  rw [foldlM_ok_cons h1]
  obtain ⟨d2, h2, h2n, h2e⟩ := nameChild env prev { cppType := some r.1, comments := c, sharesNames := r.2 } rfl rfl hns
  rw [foldlM_ok_append h2]
  rw [foldlM_ok_append (bitsChild env prev d2 (by rw [h2e]) hbs)]
  obtain ⟨d3, h3, h3n, h3e⟩ := initChild env prev { d2 with bitfield := w.bits.getD [] } (by show d2.initialValue = []; rw [h2e])
    (by show d2.viaInitializerList = false; rw [h2e]) his
  rw [foldlM_ok_append h3, commentChildren env prev hcs]
  refine ⟨_, rfl, ?_, ?_, ?_, ?_, ?_, ?_⟩
  · rw [h3e, h2e]
  · rw [h3e, h2e]
  · unfold NameOf at h2n ⊢
    rw [h3e]; exact h2n
  · revert h3n; cases w.init <;> exact id
  · rw [h3e, h2e]
  · rw [h3e, h2e]

theorem typeXml_ok (env : Env) {ws : List Word} (hw : GoodType env ws) (prev : Previous) :
    ∃ r, (∀ t, TypeXml env t ws → parseType env t prev false = .ok (r, false)) ∧ TypeOf env ws r := by
  refine ⟨_, ?_, typeOf_result env ws hw.2⟩
  rintro t ⟨h1, h2⟩
  unfold parseType
  rw [if_pos h1, typeFold env h2 _ hw.1.1]
  simp only [List.nil_append]
  show (inheritNames prev false _ >>= _) = _
  unfold inheritNames
  rw [lacksName_false hw.1]
  rfl

theorem parseDecl_good {env : Env} {x : Xml} {w : WDecl} (hx : DeclXml env x w) (hw : GoodType env w.words) (c : Comments)
    (prev : Previous) : ∃ d, parseDecl env x c prev = .ok d ∧ DeclOf env c w d ∧ d.sharesNames = false := by
  obtain ⟨r, hr, ht⟩ := typeXml_ok env hw prev
  obtain ⟨d, h1, h2, h3, h4, h5, h6, h7⟩ := parseDecl_with hx c prev hr
  exact ⟨d, h1, ⟨⟨r, h2, ht⟩, h4, h5, h6, by rw [h7], by rw [h7]⟩, h3⟩

/-! ### Parameters, templates -/

theorem parseParameter_good {env : Env} {x : Xml} {w : WDecl} (hx : ParamXml env x w) (hw : GoodType env w.words) :
    ∃ p, parseParameter env x = .ok p ∧ ParamOf env w p := by
  obtain ⟨h1, d, h2, h3⟩ := hx
  obtain ⟨d', h4, h5, _⟩ := parseDecl_good h3 hw {} none
  refine ⟨{ decl := some d' }, ?_, d', rfl, h5⟩
  unfold parseParameter
  rw [if_pos h1, h2, foldlM_ok_cons (b := { decl := some d' })]
  · rfl
  · unfold parameterChild; rw [h3.1]; simp only [h4]; rfl

theorem mapM_forall₂ {α β γ : Type} {f : α → Except Err β} {R : α → γ → Prop} {S : γ → β → Prop} {l : List α} {ws : List γ}
    (h : List.Forall₂ R l ws) (hf : ∀ a w, w ∈ ws → R a w → ∃ b, f a = .ok b ∧ S w b) :
    ∃ bs, l.mapM f = .ok bs ∧ List.Forall₂ S ws bs := by
  induction h with
  | nil => exact ⟨[], rfl, .nil⟩
  | @cons a w l ws ha _ ih =>
    obtain ⟨b, h1, h2⟩ := hf a w (by simp) ha
    obtain ⟨bs, h3, h4⟩ := ih (fun a' w' hw' => hf a' w' (by simp [hw']))
    exact ⟨b :: bs, by rw [List.mapM_cons, h1, h3]; rfl, .cons h2 h4⟩

theorem parseParameterList_good {env : Env} {x : Xml} {ws : List WDecl} (hx : ParamsXml env x ws) (hw : ∀ w ∈ ws, GoodType env w.words) :
    ∃ ps, parseParameterList env x = .ok ps ∧ List.Forall₂ (ParamOf env) ws ps := by
  obtain ⟨h1, h2, h3⟩ := hx
  unfold parseParameterList
  rw [if_pos h1]
  have : x.withTag .parameter = x.children.filter (fun c => c.tag ≠ .comment) := by
    unfold Xml.withTag
    apply List.filter_congr
    intro c hc
    rcases h2 c hc with h | h <;> simp [h]
  rw [this]
  exact mapM_forall₂ h3 (fun a w hm hr => parseParameter_good hr (hw w hm))

theorem parseTemplateParam_good {env : Env} {x : Xml} {w : WTemplate} (hx : TemplateParamXml env x w)
    (hw : GoodTemplateParam env w) : ∃ p, parseParameter env x = .ok p ∧ TemplateParamOf env p w := by
  cases w with
  | decl d => exact parseParameter_good hx hw
  | type k n i =>
    cases i with
    | none =>
      obtain ⟨h1, t, m, h2, h3, ⟨c, h4, h5⟩, h6, h7⟩ := hx
      refine ⟨_, ?_, rfl⟩
      unfold parseParameter
      rw [if_pos h1, h2, foldlM_ok_cons (b := { templateType := some k }), foldlM_ok_cons (b := { templateType := some k, templateName := n })]
      · rfl
      · unfold parameterChild; rw [h6]; simp only [h7]
      · unfold parameterChild; rw [h3]; simp only [extractName_only h4 h5]
    | some v =>
      obtain ⟨h1, t, m, i, e, h2, h3, ⟨c, h4, h5⟩, h6, h7, h8, h9, h10⟩ := hx
      refine ⟨_, ?_, rfl⟩
      unfold parseParameter
      rw [if_pos h1, h2, foldlM_ok_cons (b := { templateType := some k }), foldlM_ok_cons (b := { templateType := some k, templateName := n }),
        foldlM_ok_cons (b := { templateType := some k, templateName := n, templateInit := v })]
      · rfl
      · unfold parameterChild; rw [h8]; simp only [parseInit_value h8 h9 h10]; rfl
      · unfold parameterChild; rw [h6]; simp only [h7]
      · unfold parameterChild; rw [h3]; simp only [extractName_only h4 h5]

theorem parseTemplate_good {env : Env} {t l : Xml} {ws : List WTemplate} (h1 : t.tag = .template_) (h2 : t.children = [l])
    (h3 : l.tag = .parameterList) (h4 : ∀ c ∈ l.children, c.tag = .parameter)
    (h5 : List.Forall₂ (TemplateParamXml env) l.children ws) (hw : GoodTemplate env (some ws)) :
    ∃ ps, parseTemplate env t = .ok ps ∧ List.Forall₂ (fun w p => TemplateParamOf env p w) ws ps := by
  have hl : l.withTag .parameter = l.children := by
    unfold Xml.withTag
    rw [List.filter_eq_self]; intro c hc; simpa using h4 c hc
  obtain ⟨ps, h6, h7⟩ := mapM_forall₂ (f := parseParameter env) (S := fun w p => TemplateParamOf env p w) h5
    (fun a w hm hr => parseTemplateParam_good hr (hw ws rfl w hm))
  refine ⟨ps, ?_, h7⟩
  unfold parseTemplate
  rw [if_pos h1, h2, foldlM_ok_cons (b := some ps)]
  · rfl
  · unfold templateChild parseParameterList; rw [h3]; simp only [if_pos, hl, h6]; rfl

/-! ### Functions -/

theorem operator_ok {x : Xml} (h : x.tag = .functionDecl ∨ x.tag = .function) :
    isOperatorFunction x = .ok (decide (x.meta.typeAttr = some "operator".toList)) := by
  unfold isOperatorFunction
  rw [if_pos (h.symm)]

theorem functionName_good {env : Env} {c : Xml} {name : Str} (h : FuncNameXml env c name) : functionName env c = .ok name := by
  unfold functionName
  rcases h with ⟨s, h1, h2, h3⟩ | ⟨d, o, h1, h2, h3, h4, h5⟩
  · rw [parseName_names h1, ← h2]
    simp only [bind, Except.bind]
    rw [if_neg h3]
  · have hn : parseName env c = .ok "operator".toList := by
      unfold parseName; rw [if_pos h1, h2]; rfl
    rw [hn]
    simp only [bind, Except.bind]
    rw [if_pos trivial]
    have ht := theChild_only h3
    unfold Xml.theChild at ht
    split at ht
    · next e he =>
      cases ht
      simp only [parseName_names h4]
      show Except.ok _ = _
      unfold startsLikeWord
      rcases h5 with ⟨⟨a, r, h6, h7⟩, h5⟩ | ⟨h6, h5⟩
      · have : (a.isAlpha || a == '_') = true := by simpa using h7
        rw [h5, h6]; simp only [this, if_true]; rfl
      · rw [h5]
        cases hs : strip o with
        | nil => rfl
        | cons a r =>
          have : (a.isAlpha || a == '_') = false := by
            rw [Bool.eq_false_iff]; intro hh; exact h6 ⟨a, r, hs, by simpa using hh⟩
          simp only [this]; rfl
    · cases ht

theorem theChild_none {x : Xml} {t : Tag} (h : ∀ d ∈ x.children, d.tag ≠ t) : x.theChild t = none := by
  unfold Xml.theChild Xml.withTag
  rw [List.filter_eq_nil_iff.2]
  intro d hd; simpa using h d hd

theorem noexcept_good {env : Env} {c : Xml} {o : Option Str} (h : TailXml env c (.noexcept_ o)) :
    c.tag = .noexcept_ ∧ noexceptOf env c = o.getD [] := by
  cases o with
  | none =>
    refine ⟨h.1, ?_⟩
    unfold noexceptOf; rw [theChild_none h.2]; rfl
  | some s =>
    obtain ⟨h1, a, h2, h3⟩ := h
    refine ⟨h1, ?_⟩
    unfold noexceptOf; rw [theChild_only h2]; exact h3

theorem or_getLast {α : Type} (a : α) (l : List α) (n : Option α) : (l.getLast?).or (some a) = ((a :: l).getLast?).or n := by
  cases l with
  | nil => rfl
  | cons b l =>
    rw [List.getLast?_cons_cons]
    cases h : (b :: l).getLast? with
    | none => simp at h
    | some v => rfl

theorem tailNoexcept_cons (o : Option Str) (ts : List Tail) (n : Option Str) :
    (tailNoexcept (Tail.noexcept_ o :: ts)).or n = (tailNoexcept ts).or (some (o.getD [])) := by
  unfold tailNoexcept
  exact (or_getLast (o.getD []) _ n).symm

/-- The tail of a function. -/
theorem tailFold (env : Env) (x : Xml) {cs : List Xml} {ts : List Tail} (h : List.Forall₂ (TailXml env) cs ts) (hm : Tail.memberInit ∉ ts) :
    ∀ f : Func, cs.foldlM (functionChild env x) f =
      .ok { f with specifiers := f.specifiers ++ tailSpecifiers ts, pureVirtual := f.pureVirtual || decide (Tail.pure ∈ ts),
                   noexcept_ := (tailNoexcept ts).or f.noexcept_ } := by
  induction h with
  | nil => intro f; simp [tailSpecifiers, tailNoexcept, pure, Except.pure]
  | @cons c t cs ts hc _ ih =>
    intro f
    have ih := ih (fun hh => hm (List.mem_cons_of_mem _ hh))
    cases t with
    | specifier s =>
      rw [foldlM_ok_cons (b := { f with specifiers := f.specifiers ++ [s] })]
      · rw [ih]; simp [tailSpecifiers, tailNoexcept]
      · unfold functionChild; rw [hc.1]; simp only [hc.2]
    | noexcept_ o =>
      obtain ⟨h1, h2⟩ := noexcept_good hc
      rw [foldlM_ok_cons (b := { f with noexcept_ := some (o.getD []) })]
      · rw [ih, tailNoexcept_cons o ts f.noexcept_]
        simp [tailSpecifiers]
      · unfold functionChild; rw [h1]; simp only [h2]
    | pure =>
      obtain ⟨h1, t, h2, h3⟩ := hc
      rw [foldlM_ok_cons (b := { f with pureVirtual := true })]
      · rw [ih]; simp [tailSpecifiers, tailNoexcept]
      · unfold functionChild; rw [h1]; simp only [h2, h3, if_true]
    | «attribute» =>
      rw [foldlM_ok_cons (b := f)]
      · rw [ih]; simp [tailSpecifiers, tailNoexcept]
      · unfold functionChild; rw [show c.tag = .attribute from hc]
    | memberInit => simp at hm
    | body =>
      rw [foldlM_ok_cons (b := f)]
      · rw [ih]; simp [tailSpecifiers, tailNoexcept]
      · unfold functionChild; rw [show c.tag = .block from hc]

theorem templateFold {env : Env} (x : Xml) {ts : List Xml} {w : Option (List WTemplate)} (h : TemplateXml env ts w) (hw : GoodTemplate env w)
    (f : Func) (hf : f.template = none) : ∃ t, ts.foldlM (functionChild env x) f = .ok { f with template := t } ∧ TemplateOf env t w := by
  cases w with
  | none =>
    unfold TemplateXml at h; subst h
    exact ⟨none, by rw [← hf]; rfl, rfl⟩
  | some ws =>
    obtain ⟨t, l, rfl, h1, h2, h3, h4, h5⟩ := h
    obtain ⟨ps, h6, h7⟩ := parseTemplate_good h1 h2 h3 h4 h5 hw
    refine ⟨some ps, ?_, ps, rfl, h7⟩
    rw [foldlM_ok_cons (b := { f with template := some ps })]
    · rfl
    · unfold functionChild; rw [h1]; simp only [h6]; rfl

theorem functionHead {env : Env} {x : Xml} (hx : x.tag = .functionDecl ∨ x.tag = .function) {w : WFunc} (f : Func)
    (hf : f.template = none) (hf' : f.returnType = none)
    (ht : GoodTemplate env w.template) (hret : GoodType env w.ret) (hp : ∀ p ∈ w.params, GoodType env p.words)
    {ts : List Xml} {t n ps : Xml} {tail : List Xml} (h1 : TemplateXml env ts w.template) (h2 : TypeXml env t w.ret)
    (h3 : FuncNameXml env n w.name) (h4 : ParamsXml env ps w.params) :
    ∃ tp rt qs, (ts ++ t :: n :: ps :: tail).foldlM (functionChild env x) f =
        tail.foldlM (functionChild env x) { f with template := tp, returnType := some rt, name := w.name, params := some qs } ∧
      TemplateOf env tp w.template ∧ TypeOf env w.ret rt ∧ List.Forall₂ (ParamOf env) w.params qs := by
  obtain ⟨tp, h5, h6⟩ := templateFold x h1 ht f hf
  obtain ⟨rt, h7, h8⟩ := parseType_good env h2 hret none (decide (x.meta.typeAttr = some "operator".toList))
  obtain ⟨qs, h9, h10⟩ := parseParameterList_good h4 hp
  refine ⟨tp, rt, qs, ?_, h6, h8, h10⟩
  rw [foldlM_ok_append h5, foldlM_ok_cons (b := { f with template := tp, returnType := some rt }),
    foldlM_ok_cons (b := { f with template := tp, returnType := some rt, name := w.name }),
    foldlM_ok_cons (b := { f with template := tp, returnType := some rt, name := w.name, params := some qs })]
  · unfold functionChild; rw [h4.1]; simp only [h9]; rfl
  · have hn : n.tag = .name := by
      rcases h3 with ⟨s, h, _⟩ | ⟨_, _, h, _⟩
      · exact h.1
      · exact h
    unfold functionChild; rw [hn]; simp only [functionName_good h3]; rfl
  · unfold functionChild returnTypeChild; rw [h2.1]; simp only [hf', operator_ok hx]
    show (parseType env t none _ >>= _) = _
    rw [h7]; rfl

end Verif.Parse.Lemmas
