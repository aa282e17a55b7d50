import Verif.Pimpl.Glue
import Verif.Lines.Props

/-! C100: the header of a published class. -/

namespace Verif.Pimpl.Props
open Verif.Py Verif.Pimpl Verif.Print

/-! ### Significant lines -/

theorem sig_nl (a b : Str) : Spec.significant (a ++ '\n' :: b) = Spec.significant a ++ Spec.significant b := by
  unfold Spec.significant
  rw [Template.lines_append_nl, List.map_append, List.filter_append]

theorem sig_nil : Spec.significant [] = [] := rfl

theorem sig_unlines (ls : List Str) : Spec.significant (unlines ls) = ls.flatMap Spec.significant := by
  induction ls with
  | nil => rfl
  | cons l ls ih =>
    cases ls with
    | nil => rw [List.flatMap_cons, List.flatMap_nil, List.append_nil]; rfl
    | cons m ls =>
      have e : unlines (l :: m :: ls) = l ++ '\n' :: unlines (m :: ls) := by
        unfold unlines
        rw [join_cons_of_ne_nil _ _ (by simp)]
        simp
      rw [e, sig_nl, ih]
      rfl

theorem dropWhile_nil (p : Char → Bool) (l : Str) : l.dropWhile p = [] ↔ ∀ c ∈ l, p c = true := by
  induction l with
  | nil => exact ⟨fun _ _ h => (by cases h), fun _ => rfl⟩
  | cons c l ih =>
    rw [List.forall_mem_cons]
    by_cases h : p c = true
    · rw [List.dropWhile_cons_of_pos h, ih]
      exact ⟨fun g => ⟨h, g⟩, fun g => g.2⟩
    · rw [List.dropWhile_cons_of_neg h]
      exact ⟨fun g => (by cases g), fun g => absurd g.1 h⟩

theorem isBlank_iff (l : Str) : isBlank l = (rstrip l).isEmpty := by
  rw [Bool.eq_iff_iff]
  unfold isBlank
  rw [beq_iff_eq, List.length_eq_zero_iff, List.isEmpty_iff]
  have key : ∀ s : Str, rstrip s = [] ↔ ∀ c ∈ s, isSpace c = true := by
    intro s
    unfold rstrip
    rw [List.reverse_eq_nil_iff, dropWhile_nil]
    simp
  unfold strip
  rw [key, key]
  constructor
  · intro h c hc
    unfold lstrip at h
    rw [← List.takeWhile_append_dropWhile (p := isSpace) (l := l)] at hc
    rcases List.mem_append.1 hc with h1 | h1
    · exact List.all_eq_true.1 List.all_takeWhile c h1
    · exact h c h1
  · intro h c hc
    exact h c ((List.dropWhile_suffix _).subset hc)

theorem sig_filter (s : Str) : Spec.significant s = ((lines s).filter (fun l => !isBlank l)).map rstrip := by
  unfold Spec.significant
  rw [List.filter_map]
  congr 1
  refine List.filter_congr (fun l _ => ?_)
  rw [isBlank_iff]
  rfl

theorem sig_max (s : Str) (n : Int) : Spec.significant (Lines.codeSetMaxConsecutiveEmptyLines s n) = Spec.significant s := by
  rw [sig_filter, sig_filter, Lines.C01_nonblank_lines_kept]

theorem rstrip_append {a b : Str} (h : rstrip b ≠ []) : rstrip (a ++ b) = a ++ rstrip b := by
  unfold rstrip at h ⊢
  rw [List.reverse_append, List.dropWhile_append]
  split
  · rename_i he
    exact absurd (by rw [List.isEmpty_iff.1 he]; rfl) h
  · rw [List.reverse_append, List.reverse_reverse]

theorem rstrip_rstrip (s : Str) : rstrip (rstrip s) = rstrip s := by
  unfold rstrip
  rw [List.reverse_reverse]
  congr 1
  cases h : s.reverse.dropWhile isSpace with
  | nil => rfl
  | cons c l =>
    have : isSpace c = false := by
      have := List.head?_dropWhile_not isSpace s.reverse
      rw [h] at this
      simpa using this
    rw [List.dropWhile_cons_of_neg (by rw [this]; decide)]

theorem rstrip_blank {s : Str} (h : ∀ c ∈ s, isSpace c = true) : rstrip s = [] := by
  unfold rstrip
  rw [List.reverse_eq_nil_iff, dropWhile_nil]
  simpa using h

/-- The indentation of the significant lines. -/
theorem sig_indent {ind : Str} (hb : ∀ c ∈ ind, isSpace c = true) (hn : '\n' ∉ ind) (s : Str) :
    Spec.significant (Indent.indentCode s 1 false (some ind)) = (Spec.significant s).map (ind ++ ·) := by
  unfold Indent.indentCode
  rw [if_neg (by decide)]
  show Spec.significant (unlines ((lines s).map (Indent.indentLine ind true))) = _
  rw [sig_unlines]
  unfold Spec.significant
  have hmem : ∀ l ∈ lines s, '\n' ∉ l := fun l hl => not_mem_of_mem_lines hl
  generalize lines s = ls at hmem ⊢
  induction ls with
  | nil => rfl
  | cons l ls ih =>
    rw [List.map_cons, List.flatMap_cons, ih (fun x hx => hmem x (List.mem_cons_of_mem _ hx)), List.map_cons]
    have hl := hmem l (by simp)
    have hnr : '\n' ∉ rstrip l := fun h => hl ((rstrip_prefix l).subset h)
    have hone : ∀ x : Str, '\n' ∉ x → lines x = [x] := by
      intro x hx
      have := lines_unlines (ls := [x]) (by simp) (by simpa using hx)
      exact this
    unfold Indent.indentLine
    by_cases h0 : l.length = 0
    · have : l = [] := List.length_eq_zero_iff.1 h0
      subst this
      rw [if_pos h0]
      rfl
    · rw [if_neg h0, if_pos rfl, hone (ind ++ rstrip l) (by
        intro hm
        rcases List.mem_append.1 hm with h | h
        · exact hn h
        · exact hnr h), List.map_cons, List.map_nil]
      by_cases hr : rstrip l = []
      · rw [hr, List.append_nil, rstrip_blank hb]
        rfl
      · rw [rstrip_append (by rw [rstrip_rstrip]; exact hr), rstrip_rstrip]
        have e1 : (ind ++ rstrip l).isEmpty = false := by
          cases h : rstrip l with
          | nil => exact absurd h hr
          | cons c r => simp
        have e2 : (rstrip l).isEmpty = false := by
          cases h : rstrip l with
          | nil => exact absurd h hr
          | cons c r => rfl
        rw [List.filter_cons_of_pos (by rw [e1]; rfl), List.filter_nil, List.filter_cons_of_pos (by rw [e2]; rfl)]
        rfl

/-- A line that has no blank at its end. -/
theorem sig_line {l : Str} {c : Char} (hn : '\n' ∉ l) (hc : isSpace c = false) (hc' : c ≠ '\n') : Spec.significant (l ++ [c]) = [l ++ [c]] := by
  have h1 : lines (l ++ [c]) = [l ++ [c]] := by
    refine lines_unlines (ls := [l ++ [c]]) (by simp) ?_
    intro x hx hm
    rw [List.mem_singleton.1 hx] at hm
    rcases List.mem_append.1 hm with h | h
    · exact hn h
    · exact hc' (List.mem_singleton.1 h).symm
  have h2 : rstrip (l ++ [c]) = l ++ [c] := by
    unfold rstrip
    rw [List.reverse_append, List.reverse_singleton, List.singleton_append, List.dropWhile_cons_of_neg (by rw [hc]; decide)]
    simp
  unfold Spec.significant
  rw [h1, List.map_cons, List.map_nil, h2, List.filter_cons_of_pos (by simp), List.filter_nil]

/-! ### Plain comments -/

theorem plain_singleton {c : Char} (h : c ≠ '{') : Plain [c] := plain_of_no_open (by simpa using fun e => h e.symm)

theorem plain_lineComments {s : Str} (h : Plain s) : Plain (unlines ((splitlines s).map lineComment)) := by
  refine plain_join (plain_singleton (by decide)) (fun l hl => ?_)
  obtain ⟨x, hx, rfl⟩ := List.mem_map.1 hl
  have hm : x ∈ lines s := by
    unfold splitlines at hx
    split at hx
    · exact (List.dropLast_sublist _).subset hx
    · split at hx
      · cases hx
      · exact hx
  unfold lineComment
  split
  · exact plain_lines h x hm
  · exact plain_append (plain_of_no_open (by decide +kernel)) (plain_lines h x hm)

theorem plain_cComment {s : Str} (h : Plain s) : Plain ("/*".toList ++ (s ++ "*/".toList)) :=
  plain_append (plain_of_no_open (by decide +kernel)) (plain_append h (plain_of_no_open (by decide +kernel)))

theorem plain_topCode {c : Comments} (h : Plain c.top) : Plain (topCode c) := by
  unfold topCode
  split
  · exact plain_cComment h
  · simp only
    split
    · split
      · exact plain_lineComments h
      · exact plain_append (plain_lineComments h) (plain_singleton (by decide))
    · exact plain_lineComments h

theorem plain_stripNl {s : Str} (h : Plain s) : Plain (s.reverse.dropWhile (· = '\n')).reverse := by
  generalize hr : s.reverse = r
  have hs : s = r.reverse := by rw [← hr, List.reverse_reverse]
  subst hs
  clear hr
  induction r with
  | nil => exact h
  | cons c r ih =>
    by_cases hc : c = '\n'
    · subst hc
      rw [List.dropWhile_cons_of_pos (by simp)]
      rw [List.reverse_cons] at h
      exact ih (plain_left h)
    · rw [List.dropWhile_cons_of_neg (by simpa using hc)]
      exact h

theorem plain_topCodeNoEol {c : Comments} (h : Plain c.top) : Plain (topCodeNoEol c) := by
  unfold topCodeNoEol
  split
  · exact plain_cComment h
  · exact plain_stripNl (plain_lineComments h)

theorem plain_eolCode {c : Comments} (h : Plain c.eol) : Plain (eolCode c) := by
  unfold eolCode
  split
  · exact plain_of_no_open (by simp)
  · split
    · exact h
    · exact plain_append (plain_of_no_open (by decide +kernel)) h

theorem noComma_eolCode {c : Comments} (h : NoComma c.eol) : NoComma (eolCode c) := by
  unfold eolCode
  split
  · decide
  · split
    · exact h
    · have key : ∀ p : Str, '/' ∉ p → endsWith c.eol p = false → endsWith (" //".toList ++ c.eol) p = false := by
        intro p hp he
        apply ends_false
        intro t ht
        have ht : t ++ p = [' ', '/'] ++ ('/' :: c.eol) := ht
        rcases List.append_eq_append_iff.1 ht with ⟨s, h1, h2⟩ | ⟨s, h1, h2⟩
        · exact hp (by rw [h2]; simp)
        · cases s with
          | nil => exact hp (by rw [List.nil_append] at h2; rw [← h2]; simp)
          | cons d s =>
            injection h2 with _ h3
            have : endsWith c.eol p = true := List.isSuffixOf_iff_suffix.2 ⟨s, h3.symm⟩
            rw [he] at this
            cases this
      exact ⟨key _ (by decide) h.1, key _ (by decide) h.2.1, key _ (by decide) h.2.2⟩

theorem plain_commentCode {t : Str} (h : Plain t) : Plain (commentCode t) := by
  refine plain_join (plain_singleton (by decide)) (fun l hl => ?_)
  obtain ⟨x, hx, rfl⟩ := List.mem_map.1 hl
  exact plain_append (plain_of_no_open (by decide +kernel)) (plain_lines h x hx)

/-! ### The declarations -/

/-- The return type in a declaration: `inline` and `constexpr` are removed, twice. -/
def declarationType (t : Type.CppType) : Type.CppType :=
  { t with specifiers := (((t.specifiers.erase "inline".toList).erase "constexpr".toList).erase "inline".toList).erase "constexpr".toList }

theorem decl_ret (f : Fn) : removeIncompatible (removeIncompatible f) = { f with ret := f.ret.map declarationType } := by
  obtain ⟨k, tm, ret, n, ps, sp, ne, pv⟩ := f
  cases ret <;> rfl

structure PlainComments (c : Comments) : Prop where
  top : Plain c.top
  eol : Plain c.eol
  comma : NoComma c.eol

/-- C100: the text of the declaration of a method, exactly. -/
theorem C100_declaration (c : Comments) (f : Fn) (hf : PlainFn f) (hc : PlainComments c) (hp : endsWith (paramsCode f.params) [',', ' '] = false) :
    methodDecl c f = Spec.declaration (topCode c) (Spec.returnType (f.ret.map declarationType)) f.name (paramsCode f.params) (Spec.isConst f) (eolCode c) := by
  have hret : Plain (retText { f with ret := f.ret.map declarationType }) := by
    unfold retText
    cases h : f.ret with
    | none => exact plain_of_no_open (v := []) (by decide)
    | some t =>
      refine plain_type (t := declarationType t) (fun w hw => hf.ret t h w ?_)
      rw [List.mem_append, List.mem_append] at hw ⊢
      rcases hw with (hw | hw) | hw
      · exact .inl (.inl (List.mem_of_mem_erase (List.mem_of_mem_erase (List.mem_of_mem_erase (List.mem_of_mem_erase hw)))))
      · exact .inl (.inr hw)
      · exact .inr hw
  unfold methodDecl
  rw [decl_ret]
  refine (methodDecl_fill (topCode c) _ f.name (paramsCode f.params) (eolCode c) (topCodeNoEol c) (Spec.isConst f) (plain_topCode hc.top) hret hf.name
    (plain_params hf.params).1 (plain_eolCode hc.eol) (plain_topCodeNoEol hc.top) hp (noComma_eolCode hc.comma)).trans ?_
  have hre : retText { f with ret := f.ret.map declarationType } = Spec.returnType (f.ret.map declarationType) := by
    unfold retText
    cases f.ret <;> rfl
  rw [hre]

/-- C100: the text of the declaration of a constructor, exactly. -/
theorem C100_constructor (pub : Str) (c : Comments) (f : Fn) (hf : PlainFn f) (hpub : Plain pub) (hc : PlainComments c)
    (hp : endsWith (paramsCode f.params) [',', ' '] = false) :
    ctorDecl pub c f = Spec.ctorDeclaration (topCode c) pub (paramsCode f.params) (eolCode c) :=
  ctorDecl_fill (topCode c) pub (paramsCode f.params) (eolCode c) (topCodeNoEol c) (plain_topCode hc.top) hpub
    (plain_params hf.params).1 (plain_eolCode hc.eol) (plain_topCodeNoEol hc.top) hp (noComma_eolCode hc.comma)

example : methodDecl ⟨"// Adds".toList, " // fast".toList, false⟩ addFn = "// Adds\nstatic int add(int a, int b); // fast".toList ∧
    PlainComments ⟨"// Adds".toList, " // fast".toList, false⟩ :=
  ⟨by decide +kernel, ⟨by decide +kernel, by decide +kernel, by decide +kernel⟩⟩

/-- The texts of an element have no placeholder, and no comma at their ends. -/
def ElemOk : Elem → Prop
  | .fn c f => PlainFn f ∧ PlainComments c ∧ endsWith (paramsCode f.params) [',', ' '] = false
  | .comment c t => PlainComments c ∧ Plain t
  | _ => True

/-- The text that declares an element in the published class: functions, except the destructor, and comments. -/
def declarationOf (pub : Str) : Elem → Option Str
  | .fn c f =>
    match f.kind with
    | .ctorDecl | .ctor => some (Spec.ctorDeclaration (topCode c) pub (paramsCode f.params) (eolCode c))
    | .decl | .defn =>
      if f.name.head? = some '~' then none
      else some (Spec.declaration (topCode c) (Spec.returnType (f.ret.map declarationType)) f.name (paramsCode f.params) (Spec.isConst f) (eolCode c))
  | .emptyLine => some []
  | .comment c t => some (topCode c ++ commentCode t ++ eolCode c)
  | _ => none

/-- A text on its own line. -/
def own : Option Str → Str
  | none => []
  | some s => s ++ ['\n']

theorem declOf_eq (pub : Str) (hpub : Plain pub) (e : Elem) (he : ElemOk e) : declOf pub e = own (declarationOf pub e) := by
  cases e with
  | fn c f =>
    obtain ⟨h1, h2, h3⟩ := he
    have e1 := C100_declaration c f h1 h2 h3
    have e2 := C100_constructor pub c f h1 hpub h2 h3
    obtain ⟨k, tm, ret, n, ps, sp, ne, pv⟩ := f
    have key : (if startsWith n ['~'] = true then [] else methodDecl c ⟨k, tm, ret, n, ps, sp, ne, pv⟩ ++ ['\n']) =
        own (if n.head? = some '~' then none else some (methodDecl c ⟨k, tm, ret, n, ps, sp, ne, pv⟩)) := by
      by_cases ht : n.head? = some '~'
      · rw [if_pos ht, if_pos ((startsWith_tilde n).2 ht)]
        rfl
      · rw [if_neg ht, if_neg (fun e => ht ((startsWith_tilde n).1 e))]
        rfl
    rw [e1] at key
    cases k with
    | decl => exact (congrArg (fun x => if startsWith n ['~'] = true then [] else x ++ ['\n']) e1).trans key
    | defn => exact (congrArg (fun x => if startsWith n ['~'] = true then [] else x ++ ['\n']) e1).trans key
    | ctorDecl => exact congrArg (· ++ ['\n']) e2
    | ctor => exact congrArg (· ++ ['\n']) e2
  | comment c t =>
    show withComments c false false (commentCode t) ++ ['\n'] = (topCode c ++ commentCode t ++ eolCode c) ++ ['\n']
    unfold withComments
    simp
  | _ => rfl

theorem plain_own (pub : Str) (hpub : Plain pub) (e : Elem) (he : ElemOk e) : Plain (own (declarationOf pub e)) := by
  have hnl : Plain ['\n'] := plain_singleton (by decide)
  have hlp : Plain "(".toList := plain_of_no_open (by decide +kernel)
  have hrp : Plain ")".toList := plain_of_no_open (by decide +kernel)
  have hbl : Plain " ".toList := plain_of_no_open (by decide +kernel)
  have hsc : Plain ";".toList := plain_of_no_open (by decide +kernel)
  have hre : Plain ");".toList := plain_of_no_open (by decide +kernel)
  cases e with
  | fn c f =>
    obtain ⟨h1, h2, h3⟩ := he
    have hctor : Plain (Spec.ctorDeclaration (topCode c) pub (paramsCode f.params) (eolCode c)) :=
      plain_append (plain_topCode h2.top) (plain_append hpub (plain_append hlp (plain_append (plain_params h1.params).1 (plain_append hre
        (plain_eolCode h2.eol)))))
    have hrt : Plain (Spec.returnType (f.ret.map declarationType)) := by
      cases h : f.ret with
      | none => exact plain_of_no_open (v := []) (by decide)
      | some t =>
        refine plain_type (t := declarationType t) (fun w hw => h1.ret t h w ?_)
        rw [List.mem_append, List.mem_append] at hw ⊢
        rcases hw with (hw | hw) | hw
        · exact .inl (.inl (List.mem_of_mem_erase (List.mem_of_mem_erase (List.mem_of_mem_erase (List.mem_of_mem_erase hw)))))
        · exact .inl (.inr hw)
        · exact .inr hw
    have hcs : Plain (if Spec.isConst f then " const".toList else []) := by split <;> exact plain_of_no_open (by decide +kernel)
    have hmeth : Plain (Spec.declaration (topCode c) (Spec.returnType (f.ret.map declarationType)) f.name (paramsCode f.params) (Spec.isConst f)
        (eolCode c)) :=
      plain_append (plain_topCode h2.top) (plain_append hrt (plain_append hbl (plain_append h1.name (plain_append hlp (plain_append (plain_params h1.params).1
        (plain_append hrp (plain_append hcs (plain_append hsc (plain_eolCode h2.eol)))))))))
    obtain ⟨k, tm, ret, n, ps, sp, ne, pv⟩ := f
    have key : Plain (own (if n.head? = some '~' then none else some (Spec.declaration (topCode c) (Spec.returnType (ret.map declarationType)) n
        (paramsCode ps) (Spec.isConst ⟨k, tm, ret, n, ps, sp, ne, pv⟩) (eolCode c)))) := by
      split
      · exact plain_of_no_open (v := []) (by decide)
      · exact plain_append hmeth hnl
    cases k with
    | decl => exact key
    | defn => exact key
    | ctorDecl => exact plain_append hctor hnl
    | ctor => exact plain_append hctor hnl
  | comment c t =>
    exact plain_append (plain_append (plain_append (plain_topCode he.1.top) (plain_commentCode he.2)) (plain_eolCode he.1.eol)) hnl
  | emptyLine => exact plain_append (a := []) (plain_of_no_open (by decide)) hnl
  | _ => exact plain_of_no_open (v := []) (by decide)

/-- The children of the public zones. -/
def publicOnes (children : List Elem) : List Elem := children.flatMap (fun e => match e with
    | .access _ name _ l => if name = "public".toList then l else []
    | _ => [])

/-- The significant lines of the declarations. -/
def declaredLines (pub : Str) (children : List Elem) : List Str :=
  (publicOnes children).flatMap (fun e => match declarationOf pub e with
    | none => []
    | some s => Spec.significant s)

theorem sig_own (x : Option Str) (r : Str) : Spec.significant (own x ++ r) = (match x with | none => [] | some s => Spec.significant s) ++ Spec.significant r := by
  cases x with
  | none => rfl
  | some s =>
    show Spec.significant ((s ++ ['\n']) ++ r) = _
    rw [List.append_assoc]
    exact sig_nl s r

theorem sig_dropLast (s : Str) : Spec.significant (if endsWith s ['\n'] then s.dropLast else s) = Spec.significant s := by
  split
  · rename_i h
    obtain ⟨t, rfl⟩ := List.isSuffixOf_iff_suffix.1 h
    rw [List.dropLast_concat, sig_nl t [], sig_nil, List.append_nil]
  · rfl

theorem plain_dropLast {s : Str} (h : Plain s) : Plain (if endsWith s ['\n'] then s.dropLast else s) := by
  split
  · rename_i he
    obtain ⟨t, rfl⟩ := List.isSuffixOf_iff_suffix.1 he
    rw [List.dropLast_concat]
    exact plain_left h
  · exact h

theorem plain_indent {ind s : Str} (hi : Plain ind) (h : Plain s) : Plain (Indent.indentCode s 1 false (some ind)) := by
  unfold Indent.indentCode
  rw [if_neg (by decide)]
  show Plain (unlines ((lines s).map (Indent.indentLine ind true)))
  refine plain_join (plain_singleton (by decide)) (fun l hl => ?_)
  obtain ⟨x, hx, rfl⟩ := List.mem_map.1 hl
  unfold Indent.indentLine
  split
  · exact plain_of_no_open (by simp)
  · rw [if_pos rfl]
    exact plain_append hi (plain_rstrip (not_mem_of_mem_lines hx) (plain_lines h x hx))

theorem methodDecls_facts (o : Options) (pub : Str) (c : Class) (hpub : Plain pub) (hi : Plain o.indentStr) (hb : ∀ x ∈ o.indentStr, isSpace x = true)
    (hn : '\n' ∉ o.indentStr) (he : ∀ e ∈ publicOnes c.children, ElemOk e) :
    Plain (methodDecls o pub c) ∧ Spec.significant (methodDecls o pub c) = (declaredLines pub c.children).map (o.indentStr ++ ·) := by
  have hsum : Plain ((publicChildren c.children).flatMap (declOf pub)) ∧
      Spec.significant ((publicChildren c.children).flatMap (declOf pub)) = declaredLines pub c.children := by
    rw [publicChildren_eq]
    unfold declaredLines
    unfold publicOnes at he ⊢
    generalize c.children.flatMap _ = l at he ⊢
    induction l with
    | nil => exact ⟨plain_of_no_open (v := []) (by decide), rfl⟩
    | cons e l ih =>
      have h1 := he e (by simp)
      obtain ⟨i1, i2⟩ := ih (fun x hx => he x (List.mem_cons_of_mem _ hx))
      rw [List.flatMap_cons, List.flatMap_cons, declOf_eq pub hpub e h1, sig_own, i2]
      exact ⟨plain_append (plain_own pub hpub e h1) i1, rfl⟩
  unfold methodDecls
  simp only
  refine ⟨plain_indent hi (plain_dropLast hsum.1), ?_⟩
  rw [sig_indent hb hn, sig_dropLast, hsum.2]

theorem no_nl {a b : Str} (ha : '\n' ∉ a) (hb : '\n' ∉ b) : '\n' ∉ a ++ b := fun h => (List.mem_append.1 h).elim ha hb

/-- The significant lines of the header: the forward declaration, the comment, the class with the declarations, its destructor, and its member. -/
def headerLines (o : Options) (pub : Str) (c : Class) : List Str :=
  let kw := if c.isClass then "class ".toList else "struct ".toList
  [kw ++ c.name ++ ";".toList] ++ Spec.significant (topCodeNoEol c.comments) ++ Spec.significant (kw ++ pub ++ eolCode c.comments) ++ ["{".toList] ++
    (if c.isClass then [o.indentPublic ++ "public:".toList] else []) ++ (declaredLines pub c.children).map (o.indentStr ++ ·) ++
    [o.indentStr ++ "~".toList ++ pub ++ "();".toList, o.indentPublic ++ "private:".toList,
     o.indentStr ++ "std::unique_ptr<".toList ++ c.name ++ "> ".toList ++ o.member ++ ";".toList, "};".toList]

/-- C100: the lines of the header, in order, if the brace has its own line (the default): only blanks at the ends of lines and empty lines may differ. -/
theorem C100_header_partial (o : Options) (pub : Str) (c : Class) (hlf : o.lineFeedBeforeBlock = true)
    (hi : Plain o.indentStr) (hib : ∀ x ∈ o.indentStr, isSpace x = true) (hin : '\n' ∉ o.indentStr)
    (hip : Plain o.indentPublic) (hipb : ∀ x ∈ o.indentPublic, isSpace x = true) (hipn : '\n' ∉ o.indentPublic)
    (hm : Plain o.member) (hmn : '\n' ∉ o.member) (hpub : Plain pub) (hpubn : '\n' ∉ pub) (hname : Plain c.name) (hnn : '\n' ∉ c.name)
    (hc : Plain c.comments.top ∧ Plain c.comments.eol) (he : ∀ e ∈ publicOnes c.children, ElemOk e) :
    Spec.significant (headerCode o pub c) = headerLines o pub c := by
  obtain ⟨d1, d2⟩ := methodDecls_facts o pub c hpub hi hib hin he
  have hkw : Plain (if c.isClass then "class".toList else "struct".toList) := by split <;> exact plain_of_no_open (by decide +kernel)
  have hkn : '\n' ∉ (if c.isClass then "class".toList else "struct".toList) := by split <;> decide +kernel
  have hmp : Plain (if c.isClass then "public:".toList else []) := by split <;> exact plain_of_no_open (by decide +kernel)
  unfold headerCode
  have hs : ∀ r : Str, Spec.significant (if o.maxEmptyLines ≥ 0 then Lines.codeSetMaxConsecutiveEmptyLines r o.maxEmptyLines else r) =
      Spec.significant r := by
    intro r
    split
    · exact sig_max _ _
    · rfl
  simp only
  rw [hs]
  unfold headerReplacements
  rw [hlf, if_pos rfl]
  refine (congrArg Spec.significant (header_fill _ _ _ _ _ _ _ _ _ _ _ (plain_singleton (by decide)) hi hip hkw (plain_eolCode hc.2) hpub hname hm d1
    (plain_topCodeNoEol hc.1) hmp)).trans ?_
  rw [sig_unlines]
  simp only [List.flatMap_cons, List.flatMap_nil]
  rw [d2]
  have kwb : (if c.isClass then "class ".toList else "struct ".toList) = (if c.isClass then "class".toList else "struct".toList) ++ [' '] := by
    split <;> rfl
  unfold headerLines
  simp only
  rw [kwb]
  generalize (if c.isClass then "class".toList else "struct".toList) = kw at hkn ⊢
  have l1 : Spec.significant (kw ++ (" ".toList ++ (c.name ++ ";".toList))) = [kw ++ [' '] ++ c.name ++ ";".toList] := by
    have e : kw ++ (" ".toList ++ (c.name ++ ";".toList)) = (kw ++ [' '] ++ c.name) ++ [';'] := by
      simp only [List.append_assoc]
      rfl
    rw [e]
    exact sig_line (no_nl (no_nl hkn (by decide)) hnn) (by decide) (by decide)
  have l4 : Spec.significant (kw ++ (" ".toList ++ (pub ++ (eolCode c.comments ++ (['\n'] ++ "{".toList))))) =
      Spec.significant (kw ++ [' '] ++ pub ++ eolCode c.comments) ++ ["{".toList] := by
    have e : kw ++ (" ".toList ++ (pub ++ (eolCode c.comments ++ (['\n'] ++ "{".toList)))) = (kw ++ [' '] ++ pub ++ eolCode c.comments) ++ '\n' :: ['{'] := by
      simp only [List.append_assoc]
      rfl
    rw [e, sig_nl]
    rfl
  have l5 : Spec.significant (o.indentPublic ++ (if c.isClass then "public:".toList else [])) =
      if c.isClass then [o.indentPublic ++ "public:".toList] else [] := by
    split
    · have e : o.indentPublic ++ "public:".toList = (o.indentPublic ++ "public".toList) ++ [':'] := by
        rw [List.append_assoc]
        rfl
      rw [e]
      exact sig_line (no_nl hipn (by decide +kernel)) (by decide) (by decide)
    · rw [List.append_nil, sig_filter]
      have h1 : lines o.indentPublic = [o.indentPublic] := lines_unlines (ls := [o.indentPublic]) (by simp) (by simpa using hipn)
      rw [h1, List.filter_cons_of_neg (by rw [isBlank_iff, rstrip_blank hipb]; decide)]
      rfl
  have l7 : Spec.significant (o.indentStr ++ ("~".toList ++ (pub ++ "();".toList))) = [o.indentStr ++ "~".toList ++ pub ++ "();".toList] := by
    have e : o.indentStr ++ ("~".toList ++ (pub ++ "();".toList)) = (o.indentStr ++ "~".toList ++ pub ++ "()".toList) ++ [';'] := by
      simp only [List.append_assoc]
      rfl
    rw [e, sig_line (no_nl (no_nl (no_nl hin (by decide +kernel)) hpubn) (by decide +kernel)) (by decide) (by decide)]
    simp only [List.append_assoc]
    rfl
  have l8 : Spec.significant (o.indentPublic ++ "private:".toList) = [o.indentPublic ++ "private:".toList] := by
    have e : o.indentPublic ++ "private:".toList = (o.indentPublic ++ "private".toList) ++ [':'] := by
      rw [List.append_assoc]
      rfl
    rw [e]
    exact sig_line (no_nl hipn (by decide +kernel)) (by decide) (by decide)
  have l9 : Spec.significant (o.indentStr ++ ("std::unique_ptr<".toList ++ (c.name ++ ("> ".toList ++ (o.member ++ ";".toList))))) =
      [o.indentStr ++ "std::unique_ptr<".toList ++ c.name ++ "> ".toList ++ o.member ++ ";".toList] := by
    have e : o.indentStr ++ ("std::unique_ptr<".toList ++ (c.name ++ ("> ".toList ++ (o.member ++ ";".toList)))) =
        (o.indentStr ++ "std::unique_ptr<".toList ++ c.name ++ "> ".toList ++ o.member) ++ [';'] := by
      simp only [List.append_assoc]
      rfl
    rw [e]
    exact sig_line (no_nl (no_nl (no_nl (no_nl hin (by decide +kernel)) hnn) (by decide +kernel)) hmn) (by decide) (by decide)
  have l10 : Spec.significant "};".toList = ["};".toList] := by decide +kernel
  rw [l1, l4, l5, l7, l8, l9, l10, sig_nil]
  simp only [List.append_assoc, List.nil_append]
  rfl

/-- A class for the examples. -/
def personClass : Class :=
  ⟨true, "PersonPImpl".toList, ⟨"// A person".toList, [], false⟩,
    [.access ⟨[], [], false⟩ "public".toList false [.fn ⟨"// Makes".toList, [], false⟩ ctorFn, .emptyLine, .comment ⟨[], [], false⟩ "Sums".toList,
      .fn ⟨[], " // fast".toList, false⟩ addFn], .access ⟨[], [], false⟩ "private".toList false [.fn ⟨[], [], false⟩ waitFn]]⟩

example : headerCode defaultOptions "Person".toList personClass =
    ("class PersonPImpl;\n\n// A person\nclass Person\n{\n  public:\n    // Makes\n    Person(int age);\n\n    // Sums\n" ++
     "    static int add(int a, int b); // fast\n    ~Person();\n  private:\n    std::unique_ptr<PersonPImpl> mPImpl;\n};").toList := by decide +kernel

example : Spec.significant (headerCode defaultOptions "Person".toList personClass) = headerLines defaultOptions "Person".toList personClass := by
  refine C100_header_partial _ _ _ rfl (by decide +kernel) (by decide +kernel) (by decide +kernel) (by decide +kernel) (by decide +kernel) (by decide +kernel)
    (by decide +kernel) (by decide +kernel) (by decide +kernel) (by decide +kernel) (by decide +kernel) (by decide +kernel)
    ⟨by decide +kernel, by decide +kernel⟩ ?_
  have hc : ∀ a b : Str, Plain a → Plain b → NoComma b → PlainComments ⟨a, b, false⟩ := fun a b h1 h2 h3 => ⟨h1, h2, h3⟩
  show ∀ e ∈ [Elem.fn _ _, Elem.emptyLine, Elem.comment _ _, Elem.fn _ _], ElemOk e
  simp only [List.forall_mem_cons]
  exact ⟨⟨ctorFn_plain, hc _ _ (by decide +kernel) (by decide +kernel) (by decide +kernel), by decide +kernel⟩, trivial,
    ⟨hc _ _ (by decide +kernel) (by decide +kernel) (by decide +kernel), by decide +kernel⟩,
    ⟨addFn_plain, hc _ _ (by decide +kernel) (by decide +kernel) (by decide +kernel), by decide +kernel⟩, fun _ h => (by cases h)⟩

/-- The full statement, on the brace that opens the class: it is not in a comment, whatever the options. -/
def C100_brace_statement : Prop := ∀ (o : Options) (pub : Str) (c : Class), ∀ l ∈ lines (headerCode o pub c), ∀ a b, l = a ++ "//".toList ++ b →
  endsWith b " {".toList = false

/-- It fails: with a comment at the end of the line of the class and `line_feed_before_block = False`, the brace is in the comment. -/
theorem C100_brace_fails : ¬ C100_brace_statement := by
  intro h
  have := h { defaultOptions with lineFeedBeforeBlock := false } "Person".toList ⟨true, "PersonPImpl".toList, ⟨[], " // a person".toList, false⟩, []⟩
    "class Person // a person {".toList (by decide +kernel) "class Person ".toList " a person {".toList (by decide +kernel)
  exact absurd this (by decide +kernel)

end Verif.Pimpl.Props
