import Verif.Glue.Lemmas

/-! C50: the helper classes of the glue code, and the named constructors. -/

namespace Verif.Glue.Props
open Verif.Py Verif.Glue.Spec Verif.Template.Spec

/-- The characters of the keys of the templates. -/
def keyChar (c : Char) : Bool := c.isAlphanum || c = '_'

theorem plain_of_no_brace (t : Str) (h : '{' ∉ t) : PlainText keyChar t := by
  induction t with
  | nil => exact trivial
  | cons c t ih => exact ⟨fun e => absurd (by simp [e]) h, ih (fun hm => h (List.mem_cons_of_mem _ hm))⟩

theorem dropFinalComma_keep (a : Str) (c d : Char) (h : d ≠ ' ' ∧ (d = ';' → c ≠ ')') ∧ d ≠ ')') :
    Template.dropFinalComma (a ++ [c, d]) = a ++ [c, d] := by
  have key : ∀ p : Str, ∀ x y : Char, (y ≠ d ∨ x ≠ c) → endsWith (a ++ [c, d]) (p ++ [x, y]) = false := by
    intro p x y hxy
    rw [Bool.eq_false_iff]
    intro he
    unfold endsWith at he
    rw [List.isSuffixOf_iff_suffix] at he
    obtain ⟨t, ht⟩ := he
    have := congrArg List.reverse ht
    simp only [List.reverse_append, List.reverse_cons, List.reverse_nil, List.nil_append, List.cons_append] at this
    injection this with h1 h2
    injection h2 with h3 h4
    rcases hxy with hxy | hxy
    · exact hxy h1
    · exact hxy h3
  unfold Template.dropFinalComma
  have e1 : endsWith (a ++ [c, d]) [',', ' '] = false := key [] ',' ' ' (.inl (Ne.symm h.1))
  have e2 : endsWith (a ++ [c, d]) [',', ' ', ')', ';'] = false := by
    by_cases hd : d = ';'
    · exact key [',', ' '] ')' ';' (.inr (Ne.symm (h.2.1 hd)))
    · exact key [',', ' '] ')' ';' (.inl (Ne.symm hd))
  have e3 : endsWith (a ++ [c, d]) [',', ' ', ')'] = false := key [','] ' ' ')' (.inl (Ne.symm h.2.2))
  simp only [e1, e2, e3, Bool.false_eq_true, if_false]

theorem keyChar_comma : Key keyChar "maybe_comma".toList := ⟨by decide, by decide⟩

def decPlain : (t : Str) → Decidable (PlainText keyChar t)
  | [] => isTrue trivial
  | c :: cs =>
    have : Decidable (∃ d ds, cs = d :: ds ∧ keyChar d = false) :=
      match cs with
      | [] => isFalse (fun ⟨_, _, h, _⟩ => by simp at h)
      | d :: ds => if h : keyChar d = false then isTrue ⟨d, ds, rfl, h⟩
        else isFalse (fun ⟨d', ds', e, h'⟩ => by injection e with e1; exact h (e1 ▸ h'))
    have := decPlain cs
    inferInstanceAs (Decidable (_ ∧ _))

instance (t : Str) : Decidable (PlainText keyChar t) := decPlain t
instance (k : Str) : Decidable (Key keyChar k) := inferInstanceAs (Decidable (_ ∧ _))
instance : (p : Piece) → Decidable (p.WF keyChar)
  | .text t => inferInstanceAs (Decidable (PlainText keyChar t))
  | .hole k => inferInstanceAs (Decidable (Key keyChar k))

/-! ### The class that exposes protected methods -/

def publicistPieces : List Piece :=
  [.text "// helper type for exposing protected functions\nclass ".toList, .hole "publicist_class_name".toList, .text " : public ".toList,
   .hole "class_name".toList, .text "\n{\npublic:\n".toList, .hole "using_list".toList, .text "\n};".toList]

theorem publicist_template : Indent.unindentCode publicistTemplate true = source publicistPieces := by decide +kernel

theorem lines_indent (ls : List Str) (hne : ls ≠ []) (n : Nat) (h : ∀ l ∈ ls, '\n' ∉ l ∧ l ≠ [] ∧ ∃ a c, l = a ++ [c] ∧ isSpace c = false) :
    lines (Indent.indentCode (unlines ls) 1 false (some (spaces n))) = ls.map (spaces n ++ ·) := by
  unfold Indent.indentCode Indent.indentAll
  simp only [Bool.false_eq_true, if_false]
  rw [lines_unlines hne (fun l hl => (h l hl).1)]
  have e : ls.map (Indent.indentLine (spaces n) true) = ls.map (spaces n ++ ·) := by
    apply List.map_congr_left
    intro l hl
    obtain ⟨_, h2, a, c, rfl, hc⟩ := h l hl
    unfold Indent.indentLine
    rw [if_neg (by simp), if_pos rfl, rstrip_append_of_not hc]
  rw [e, lines_unlines (by simpa using hne)]
  intro l hl
  obtain ⟨x, hx, rfl⟩ := List.mem_map.1 hl
  intro hm
  rcases List.mem_append.1 hm with hm | hm
  · exact Indent.nl_not_mem_spaces n hm
  · exact (h x hx).1 hm

/-- The lines of the class that exposes the protected methods `methods` of `cls`. -/
def publicistLines (cls : Str) (n : Nat) (methods : List Str) : List Str :=
  ["// helper type for exposing protected functions".toList, "class ".toList ++ cls ++ "_publicist : public ".toList ++ cls, "{".toList,
   "public:".toList] ++ methods.map (fun m => spaces n ++ "using ".toList ++ cls ++ "::".toList ++ m ++ ";".toList) ++ ["};".toList]

theorem fill_text (v : Str → Option Str) (t : Str) (ps : List Piece) : Template.Spec.fill v (.text t :: ps) = t ++ Template.Spec.fill v ps := rfl

theorem fill_hole (v : Str → Option Str) (k x : Str) (ps : List Piece) (h : v k = some x) :
    Template.Spec.fill v (.hole k :: ps) = x ++ Template.Spec.fill v ps := by
  unfold Template.Spec.fill
  rw [List.flatMap_cons]
  show (v k).getD _ ++ _ = _
  rw [h]; rfl

theorem fill_nil (v : Str → Option Str) : Template.Spec.fill v [] = [] := rfl

theorem lookup_head (k v : Str) (items : List (Str × Str)) : lookup ((k, v) :: items) k = some v := by
  unfold lookup; rw [List.find?_cons_of_pos (by simp)]; rfl

theorem lookup_tail (k k' v : Str) (items : List (Str × Str)) (h : k' ≠ k) : lookup ((k', v) :: items) k = lookup items k := by
  unfold lookup; rw [List.find?_cons_of_neg (by simpa using h)]

theorem publicist_fill (P cls U : Str) (rest : List (Str × Str)) :
    Template.Spec.fill (lookup ([("publicist_class_name".toList, P), ("class_name".toList, cls), ("using_list".toList, U)] ++
      rest)) publicistPieces =
      "// helper type for exposing protected functions".toList ++ '\n' :: ("class ".toList ++ (P ++ (" : public ".toList ++ (cls ++
        '\n' :: ("{".toList ++ '\n' :: ("public:".toList ++ '\n' :: (U ++ '\n' :: ['}', ';']))))))) := by
  unfold publicistPieces
  simp only [List.cons_append, List.nil_append]
  rw [fill_text, fill_hole _ _ P _ (lookup_head _ _ _), fill_text,
    fill_hole _ _ cls _ (by rw [lookup_tail _ _ _ _ (by decide), lookup_head]), fill_text,
    fill_hole _ _ U _ (by rw [lookup_tail _ _ _ _ (by decide), lookup_tail _ _ _ _ (by decide), lookup_head]), fill_text, fill_nil]
  rw [show "// helper type for exposing protected functions\nclass ".toList =
    "// helper type for exposing protected functions".toList ++ '\n' :: "class ".toList by decide +kernel,
    show "\n{\npublic:\n".toList = '\n' :: ("{".toList ++ '\n' :: ("public:".toList ++ ['\n'])) by decide,
    show "\n};".toList = ['\n', '}', ';'] by decide]
  simp only [List.append_assoc, List.cons_append, List.nil_append]

theorem publicist_lines (cls : Str) (n : Nat) (methods : List Str) (hne : methods ≠ []) (hc : GoodName cls) (hm : ∀ m ∈ methods, GoodName m) :
    lines (publicistCode cls (spaces n) methods) = publicistLines cls n methods := by
  have hu : ∀ l ∈ usingList cls methods, ('\n' ∉ l ∧ '{' ∉ l) ∧ l ≠ [] ∧ ∃ a c, l = a ++ [c] ∧ isSpace c = false := by
    intro l hl
    obtain ⟨m, hm', rfl⟩ := List.mem_map.1 hl
    have gm := hm m hm'
    refine ⟨?_, by simp, _, ';', rfl, by decide⟩
    constructor
    · intro h
      simp only [List.mem_append] at h
      rcases h with (((h | h) | h) | h) | h
      · revert h; decide
      · exact good_nl hc h
      · revert h; decide
      · exact good_nl gm h
      · revert h; decide
    · intro h
      simp only [List.mem_append] at h
      rcases h with (((h | h) | h) | h) | h
      · revert h; decide
      · exact (hc.2.1 _ h).2.2.1 rfl
      · revert h; decide
      · exact (gm.2.1 _ h).2.2.1 rfl
      · revert h; decide
  have hun : usingList cls methods ≠ [] := by unfold usingList; simpa using hne
  have hli := lines_indent (usingList cls methods) hun n (fun l hl => ⟨(hu l hl).1.1, (hu l hl).2⟩)
  have hplain : '{' ∉ Indent.indentCode (unlines (usingList cls methods)) 1 false (some (spaces n)) := by
    intro h
    rw [← unlines_lines (Indent.indentCode _ 1 false _), hli] at h
    unfold unlines at h
    have hj : ∀ ls : List Str, (∀ l ∈ ls, '{' ∉ l) → '{' ∉ join ['\n'] ls := by
      intro ls
      induction ls with
      | nil => intro _ h; simp [join] at h
      | cons l ls ih =>
        intro hl h
        cases ls with
        | nil => exact hl l (by simp) (by simpa [join] using h)
        | cons l' ls =>
          rw [join_cons_cons, List.append_assoc, List.mem_append, List.mem_append] at h
          rcases h with h | h | h
          · exact hl l (by simp) h
          · revert h; decide
          · exact ih (fun x hx => hl x (List.mem_cons_of_mem _ hx)) h
    refine hj _ ?_ h
    intro l hl hl2
    obtain ⟨x, hx, rfl⟩ := List.mem_map.1 hl
    rcases List.mem_append.1 hl2 with h | h
    · exact absurd (Indent.mem_spaces h) (by decide)
    · exact (hu x hx).1.2 h
  have hcb : '{' ∉ cls := fun h => (hc.2.1 _ h).2.2.1 rfl
  unfold publicistCode
  rw [publicist_template]
  generalize hU : Indent.indentCode (unlines (usingList cls methods)) 1 false (some (spaces n)) = U at hli hplain
  rw [(Template.C13_process keyChar (by decide) (by decide) keyChar_comma publicistPieces (by decide +kernel) _ (by
    intro kv hkv
    simp only [List.mem_cons, List.not_mem_nil, or_false] at hkv
    rcases hkv with rfl | rfl | rfl
    · refine ⟨(by decide : Key keyChar "publicist_class_name".toList), plain_of_no_brace _ ?_⟩
      intro h
      rcases List.mem_append.1 h with h | h
      · exact hcb h
      · revert h; decide
    · exact ⟨(by decide : Key keyChar "class_name".toList), plain_of_no_brace _ hcb⟩
    · exact ⟨(by decide : Key keyChar "using_list".toList), plain_of_no_brace _ hplain⟩)).1]
  rw [publicist_fill]
  have hd : ∀ P : Str, "// helper type for exposing protected functions".toList ++ '\n' :: ("class ".toList ++ (P ++ (" : public ".toList ++ (cls ++
        '\n' :: ("{".toList ++ '\n' :: ("public:".toList ++ '\n' :: (U ++ '\n' :: ['}', ';'])))))))
      = ("// helper type for exposing protected functions".toList ++ '\n' :: ("class ".toList ++ (P ++ (" : public ".toList ++ (cls ++
        '\n' :: ("{".toList ++ '\n' :: ("public:".toList ++ '\n' :: (U ++ ['\n'])))))))) ++ ['}', ';'] := by
    intro P; simp only [List.append_assoc, List.cons_append, List.nil_append]
  rw [hd, dropFinalComma_keep _ '}' ';' (by decide), ← hd]
  have hassoc : ∀ P t : Str, "class ".toList ++ (P ++ (" : public ".toList ++ (cls ++ '\n' :: t))) =
      ("class ".toList ++ P ++ " : public ".toList ++ cls) ++ '\n' :: t := by intro P t; simp only [List.append_assoc]
  rw [lines_split, hassoc, lines_split, lines_split, lines_split, lines_split, hli]
  rw [lines_bare "// helper type for exposing protected functions".toList (by decide), lines_bare "{".toList (by decide),
    lines_bare "public:".toList (by decide), lines_bare ['}', ';'] (by decide), lines_bare]
  · unfold publicistLines usingList
    rw [List.map_map]
    have e1 : "class ".toList ++ (cls ++ "_publicist".toList) ++ " : public ".toList ++ cls =
      "class ".toList ++ cls ++ "_publicist : public ".toList ++ cls := by simp only [List.append_assoc]; rfl
    rw [e1]
    have e2 : methods.map ((spaces n ++ ·) ∘ fun m => "using ".toList ++ cls ++ "::".toList ++ m ++ ";".toList) =
        methods.map (fun m => spaces n ++ "using ".toList ++ cls ++ "::".toList ++ m ++ ";".toList) := by
      apply List.map_congr_left
      intro m _
      simp only [Function.comp, List.append_assoc]
    rw [e2]
    simp only [List.append_assoc]
    rfl
  · intro h
    simp only [List.mem_append] at h
    rcases h with ((h | h | h) | h) | h
    · revert h; decide
    · exact good_nl hc h
    · revert h; decide
    · revert h; decide
    · exact good_nl hc h

theorem publicist_nl (cls : Str) (n : Nat) (methods : List Str) : ∀ m : Str, GoodName cls → GoodName m →
    words (spaces n ++ "using ".toList ++ cls ++ "::".toList ++ m ++ ";".toList) = ["using".toList, cls ++ "::".toList ++ m, ";".toList] := by
  intro m hc hm
  have hw : ∀ c ∈ cls ++ "::".toList ++ m, c ≠ ' ' ∧ c ≠ '{' ∧ c ≠ '}' ∧ c ≠ ';' ∧ c ≠ '/' := by
    intro c h
    simp only [List.mem_append] at h
    rcases h with (h | h) | h
    · have := hc.2.1 c h; exact ⟨this.1, this.2.2.1, this.2.2.2.1, this.2.2.2.2.1, this.2.2.2.2.2⟩
    · have : c = ':' := by simpa [show "::".toList = [':', ':'] from rfl] using h
      subst this; decide
    · have := hm.2.1 c h; exact ⟨this.1, this.2.2.1, this.2.2.2.1, this.2.2.2.2.1, this.2.2.2.2.2⟩
  have e : spaces n ++ "using ".toList ++ cls ++ "::".toList ++ m ++ ";".toList =
      spaces n ++ ("using".toList ++ ' ' :: ((cls ++ "::".toList ++ m) ++ ';' :: [])) := by
    rw [show "using ".toList = "using".toList ++ [' '] from rfl]
    simp only [List.append_assoc, List.cons_append, List.nil_append]; rfl
  rw [words_free]
  · rw [e, bare_spaces, bare_split, bare_punct ';' (by simp), bare_nil,
      bare_name (cls ++ "::".toList ++ m) (by simp) (fun c h => ⟨(hw c h).1, (hw c h).2.1, (hw c h).2.2.1, (hw c h).2.2.2.1⟩)]
    rfl
  · rw [e]
    intro h
    simp only [List.mem_append (s := spaces n)] at h
    rcases h with h | h
    · exact absurd (Indent.mem_spaces h) (by decide)
    · rcases List.mem_append.1 h with h | h
      · revert h; decide
      · rcases List.mem_cons.1 h with h | h
        · revert h; decide
        · rcases List.mem_append.1 h with h | h
          · exact (hw _ h).2.2.2.2 rfl
          · revert h; decide

theorem class_words (cls suffix : Str) (hs : suffix ≠ []) (hsc : ∀ c ∈ suffix, c ≠ ' ' ∧ c ≠ '{' ∧ c ≠ '}' ∧ c ≠ ';' ∧ c ≠ '/') (hc : GoodName cls) :
    words ("class ".toList ++ (cls ++ suffix) ++ " : public ".toList ++ cls) =
      ["class".toList, cls ++ suffix, ":".toList, "public".toList, cls] := by
  have hw : ∀ c ∈ cls ++ suffix, c ≠ ' ' ∧ c ≠ '{' ∧ c ≠ '}' ∧ c ≠ ';' ∧ c ≠ '/' := by
    intro c h
    rcases List.mem_append.1 h with h | h
    · have := hc.2.1 c h; exact ⟨this.1, this.2.2.1, this.2.2.2.1, this.2.2.2.2.1, this.2.2.2.2.2⟩
    · exact hsc c h
  have e : "class ".toList ++ (cls ++ suffix) ++ " : public ".toList ++ cls =
      "class".toList ++ ' ' :: ((cls ++ suffix) ++ ' ' :: (":".toList ++ ' ' :: ("public".toList ++ ' ' :: cls))) := by
    rw [show "class ".toList = "class".toList ++ [' '] from rfl,
      show " : public ".toList = ' ' :: (":".toList ++ ' ' :: ("public".toList ++ [' '])) from rfl]
    simp only [List.append_assoc, List.cons_append, List.nil_append]
  rw [words_free]
  · rw [e, bare_split, bare_split, bare_split, bare_split, good_bare hc,
      bare_name (cls ++ suffix) (by simp [hs]) (fun c h => ⟨(hw c h).1, (hw c h).2.1, (hw c h).2.2.1, (hw c h).2.2.2.1⟩)]
    rfl
  · intro h
    simp only [List.mem_append (t := cls)] at h
    rcases h with h | h
    · rcases List.mem_append.1 h with h | h
      · rcases List.mem_append.1 h with h | h
        · revert h; decide
        · exact (hw _ h).2.2.2.2 rfl
      · revert h; decide
    · exact good_slash hc h

/-- C50. The class that exposes protected methods: the text added to the glue code, line by line. It is a class deriving from the class, with
one `using` declaration for each method, between the braces of the namespaces. -/
theorem C50_publicist (scope : List ScopePart) (cls : Str) (n : Nat) (methods : List Str)
    (hs : ∀ p ∈ scope, p.type = .namespace_ ∧ GoodName p.name) (hne : methods ≠ []) (hc : GoodName cls) (hm : ∀ m ∈ methods, GoodName m) :
    ∃ t, protGlue true scope cls (spaces n) methods = some t ∧
      lines t = [[], scope.flatMap (fun p => "namespace ".toList ++ p.name ++ " { ".toList)] ++
        ["// helper type for exposing protected functions".toList, "class ".toList ++ cls ++ "_publicist : public ".toList ++ cls,
         "{".toList, "public:".toList] ++
        methods.map (fun m => spaces n ++ "using ".toList ++ cls ++ "::".toList ++ m ++ ";".toList) ++ ["};".toList] ++
        [(List.replicate scope.length "} ".toList).flatten ++
          scope.reverse.flatMap (fun p => " // namespace ".toList ++ p.name ++ " ".toList), []] := by
  obtain ⟨t, h1, h2⟩ := inScope_lines scope (publicistCode cls (spaces n) methods) hs
  refine ⟨t, ?_, ?_⟩
  · unfold protGlue
    rw [if_neg (by simp), if_neg (by simpa using hne)]
    exact h1
  · rw [h2, publicist_lines cls n methods hne hc hm]
    unfold publicistLines outroText introText
    have : scope.reverse.flatMap scopeComment = scope.reverse.flatMap (fun p => " // namespace ".toList ++ p.name ++ " ".toList) := by
      have hr : ∀ p ∈ scope.reverse, p.type = .namespace_ := fun p hp => (hs p (List.mem_reverse.1 hp)).1
      generalize scope.reverse = r at hr
      induction r with
      | nil => rfl
      | cons p ps ih =>
        rw [List.flatMap_cons, List.flatMap_cons, ih (fun q hq => hr q (List.mem_cons_of_mem _ hq))]
        congr 1
        unfold scopeComment
        rw [if_pos (hr p (by simp))]
    rw [this]
    simp only [List.append_assoc]

/-- C50. For a C++ reader inside any braces, this class is declared in the namespaces of the class, from the outermost to the innermost, and
all the braces are closed again. -/
theorem C50_publicist_scope (scope : List ScopePart) (cls : Str) (n : Nat) (methods : List Str)
    (hs : ∀ p ∈ scope, p.type = .namespace_ ∧ GoodName p.name) (hne : methods ≠ []) (hc : GoodName cls) (hm : ∀ m ∈ methods, GoodName m)
    (st : List Str) (decl : List (List Str × Str)) :
    ∃ t, protGlue true scope cls (spaces n) methods = some t ∧
      readCode t ⟨st, .nothing, decl⟩ =
        some ⟨st, .nothing, decl ++ [(st.reverse ++ scope.map ScopePart.name, cls ++ "_publicist".toList)]⟩ := by
  obtain ⟨t, h1, hl⟩ := inScope_lines scope (publicistCode cls (spaces n) methods) hs
  clear hl
  refine ⟨t, ?_, ?_⟩
  · unfold protGlue
    rw [if_neg (by simp), if_neg (by simpa using hne)]
    exact h1
  · refine inScope_read scope _ hs (cls ++ "_publicist".toList) ?_ t h1 st decl
    clear h1
    intro st decl
    rw [publicist_lines cls n methods hne hc hm]
    unfold publicistLines
    have e1 : "class ".toList ++ cls ++ "_publicist : public ".toList ++ cls =
        "class ".toList ++ (cls ++ "_publicist".toList) ++ " : public ".toList ++ cls := by simp only [List.append_assoc]; rfl
    rw [e1]
    rw [List.flatMap_append, List.flatMap_append, List.foldlM_append, List.foldlM_append]
    have w1 : ["// helper type for exposing protected functions".toList, "class ".toList ++ (cls ++ "_publicist".toList) ++ " : public ".toList ++ cls,
        "{".toList, "public:".toList].flatMap words =
        ["class".toList, cls ++ "_publicist".toList, ":".toList, "public".toList, cls, "{".toList, "public:".toList] := by
      rw [List.flatMap_cons, List.flatMap_cons, class_words cls "_publicist".toList (by decide) (by decide) hc]
      rw [show words "// helper type for exposing protected functions".toList = [] by decide +kernel]
      rw [show ["{".toList, "public:".toList].flatMap words = ["{".toList, "public:".toList] by decide +kernel]
      rfl
    have w2 : ∀ st decl, ((methods.map (fun m => spaces n ++ "using ".toList ++ cls ++ "::".toList ++ m ++ ";".toList)).flatMap words).foldlM step
        ⟨st, .nothing, decl⟩ = some ⟨st, .nothing, decl⟩ := by
      intro st decl
      clear hne
      induction methods with
      | nil => rfl
      | cons m ms ih =>
        rw [List.map_cons, List.flatMap_cons, List.foldlM_append, publicist_nl cls n [] m hc (hm m (by simp))]
        have : ["using".toList, cls ++ "::".toList ++ m, ";".toList].foldlM step ⟨st, .nothing, decl⟩ = some ⟨st, .nothing, decl⟩ := by
          have hx : step ⟨st, .nothing, decl⟩ (cls ++ "::".toList ++ m) = some ⟨st, .nothing, decl⟩ := by
            have hcol : ':' ∈ cls ++ "::".toList ++ m := by simp [show "::".toList = [':', ':'] from rfl]
            have hne : ∀ w : Str, ':' ∉ w → cls ++ "::".toList ++ m ≠ w := fun w hw e => hw (e ▸ hcol)
            unfold step
            simp only
            rw [if_neg (hne _ (by decide)), if_neg (by intro h; rcases h with h | h <;> exact hne _ (by decide) h),
              if_neg (hne _ (by decide)), if_neg (hne _ (by decide))]
          rw [List.foldlM_cons]
          show (([cls ++ "::".toList ++ m, ";".toList]).foldlM step ⟨st, .nothing, decl⟩) = _
          rw [List.foldlM_cons, hx]
          rfl
        rw [this]
        show ((ms.map _).flatMap words).foldlM step _ = _
        exact ih (fun x hx => hm x (List.mem_cons_of_mem _ hx))
    rw [w1]
    have s1 : (["class".toList, cls ++ "_publicist".toList, ":".toList, "public".toList, cls, "{".toList, "public:".toList]).foldlM step
        ⟨st, .nothing, decl⟩ = some ⟨[] :: st, .nothing, decl ++ [(st.reverse, cls ++ "_publicist".toList)]⟩ := by
      have hx : ∀ decl, step ⟨st, .nothing, decl⟩ cls = some ⟨st, .nothing, decl⟩ := by
        intro decl
        have h3 := hc.2.2
        simp only [List.mem_cons, List.not_mem_nil, or_false, not_or] at h3
        have hbr : ∀ c, (c = '{' ∨ c = '}') → cls ≠ [c] := by
          intro c hcc e
          have := hc.2.1 c (by rw [e]; simp)
          rcases hcc with rfl | rfl
          · exact this.2.2.1 rfl
          · exact this.2.2.2.1 rfl
        unfold step
        simp only
        rw [if_neg h3.1, if_neg (by intro h; rcases h with h | h; exact h3.2.1 h; exact h3.2.2 h),
          if_neg (show cls ≠ "{".toList from hbr '{' (.inl rfl)), if_neg (show cls ≠ "}".toList from hbr '}' (.inr rfl))]
      show ([cls, "{".toList, "public:".toList]).foldlM step ⟨st, .nothing, decl ++ [(st.reverse, cls ++ "_publicist".toList)]⟩ = _
      rw [List.foldlM_cons, hx]
      rfl
    rw [s1]
    show (((methods.map _).flatMap words).foldlM step ⟨[] :: st, .nothing, decl ++ [(st.reverse, cls ++ "_publicist".toList)]⟩).bind _ = _
    rw [w2]
    rw [show ["};".toList].flatMap words = ["}".toList, ";".toList] by decide +kernel]
    rfl

instance (n : Str) : Decidable (GoodName n) := inferInstanceAs (Decidable (_ ∧ _ ∧ _))

example : (∀ p ∈ [(⟨.namespace_, "A".toList⟩ : ScopePart), ⟨.namespace_, "B".toList⟩], p.type = .namespace_ ∧ GoodName p.name) ∧
    GoodName "Foo".toList ∧ (∀ m ∈ ["f".toList, "operator()".toList], GoodName m) := by decide +kernel

example : readCode "\nnamespace A { namespace B { \nclass Foo_publicist : public Foo\n{\n    using Foo::f;\n};\n} }  // namespace B  // namespace A \n".toList
    ⟨[], .nothing, []⟩ = some ⟨[], .nothing, [(["A".toList, "B".toList], "Foo_publicist".toList)]⟩ := by decide +kernel

/-- C50. Inside a class (or anything but a namespace) there is an exception instead of a wrong text. -/
theorem C50_class_scope (scope : List ScopePart) (h : ∃ p ∈ scope, p.type ≠ .namespace_) (cls indent q : Str) (methods : List Str)
    (vs : List VMethod) (pybind : Bool) (hne : methods ≠ []) (hvs : vs ≠ []) :
    protGlue true scope cls indent methods = none ∧ virtGlue pybind true scope q cls indent vs = none := by
  have hi : ∀ c, inScope scope c = none := by
    intro c
    unfold inScope glueScopeIntroOutro
    rw [scopeIntro_none scope h]; rfl
  constructor
  · unfold protGlue
    rw [if_neg (by simp), if_neg (by simpa using hne)]
    exact hi _
  · unfold virtGlue
    rw [if_neg (by simp), if_neg (by simpa using hvs)]
    exact hi _

example : ∃ p ∈ [(⟨.namespace_, "A".toList⟩ : ScopePart), ⟨.classOrStruct, "B".toList⟩], p.type ≠ .namespace_ := by decide

/-- C50. Without the option, or without any method, nothing is added to the glue code. -/
theorem C50_nothing (scope : List ScopePart) (cls indent q : Str) (methods : List Str) (vs : List VMethod) (pybind : Bool) :
    protGlue false scope cls indent methods = some [] ∧ protGlue true scope cls indent [] = some [] ∧
    virtGlue pybind false scope q cls indent vs = some [] ∧ virtGlue pybind true scope q cls indent [] = some [] :=
  ⟨rfl, rfl, rfl, rfl⟩

/-- A using declaration is written at most once: C++ does not allow to repeat it in a class. -/
def C50_using_statement : Prop := ∀ (cls : Str) (methods : List Str), GoodName cls → (usingList cls methods).Nodup

/-- C50. It fails for overloaded protected methods: `using Foo::f;` is written once for each overload, which C++ refuses. -/
theorem C50_using_fails : ¬ C50_using_statement := by
  intro h
  exact absurd (h "Foo".toList ["f".toList, "f".toList] (by decide +kernel)) (by decide +kernel)

/-- C50. It holds when the protected methods have different names. -/
theorem C50_using_partial (cls : Str) (methods : List Str) (h : methods.Nodup) : (usingList cls methods).Nodup := by
  unfold usingList
  induction methods with
  | nil => exact List.nodup_nil
  | cons m ms ih =>
    rw [List.nodup_cons] at h
    rw [List.map_cons, List.nodup_cons]
    refine ⟨?_, ih h.2⟩
    intro hm
    obtain ⟨x, hx, e⟩ := List.mem_map.1 hm
    simp only [List.append_assoc] at e
    have := List.append_cancel_right (List.append_cancel_left (List.append_cancel_left (List.append_cancel_left e)))
    exact h.1 (this ▸ hx)

example : ["f".toList, "g".toList].Nodup := by decide

end Verif.Glue.Props
