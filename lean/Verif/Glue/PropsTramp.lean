import Verif.Glue.PropsVirt

/-! C50: the trampoline class. -/

namespace Verif.Glue.Props
open Verif.Py Verif.Glue.Spec Verif.Template.Spec

def trampPieces (pybind : Bool) : List Piece :=
  [.text "// helper type to enable overriding virtual methods in python\nclass ".toList, .hole "trampoline_class_name".toList,
   .text " : public ".toList, .hole "class_name".toList] ++
  (if pybind then [.text "\n{\npublic:\n    using ".toList, .hole "class_name".toList, .text "::".toList, .hole "class_name".toList, .text ";\n\n".toList]
   else [.text "\n{\npublic:\n    NB_TRAMPOLINE(".toList, .hole "class_name".toList, .text ", ".toList, .hole "nb_virtual_methods".toList,
     .text ");\n\n".toList]) ++
  [.hole "trampoline_list".toList, .text "\n};".toList]

theorem tramp_template (pybind : Bool) : Indent.unindentCode (trampolineTemplate pybind) true = source (trampPieces pybind) := by
  cases pybind <;> decide +kernel

theorem tramp_wf (pybind : Bool) : ∀ p ∈ trampPieces pybind, p.WF keyChar := by
  cases pybind <;> decide +kernel

def ctorLine (pybind : Bool) (cls nb : Str) : Str :=
  if pybind then "    using ".toList ++ cls ++ "::".toList ++ cls ++ ";".toList else "    NB_TRAMPOLINE(".toList ++ cls ++ ", ".toList ++ nb ++ ");".toList

theorem tramp_fill (pybind : Bool) (P nb cls U : Str) (rest : List (Str × Str)) :
    Template.Spec.fill (lookup ([("trampoline_class_name".toList, P), ("nb_virtual_methods".toList, nb), ("class_name".toList, cls),
      ("trampoline_list".toList, U)] ++ rest)) (trampPieces pybind) =
      terminated ["// helper type to enable overriding virtual methods in python".toList, "class ".toList ++ P ++ " : public ".toList ++ cls,
        "{".toList, "public:".toList, ctorLine pybind cls nb, [], U] ++ "};".toList := by
  simp only [List.cons_append, List.nil_append]
  have h1 := lookup_head "trampoline_class_name".toList P (("nb_virtual_methods".toList, nb) :: ("class_name".toList, cls) ::
    ("trampoline_list".toList, U) :: rest)
  have t : ∀ (k k' v : Str) (l : List (Str × Str)), decide (k' = k) = false → lookup ((k', v) :: l) k = lookup l k :=
    fun k k' v l h => lookup_tail k k' v l (by simpa using h)
  have h2 : lookup (("trampoline_class_name".toList, P) :: ("nb_virtual_methods".toList, nb) :: ("class_name".toList, cls) ::
    ("trampoline_list".toList, U) :: rest) "nb_virtual_methods".toList = some nb := by
    rw [t _ _ _ _ (by decide +kernel), lookup_head]
  have h3 : lookup (("trampoline_class_name".toList, P) :: ("nb_virtual_methods".toList, nb) :: ("class_name".toList, cls) ::
    ("trampoline_list".toList, U) :: rest) "class_name".toList = some cls := by
    rw [t _ _ _ _ (by decide +kernel), t _ _ _ _ (by decide +kernel), lookup_head]
  have h4 : lookup (("trampoline_class_name".toList, P) :: ("nb_virtual_methods".toList, nb) :: ("class_name".toList, cls) ::
    ("trampoline_list".toList, U) :: rest) "trampoline_list".toList = some U := by
    rw [t _ _ _ _ (by decide +kernel), t _ _ _ _ (by decide +kernel), t _ _ _ _ (by decide +kernel), lookup_head]
  generalize lookup (("trampoline_class_name".toList, P) :: ("nb_virtual_methods".toList, nb) :: ("class_name".toList, cls) ::
    ("trampoline_list".toList, U) :: rest) = v at h1 h2 h3 h4
  have e0 : "// helper type to enable overriding virtual methods in python\nclass ".toList =
    "// helper type to enable overriding virtual methods in python".toList ++ '\n' :: "class ".toList := by decide +kernel
  have e1 : "\n};".toList = '\n' :: "};".toList := by decide +kernel
  unfold trampPieces ctorLine terminated
  cases pybind with
  | true =>
    simp only [if_true, List.cons_append, List.nil_append, fill_text, fill_hole', fill_nil, h1, h3, h4, Option.getD_some, List.flatMap_cons,
      List.flatMap_nil]
    rw [e0, e1, show "\n{\npublic:\n    using ".toList = '\n' :: ("{".toList ++ '\n' :: ("public:".toList ++ '\n' :: "    using ".toList)) by decide +kernel,
      show ";\n\n".toList = ";".toList ++ ['\n', '\n'] by decide +kernel]
    simp only [List.append_assoc, List.cons_append, List.nil_append, List.append_nil]
  | false =>
    simp only [Bool.false_eq_true, if_false, List.cons_append, List.nil_append, fill_text, fill_hole', fill_nil, h1, h2, h3, h4, Option.getD_some,
      List.flatMap_cons, List.flatMap_nil]
    rw [e0, e1, show "\n{\npublic:\n    NB_TRAMPOLINE(".toList = '\n' :: ("{".toList ++ '\n' :: ("public:".toList ++ '\n' :: "    NB_TRAMPOLINE(".toList)) by decide +kernel,
      show ");\n\n".toList = ");".toList ++ ['\n', '\n'] by decide +kernel]
    simp only [List.append_assoc, List.cons_append, List.nil_append, List.append_nil]

/-- The lines of the trampoline class. -/
def trampLines (pybind : Bool) (q cls : Str) (n : Nat) (methods : List VMethod) : List Str :=
  ["// helper type to enable overriding virtual methods in python".toList, "class ".toList ++ cls ++ "_trampoline : public ".toList ++ cls,
   "{".toList, "public:".toList, ctorLine pybind cls (toString methods.length).toList, []] ++
  (methods.flatMap (methodLines pybind (spaces n) q)).map (spaces n ++ ·) ++ ["};".toList]

theorem digits_chars (k : Nat) : '{' ∉ (toString k).toList ∧ '\n' ∉ (toString k).toList := by
  have h : ∀ c ∈ (toString k).toList, c.isDigit = true := by
    intro c hc
    have : (toString k) = Nat.repr k := rfl
    rw [this] at hc
    unfold Nat.repr at hc
    have := Nat.isDigit_of_mem_toDigits (b := 10) (n := k) (c := c) (by decide) (by decide) (by simpa using hc)
    exact this
  exact ⟨fun hm => absurd (h _ hm) (by decide), fun hm => absurd (h _ hm) (by decide)⟩

theorem method_line_ok (pybind : Bool) (n : Nat) (q : Str) (m : VMethod) (hm : GoodMethod m) (hq : PlainText keyChar q) (hql : '\n' ∉ q) :
    ∀ l ∈ methodLines pybind (spaces n) q m, '\n' ∉ l ∧ l ≠ [] ∧ (∃ a c, l = a ++ [c] ∧ isSpace c = false) ∧
      PlainText keyChar ((spaces n ++ l) ++ ['\n']) := by
  have pl : ∀ s : Str, '{' ∉ s → PlainText keyChar s := plain_of_no_brace
  have hi : PlainText keyChar (spaces n) := pl _ (fun h => absurd (Indent.mem_spaces h) (by decide))
  have hin : '\n' ∉ spaces n := Indent.nl_not_mem_spaces n
  have hr := hm.plain m.ret (by simp)
  have hnm := hm.plain m.name (by simp)
  have hpy := hm.plain m.pyName (by simp)
  have hpa := hm.plain m.params (by simp)
  have hpn := hm.plain m.paramNames (by simp)
  have hr' := hm.lines m.ret (by simp)
  have hnm' := hm.lines m.name (by simp)
  have hpy' := hm.lines m.pyName (by simp)
  have hpa' := hm.lines m.params (by simp)
  have hpn' := hm.lines m.paramNames (by simp)
  have hco : PlainText keyChar (if m.isConst then " const".toList else []) ∧ '\n' ∉ (if m.isConst then " const".toList else []) := by
    split
    · exact ⟨pl _ (by decide), by decide⟩
    · exact ⟨trivial, by simp⟩
  have hcm : PlainText keyChar (if m.nbParams > 0 then ",".toList else []) ∧ '\n' ∉ (if m.nbParams > 0 then ",".toList else []) := by
    split
    · exact ⟨pl _ (by decide), by decide⟩
    · exact ⟨trivial, by simp⟩
  have hmac := macro_chars pybind m.isPure
  have hnl : PlainText keyChar ['\n'] := pl _ (by decide)
  -- a line ending with a literal text
  have key : ∀ (x t : Str) (c : Char), PlainText keyChar x → '\n' ∉ x → '{' ∉ t ++ [c] → '\n' ∉ t ++ [c] → isSpace c = false →
      ('\n' ∉ x ++ (t ++ [c]) ∧ x ++ (t ++ [c]) ≠ [] ∧ (∃ a d, x ++ (t ++ [c]) = a ++ [d] ∧ isSpace d = false) ∧
        PlainText keyChar ((spaces n ++ (x ++ (t ++ [c]))) ++ ['\n'])) := by
    intro x t c h1 h2 h3 h4 h5
    refine ⟨?_, by simp, ⟨x ++ t, c, by simp, h5⟩, plain_append _ _ (plain_append _ _ hi (plain_append _ _ h1 (pl _ h3))) hnl⟩
    intro h
    rcases List.mem_append.1 h with h | h
    · exact h2 h
    · exact h4 h
  intro l hl
  simp only [methodLines, List.mem_append] at hl
  rcases hl with (((hl | hl) | hl) | hl) | hl
  · simp only [List.mem_cons, List.not_mem_nil, or_false] at hl
    rcases hl with rfl | rfl | rfl
    · rw [show " override".toList = " overrid".toList ++ ['e'] by decide +kernel]
      refine key _ _ _ ?_ ?_ (by decide) (by decide) (by decide)
      · exact plain_append _ _ (plain_append _ _ (plain_append _ _ (plain_append _ _ (plain_append _ _ (plain_append _ _ hr (pl _ (by decide))) hnm)
          (pl _ (by decide))) hpa) (pl _ (by decide))) hco.1
      · simp only [List.mem_append, not_or]
        exact ⟨⟨⟨⟨⟨⟨hr', by decide⟩, hnm'⟩, by decide⟩, hpa'⟩, by decide⟩, hco.2⟩
    · refine ⟨by decide, by decide, ⟨[], '{', rfl, by decide⟩, ?_⟩
      rw [List.append_assoc]
      exact plain_append _ _ hi (by decide)
    · rw [List.append_assoc, List.append_assoc, ← List.append_assoc (if pybind then _ else _), ← macro_lines, ← List.append_assoc]
      exact key _ [] '(' (plain_append _ _ hi (pl _ hmac.1)) (by simp only [List.mem_append, not_or]; exact ⟨hin, hmac.2⟩) (by decide) (by decide) (by decide)
  · cases pybind with
    | false => simp at hl
    | true =>
      rw [if_pos rfl] at hl
      simp only [List.mem_cons, List.not_mem_nil, or_false] at hl
      rcases hl with rfl | rfl
      · rw [show ", // return type".toList = ", // return typ".toList ++ ['e'] by decide +kernel]
        exact key _ _ _ (plain_append _ _ (plain_append _ _ hi hi) hr) (by simp only [List.mem_append, not_or]; exact ⟨⟨hin, hin⟩, hr'⟩)
          (by decide) (by decide) (by decide)
      · rw [show ", // parent class".toList = ", // parent clas".toList ++ ['s'] by decide +kernel]
        exact key _ _ _ (plain_append _ _ (plain_append _ _ hi hi) hq) (by simp only [List.mem_append, not_or]; exact ⟨⟨hin, hin⟩, hql⟩)
          (by decide) (by decide) (by decide)
  · simp only [List.mem_cons, List.not_mem_nil, or_false] at hl
    rcases hl with rfl | rfl
    · rw [show "\", // function name (python)".toList = "\", // function name (python".toList ++ [')'] by decide +kernel]
      exact key _ _ _ (plain_append _ _ (plain_append _ _ (plain_append _ _ hi hi) (pl _ (by decide))) hpy)
        (by simp only [List.mem_append, not_or]; exact ⟨⟨⟨hin, hin⟩, by decide⟩, hpy'⟩) (by decide +kernel) (by decide +kernel) (by decide)
    · rw [show " // function name (c++)".toList = " // function name (c++".toList ++ [')'] by decide +kernel]
      exact key _ _ _ (plain_append _ _ (plain_append _ _ (plain_append _ _ hi hi) hnm) hcm.1)
        (by simp only [List.mem_append, not_or]; exact ⟨⟨⟨hin, hin⟩, hnm'⟩, hcm.2⟩) (by decide +kernel) (by decide +kernel) (by decide)
  · split at hl
    · rw [List.mem_singleton.1 hl, show " // params".toList = " // param".toList ++ ['s'] by decide +kernel]
      exact key _ _ _ (plain_append _ _ (plain_append _ _ hi hi) hpn) (by simp only [List.mem_append, not_or]; exact ⟨⟨hin, hin⟩, hpn'⟩)
        (by decide) (by decide) (by decide)
    · simp at hl
  · simp only [List.mem_cons, List.not_mem_nil, or_false] at hl
    rcases hl with rfl | rfl
    · rw [show ");".toList = ")".toList ++ [';'] by decide]
      exact key _ _ _ hi hin (by decide) (by decide) (by decide)
    · exact key [] [] '}' trivial (by simp) (by decide) (by decide) (by decide)

theorem method_last (pybind : Bool) (i q : Str) (m : VMethod) : ∃ B, methodLines pybind i q m = B ++ ["}".toList] := by
  unfold methodLines
  exact ⟨_, (List.append_assoc _ [_] [_]).symm⟩

theorem unlines_end (L : List Str) (h : L ≠ []) : unlines (L ++ [[]]) = unlines L ++ ['\n'] := by
  induction L with
  | nil => exact absurd rfl h
  | cons l L ih =>
    cases L with
    | nil => unfold unlines; simp [join]
    | cons l' L =>
      unfold unlines at ih ⊢
      rw [List.cons_append, List.cons_append, join_cons_cons, join_cons_cons]
      have := ih (by simp)
      rw [List.cons_append] at this
      rw [this]
      simp only [List.append_assoc]

theorem plain_drop_nl (s : Str) (h : PlainText keyChar (s ++ ['\n'])) (hl : s.getLast? ≠ some '{') : PlainText keyChar s := by
  induction s with
  | nil => trivial
  | cons c s ih =>
    refine ⟨fun e => ?_, ?_⟩
    · cases s with
      | nil => exact absurd (by rw [e]; rfl) hl
      | cons d ds =>
        obtain ⟨d', ds', hd, hk⟩ := h.1 e
        injection hd with hd1
        exact ⟨d, ds, rfl, hd1 ▸ hk⟩
    · cases s with
      | nil => trivial
      | cons d ds => exact ih h.2 (by simpa [List.getLast?_cons_cons] using hl)

/-- The methods, as they stand in the class. -/
theorem methods_text (pybind : Bool) (q : Str) (n : Nat) (methods : List VMethod) (hne : methods ≠ [])
    (hq : PlainText keyChar q) (hql : '\n' ∉ q) (hm : ∀ m ∈ methods, GoodMethod m) :
    lines (Indent.indentCode (unlines (methods.flatMap (overrideLines pybind (spaces n) q))) 1 false (some (spaces n))) =
      (methods.flatMap (methodLines pybind (spaces n) q)).map (spaces n ++ ·) ∧
    PlainText keyChar (Indent.indentCode (unlines (methods.flatMap (overrideLines pybind (spaces n) q))) 1 false (some (spaces n))) := by
  have hML : methods.flatMap (overrideLines pybind (spaces n) q) = methods.flatMap (methodLines pybind (spaces n) q) := by
    clear hne
    induction methods with
    | nil => rfl
    | cons m ms ih =>
      rw [List.flatMap_cons, List.flatMap_cons, override_lines pybind n q m (hm m (by simp)) hq hql, ih (fun x hx => hm x (List.mem_cons_of_mem _ hx))]
  have hok : ∀ l ∈ methods.flatMap (methodLines pybind (spaces n) q), '\n' ∉ l ∧ l ≠ [] ∧ (∃ a c, l = a ++ [c] ∧ isSpace c = false) ∧
      PlainText keyChar ((spaces n ++ l) ++ ['\n']) := by
    intro l hl
    obtain ⟨m, hm', hl⟩ := List.mem_flatMap.1 hl
    exact method_line_ok pybind n q m (hm m hm') hq hql l hl
  have hcat : ∃ A, methods.flatMap (methodLines pybind (spaces n) q) = A ++ ["}".toList] := by
    rcases List.eq_nil_or_concat methods with h | ⟨ms, m, h⟩
    · exact absurd h hne
    · obtain ⟨B, e⟩ := method_last pybind (spaces n) q m
      rw [h, List.concat_eq_append, List.flatMap_append, List.flatMap_cons, List.flatMap_nil, List.append_nil, e, ← List.append_assoc]
      exact ⟨_, rfl⟩
  rw [hML]
  generalize methods.flatMap (methodLines pybind (spaces n) q) = L at hok hcat
  obtain ⟨A, hA⟩ := hcat
  have hLne : L ≠ [] := by rw [hA]; simp
  have hli := lines_indent L hLne n (fun l hl => ⟨(hok l hl).1, (hok l hl).2.1, (hok l hl).2.2.1⟩)
  refine ⟨hli, ?_⟩
  generalize Indent.indentCode (unlines L) 1 false (some (spaces n)) = U at hli
  have hUe : U = terminated (A.map (spaces n ++ ·)) ++ (spaces n ++ ['}']) := by
    rw [← unlines_terminated, ← unlines_lines U, hli, hA, List.map_append]; rfl
  apply plain_drop_nl
  · have e : U ++ ['\n'] = terminated (L.map (spaces n ++ ·)) ++ [] := by
      rw [← unlines_terminated, ← hli, unlines_end _ (lines_ne_nil U), unlines_lines]
    rw [e]
    apply plain_terminated
    · intro l hl
      obtain ⟨x, hx, rfl⟩ := List.mem_map.1 hl
      exact (hok x hx).2.2.2
    · exact trivial
  · rw [hUe, ← List.append_assoc, List.getLast?_append]
    simp

theorem tramp_lines (pybind : Bool) (q cls : Str) (n : Nat) (methods : List VMethod) (hne : methods ≠ []) (hc : GoodName cls)
    (hq : PlainText keyChar q) (hql : '\n' ∉ q) (hm : ∀ m ∈ methods, GoodMethod m) :
    lines (trampolineCode pybind q cls (spaces n) methods) = trampLines pybind q cls n methods := by
  have pl : ∀ s : Str, '{' ∉ s → PlainText keyChar s := plain_of_no_brace
  obtain ⟨hli, hUlast⟩ := methods_text pybind q n methods hne hq hql hm
  unfold trampolineCode
  rw [tramp_template]
  generalize Indent.indentCode (unlines (methods.flatMap (overrideLines pybind (spaces n) q))) 1 false (some (spaces n)) = U at hli hUlast
  have hcb : '{' ∉ cls := fun h => (hc.2.1 _ h).2.2.1 rfl
  have hd := digits_chars methods.length
  have hP : '{' ∉ cls ++ "_trampoline".toList := by
    intro h
    rcases List.mem_append.1 h with h | h
    · exact hcb h
    · revert h; decide
  rw [(Template.C13_process keyChar (by decide) (by decide) keyChar_comma (trampPieces pybind) (tramp_wf pybind) _ (by
    intro kv hkv
    simp only [List.mem_cons, List.not_mem_nil, or_false] at hkv
    rcases hkv with rfl | rfl | rfl | rfl
    · exact ⟨(by decide : Key keyChar "trampoline_class_name".toList), pl _ hP⟩
    · exact ⟨(by decide : Key keyChar "nb_virtual_methods".toList), pl _ hd.1⟩
    · exact ⟨(by decide : Key keyChar "class_name".toList), pl _ hcb⟩
    · exact ⟨(by decide : Key keyChar "trampoline_list".toList), hUlast⟩)).1, tramp_fill]
  have e3 : ∀ t : Str, t ++ "};".toList = t ++ ['}', ';'] := fun _ => rfl
  rw [e3, dropFinalComma_keep _ '}' ';' (by decide)]
  have e4 : ∀ (A : List Str), terminated (A ++ [U]) ++ ['}', ';'] = terminated A ++ (U ++ '\n' :: ['}', ';']) := by
    intro A
    unfold terminated
    rw [List.flatMap_append]
    simp only [List.flatMap_cons, List.flatMap_nil, List.append_nil, List.append_assoc, List.cons_append, List.nil_append]
  rw [show ∀ (a b c d e f : Str), [a, b, c, d, e, f, U] = [a, b, c, d, e, f] ++ [U] from fun _ _ _ _ _ _ => rfl, e4, lines_terminated, lines_split, hli,
    lines_bare ['}', ';'] (by decide)]
  · unfold trampLines
    have e1 : "class ".toList ++ (cls ++ "_trampoline".toList) ++ " : public ".toList ++ cls =
      "class ".toList ++ cls ++ "_trampoline : public ".toList ++ cls := by
      rw [show "_trampoline : public ".toList = "_trampoline".toList ++ " : public ".toList by decide +kernel]
      simp only [List.append_assoc]
    rw [e1, List.append_assoc]
    rfl
  · have hcn := good_nl hc
    intro l hl
    simp only [List.mem_cons, List.not_mem_nil, or_false] at hl
    rcases hl with rfl | rfl | rfl | rfl | rfl | rfl
    · decide +kernel
    · simp only [List.mem_append, not_or]
      exact ⟨⟨⟨by decide, hcn, by decide⟩, by decide⟩, hcn⟩
    · decide
    · decide
    · unfold ctorLine
      split
      · simp only [List.mem_append, not_or]
        exact ⟨⟨⟨⟨by decide, hcn⟩, by decide⟩, hcn⟩, by decide⟩
      · simp only [List.mem_append, not_or]
        exact ⟨⟨⟨⟨by decide, hcn⟩, by decide⟩, hd.2⟩, by decide⟩
    · simp

/-! ### The properties -/

/-- C50. The class that lets Python override the virtual methods of a class: the text added to the glue code, line by line. It derives from
the class and overrides each virtual method once, in order, with the macro for pure virtual methods exactly when the method is pure; for
nanobind it tells the number of methods. -/
theorem C50_trampoline (pybind : Bool) (scope : List ScopePart) (q cls : Str) (n : Nat) (methods : List VMethod)
    (hs : ∀ p ∈ scope, p.type = .namespace_ ∧ GoodName p.name) (hne : methods ≠ []) (hc : GoodName cls) (hq : '{' ∉ q ∧ '\n' ∉ q)
    (hm : ∀ m ∈ methods, GoodMethod m) :
    ∃ t, virtGlue pybind true scope q cls (spaces n) methods = some t ∧
      lines t = [[], introText scope,
        "// helper type to enable overriding virtual methods in python".toList, "class ".toList ++ cls ++ "_trampoline : public ".toList ++ cls,
        "{".toList, "public:".toList,
        if pybind then "    using ".toList ++ cls ++ "::".toList ++ cls ++ ";".toList
        else "    NB_TRAMPOLINE(".toList ++ cls ++ ", ".toList ++ (toString methods.length).toList ++ ");".toList, []] ++
        (methods.flatMap (methodLines pybind (spaces n) q)).map (spaces n ++ ·) ++ ["};".toList, outroText scope, []] := by
  obtain ⟨t, h1, h2⟩ := inScope_lines scope (trampolineCode pybind q cls (spaces n) methods) hs
  refine ⟨t, ?_, ?_⟩
  · unfold virtGlue
    rw [if_neg (by simp), if_neg (by simpa using hne)]
    exact h1
  · rw [h2, tramp_lines pybind q cls n methods hne hc (plain_of_no_brace _ hq.1) hq.2 hm]
    unfold trampLines ctorLine
    simp only [List.append_assoc, List.cons_append, List.nil_append]

theorem comment_acc (acc l : Str) : comment acc l = acc ++ comment [] l := by
  induction l generalizing acc with
  | nil => simp [comment]
  | cons c l ih =>
    rw [comment, comment]
    split
    · simp
    · rw [ih (acc ++ [c]), ih ([] ++ [c])]; simp

theorem words_spaces (n : Nat) (l : Str) : words (spaces n ++ l) = words l := by
  rw [words_eq, words_eq, comment_free _ _ _ (fun h => absurd (Indent.mem_spaces h) (by decide)), List.nil_append, comment_acc, bare_spaces]

theorem step_name (cls : Str) (hc : GoodName cls) (st : List Str) (decl : List (List Str × Str)) :
    step ⟨st, .nothing, decl⟩ cls = some ⟨st, .nothing, decl⟩ := by
  have h3 := hc.2.2
  simp only [List.mem_cons, List.not_mem_nil, or_false, not_or] at h3
  have hbr : ∀ c, (c = '{' ∨ c = '}') → cls ≠ [c] := by
    intro c hcc e
    have := hc.2.1 c (by rw [e]; simp)
    rcases hcc with rfl | rfl
    · exact this.2.2.1 rfl
    · exact this.2.2.2.1 rfl
  unfold step
  simp only
  rw [if_neg h3.1, if_neg (by intro h; rcases h with h | h; exact h3.2.1 h; exact h3.2.2 h),
    if_neg (show cls ≠ "{".toList from hbr '{' (.inl rfl)), if_neg (show cls ≠ "}".toList from hbr '}' (.inr rfl))]

theorem step_other (w : Str) (c : Char) (hw : c ∈ w) (h : ∀ k ∈ ["namespace".toList, "class".toList, "struct".toList, "{".toList, "}".toList], c ∉ k)
    (st : List Str) (decl : List (List Str × Str)) : step ⟨st, .nothing, decl⟩ w = some ⟨st, .nothing, decl⟩ := by
  have hne : ∀ k ∈ ["namespace".toList, "class".toList, "struct".toList, "{".toList, "}".toList], w ≠ k := fun k hk e => h k hk (e ▸ hw)
  unfold step
  simp only
  rw [if_neg (hne _ (by simp)), if_neg (by intro h; rcases h with h | h <;> exact hne _ (by simp) h),
    if_neg (hne _ (by simp)), if_neg (hne _ (by simp))]

theorem ctor_neutral (pybind : Bool) (cls : Str) (hc : GoodName cls) (k : Nat) (st : List Str) (decl : List (List Str × Str)) :
    (words (ctorLine pybind cls (toString k).toList)).foldlM step ⟨st, .nothing, decl⟩ = some ⟨st, .nothing, decl⟩ := by
  have hcc : ∀ c ∈ cls, c ≠ ' ' ∧ c ≠ '{' ∧ c ≠ '}' ∧ c ≠ ';' ∧ c ≠ '/' := by
    intro c h; have := hc.2.1 c h; exact ⟨this.1, this.2.2.1, this.2.2.2.1, this.2.2.2.2.1, this.2.2.2.2.2⟩
  have hdig : ∀ c ∈ (toString k).toList, c ≠ ' ' ∧ c ≠ '{' ∧ c ≠ '}' ∧ c ≠ ';' ∧ c ≠ '/' := by
    intro c hc
    have h : c.isDigit = true := by
      have : (toString k) = Nat.repr k := rfl
      rw [this] at hc
      unfold Nat.repr at hc
      exact Nat.isDigit_of_mem_toDigits (b := 10) (n := k) (c := c) (by decide) (by decide) (by simpa using hc)
    refine ⟨?_, ?_, ?_, ?_, ?_⟩ <;> (rintro rfl; exact absurd h (by decide))
  unfold ctorLine
  cases pybind with
  | true =>
    rw [if_pos rfl]
    have hw : ∀ c ∈ cls ++ "::".toList ++ cls, c ≠ ' ' ∧ c ≠ '{' ∧ c ≠ '}' ∧ c ≠ ';' ∧ c ≠ '/' := by
      intro c h
      simp only [List.mem_append] at h
      rcases h with (h | h) | h
      · exact hcc c h
      · revert c; decide
      · exact hcc c h
    have e : "    using ".toList ++ cls ++ "::".toList ++ cls ++ ";".toList =
        spaces 4 ++ ("using".toList ++ ' ' :: ((cls ++ "::".toList ++ cls) ++ ';' :: [])) := by
      rw [show "    using ".toList = spaces 4 ++ ("using".toList ++ [' ']) from by decide]
      simp only [List.append_assoc, List.cons_append, List.nil_append]; rfl
    rw [e, words_spaces, words_free]
    · rw [bare_split, bare_punct ';' (by simp), bare_nil,
        bare_name (cls ++ "::".toList ++ cls) (by simp) (fun c h => ⟨(hw c h).1, (hw c h).2.1, (hw c h).2.2.1, (hw c h).2.2.2.1⟩)]
      rw [show bareWords "using".toList = ["using".toList] by decide]
      show ([cls ++ "::".toList ++ cls, ";".toList]).foldlM step _ = _
      rw [List.foldlM_cons, step_other _ ':' (by simp [show "::".toList = [':', ':'] from rfl]) (by decide)]
      rfl
    · intro h
      rcases List.mem_append.1 h with h | h
      · revert h; decide
      · rcases List.mem_cons.1 h with h | h
        · revert h; decide
        · rcases List.mem_append.1 h with h | h
          · exact (hw _ h).2.2.2.2 rfl
          · revert h; decide
  | false =>
    rw [if_neg (by simp)]
    have e : "    NB_TRAMPOLINE(".toList ++ cls ++ ", ".toList ++ (toString k).toList ++ ");".toList =
        spaces 4 ++ (("NB_TRAMPOLINE(".toList ++ cls ++ ",".toList) ++ ' ' :: (((toString k).toList ++ ")".toList) ++ ';' :: [])) := by
      rw [show "    NB_TRAMPOLINE(".toList = spaces 4 ++ "NB_TRAMPOLINE(".toList from by decide, show ", ".toList = ",".toList ++ [' '] from rfl,
        show ");".toList = ")".toList ++ [';'] from rfl]
      simp only [List.append_assoc, List.cons_append, List.nil_append]
    have hw1 : ∀ c ∈ "NB_TRAMPOLINE(".toList ++ cls ++ ",".toList, c ≠ ' ' ∧ c ≠ '{' ∧ c ≠ '}' ∧ c ≠ ';' ∧ c ≠ '/' := by
      intro c h
      simp only [List.mem_append] at h
      rcases h with (h | h) | h
      · revert c; decide
      · exact hcc c h
      · revert c; decide
    have hw2 : ∀ c ∈ (toString k).toList ++ ")".toList, c ≠ ' ' ∧ c ≠ '{' ∧ c ≠ '}' ∧ c ≠ ';' ∧ c ≠ '/' := by
      intro c h
      rcases List.mem_append.1 h with h | h
      · exact hdig c h
      · have hh : ∀ c ∈ ")".toList, c ≠ ' ' ∧ c ≠ '{' ∧ c ≠ '}' ∧ c ≠ ';' ∧ c ≠ '/' := by decide
        exact hh c h
    rw [e, words_spaces, words_free]
    · rw [bare_split, bare_punct ';' (by simp), bare_nil,
        bare_name _ (by simp) (fun c h => ⟨(hw1 c h).1, (hw1 c h).2.1, (hw1 c h).2.2.1, (hw1 c h).2.2.2.1⟩),
        bare_name _ (by simp) (fun c h => ⟨(hw2 c h).1, (hw2 c h).2.1, (hw2 c h).2.2.1, (hw2 c h).2.2.2.1⟩)]
      show ([_, _, ";".toList]).foldlM step _ = _
      rw [List.foldlM_cons, step_other _ ',' (by simp [show ",".toList = [','] from rfl]) (by decide)]
      show ([_, ";".toList]).foldlM step _ = _
      rw [List.foldlM_cons, step_other _ ')' (by simp [show ")".toList = [')'] from rfl]) (by decide)]
      rfl
    · intro h
      rcases List.mem_append.1 h with h | h
      · exact (hw1 _ h).2.2.2.2 rfl
      · rcases List.mem_cons.1 h with h | h
        · revert h; decide
        · rcases List.mem_append.1 h with h | h
          · exact (hw2 _ h).2.2.2.2 rfl
          · revert h; decide

/-- C50. For a C++ reader inside any braces, the trampoline class is declared in the namespaces of the class, from the outermost to the
innermost, and all the braces are closed again, provided that the text of each method closes its own braces. -/
theorem C50_trampoline_scope (pybind : Bool) (scope : List ScopePart) (q cls : Str) (n : Nat) (methods : List VMethod)
    (hs : ∀ p ∈ scope, p.type = .namespace_ ∧ GoodName p.name) (hne : methods ≠ []) (hc : GoodName cls) (hq : '{' ∉ q ∧ '\n' ∉ q)
    (hm : ∀ m ∈ methods, GoodMethod m ∧ Neutral (methodLines pybind (spaces n) q m))
    (st : List Str) (decl : List (List Str × Str)) :
    ∃ t, virtGlue pybind true scope q cls (spaces n) methods = some t ∧
      readCode t ⟨st, .nothing, decl⟩ =
        some ⟨st, .nothing, decl ++ [(st.reverse ++ scope.map ScopePart.name, cls ++ "_trampoline".toList)]⟩ := by
  obtain ⟨t, h1, hl⟩ := inScope_lines scope (trampolineCode pybind q cls (spaces n) methods) hs
  clear hl
  refine ⟨t, ?_, ?_⟩
  · unfold virtGlue
    rw [if_neg (by simp), if_neg (by simpa using hne)]
    exact h1
  · refine inScope_read scope _ hs (cls ++ "_trampoline".toList) ?_ t h1 st decl
    clear h1
    intro st decl
    rw [tramp_lines pybind q cls n methods hne hc (plain_of_no_brace _ hq.1) hq.2 (fun m h => (hm m h).1)]
    unfold trampLines
    have e1 : "class ".toList ++ cls ++ "_trampoline : public ".toList ++ cls =
        "class ".toList ++ (cls ++ "_trampoline".toList) ++ " : public ".toList ++ cls := by
      rw [show "_trampoline : public ".toList = "_trampoline".toList ++ " : public ".toList by decide +kernel]
      simp only [List.append_assoc]
    rw [e1]
    rw [List.flatMap_append, List.flatMap_append, List.foldlM_append, List.foldlM_append]
    have w1 : ["// helper type to enable overriding virtual methods in python".toList,
        "class ".toList ++ (cls ++ "_trampoline".toList) ++ " : public ".toList ++ cls,
        "{".toList, "public:".toList, ctorLine pybind cls (toString methods.length).toList, []].flatMap words =
        ["class".toList, cls ++ "_trampoline".toList, ":".toList, "public".toList, cls, "{".toList, "public:".toList] ++
          words (ctorLine pybind cls (toString methods.length).toList) := by
      rw [List.flatMap_cons, List.flatMap_cons, class_words cls "_trampoline".toList (by decide) (by decide) hc]
      rw [show words "// helper type to enable overriding virtual methods in python".toList = [] by decide +kernel]
      rw [List.flatMap_cons, List.flatMap_cons, List.flatMap_cons, List.flatMap_cons, List.flatMap_nil]
      rw [show words "{".toList = ["{".toList] by decide +kernel, show words "public:".toList = ["public:".toList] by decide +kernel,
        show words [] = [] by decide +kernel]
      simp only [List.append_assoc, List.cons_append, List.nil_append, List.append_nil]
    have w2 : ∀ st decl, (((methods.flatMap (methodLines pybind (spaces n) q)).map (spaces n ++ ·)).flatMap words).foldlM step
        ⟨st, .nothing, decl⟩ = some ⟨st, .nothing, decl⟩ := by
      intro st decl
      have e : ((methods.flatMap (methodLines pybind (spaces n) q)).map (spaces n ++ ·)).flatMap words =
          methods.flatMap (fun m => (methodLines pybind (spaces n) q m).flatMap words) := by
        rw [List.flatMap_map, show (fun x => words (spaces n ++ x)) = words from funext (words_spaces n)]
        rw [List.flatMap_assoc]
      rw [e]
      clear hne e w1
      induction methods with
      | nil => rfl
      | cons m ms ih =>
        rw [List.flatMap_cons, List.foldlM_append, (hm m (by simp)).2 st decl]
        exact ih (fun x hx => hm x (List.mem_cons_of_mem _ hx))
    rw [w1, List.foldlM_append]
    have s1 : (["class".toList, cls ++ "_trampoline".toList, ":".toList, "public".toList, cls, "{".toList, "public:".toList]).foldlM step
        ⟨st, .nothing, decl⟩ = some ⟨[] :: st, .nothing, decl ++ [(st.reverse, cls ++ "_trampoline".toList)]⟩ := by
      show ([cls, "{".toList, "public:".toList]).foldlM step ⟨st, .nothing, decl ++ [(st.reverse, cls ++ "_trampoline".toList)]⟩ = _
      rw [List.foldlM_cons, step_name cls hc]
      rfl
    rw [s1]
    show (((words _).foldlM step ⟨[] :: st, .nothing, decl ++ [(st.reverse, cls ++ "_trampoline".toList)]⟩).bind _).bind _ = _
    rw [ctor_neutral pybind cls hc]
    show ((((methods.flatMap _).map _).flatMap words).foldlM step ⟨[] :: st, .nothing, decl ++ [(st.reverse, cls ++ "_trampoline".toList)]⟩).bind _ = _
    rw [w2]
    rw [show ["};".toList].flatMap words = ["}".toList, ";".toList] by decide +kernel]
    rfl

def sample : VMethod := ⟨"std::string".toList, "Foo".toList, "foo".toList, true, false, 1, "const std::string& s = {}".toList, "s".toList⟩

example : GoodMethod sample ∧ Neutral (methodLines true (spaces 4) "A::B".toList sample) ∧
    Neutral (methodLines false (spaces 4) "A::B".toList sample) ∧
    methodLines true (spaces 4) "A::B".toList sample =
      ["std::string Foo(const std::string& s = {}) const override".toList, "{".toList, "    PYBIND11_OVERRIDE_NAME(".toList,
       "        std::string, // return type".toList, "        A::B, // parent class".toList,
       "        \"foo\", // function name (python)".toList, "        Foo, // function name (c++)".toList, "        s // params".toList,
       "    );".toList, "}".toList] := by
  refine ⟨⟨by decide +kernel, by decide +kernel⟩, ?_, ?_, by decide +kernel⟩
  · intro st decl
    have : (methodLines true (spaces 4) "A::B".toList sample).flatMap words =
      ["std::string".toList, "Foo(const".toList, "std::string&".toList, "s".toList, "=".toList, "{".toList, "}".toList, ")".toList, "const".toList,
       "override".toList, "{".toList, "PYBIND11_OVERRIDE_NAME(".toList, "std::string,".toList, "A::B,".toList, "\"foo\",".toList, "Foo,".toList,
       "s".toList, ")".toList, ";".toList, "}".toList] := by decide +kernel
    rw [this]; rfl
  · intro st decl
    have : (methodLines false (spaces 4) "A::B".toList sample).flatMap words =
      ["std::string".toList, "Foo(const".toList, "std::string&".toList, "s".toList, "=".toList, "{".toList, "}".toList, ")".toList, "const".toList,
       "override".toList, "{".toList, "NB_OVERRIDE_NAME(".toList, "\"foo\",".toList, "Foo,".toList,
       "s".toList, ")".toList, ";".toList, "}".toList] := by decide +kernel
    rw [this]; rfl

/-! ### The named constructors -/

/-- C50. The parameters of the named constructor are the public members that can be set, in order, each with a default value: its own initial
value, or a value of its type. -/
theorem C50_named_members (publicMembers : List Member) :
    (∀ m, m ∈ compatibleMembers true publicMembers ↔ m ∈ publicMembers ∧ m.excludedTpl = false ∧ m.excluded = false ∧
      "const".toList ∉ m.specifiers ∧ "constexpr".toList ∉ m.specifiers ∧ "extern".toList ∉ m.specifiers ∧
      "*".toList ∉ m.modifiers ∧ "&".toList ∉ m.modifiers ∧ m.bitfield = [] ∧ m.cArray = [] ∧ ' ' ∉ m.typ) ∧
    List.Sublist (compatibleMembers true publicMembers) publicMembers ∧
    (∀ m, memberParam m = m.typ ++ " ".toList ++ m.name ++ " = ".toList ++ (if m.init = [] then m.typ ++ "()".toList else m.init)) ∧
    compatibleMembers false publicMembers = [] := by
  refine ⟨?_, ?_, ?_, rfl⟩
  · intro m
    have hcan : canBeSet m = true ↔ m.excluded = false ∧
      "const".toList ∉ m.specifiers ∧ "constexpr".toList ∉ m.specifiers ∧ "extern".toList ∉ m.specifiers ∧
      "*".toList ∉ m.modifiers ∧ "&".toList ∉ m.modifiers ∧ m.bitfield = [] ∧ m.cArray = [] ∧ ' ' ∉ m.typ := by
      have hsp : contains m.typ " ".toList = true ↔ ' ' ∈ m.typ := by
        rw [contains_iff]
        constructor
        · rintro ⟨a, b, h⟩; rw [h]; simp [show " ".toList = [' '] from rfl]
        · intro h; obtain ⟨a, b, h⟩ := List.append_of_mem h; exact ⟨a, b, by rw [h]; simp [show " ".toList = [' '] from rfl]⟩
      have c0 : ∀ x : Str, m.modifiers.count x > 0 ↔ x ∈ m.modifiers := fun x => List.count_pos_iff
      unfold canBeSet
      constructor
      · intro h
        split at h
        · exact absurd h (by simp)
        · split at h
          · exact absurd h (by simp)
          · split at h
            · exact absurd h (by simp)
            · split at h
              · exact absurd h (by simp)
              · split at h
                · exact absurd h (by simp)
                · split at h
                  · exact absurd h (by simp)
                  · split at h
                    · exact absurd h (by simp)
                    · split at h
                      · exact absurd h (by simp)
                      · rename_i h1 h2 h3 h4 h5 h6 h7 h8
                        rw [not_or, not_or] at h2
                        refine ⟨by simpa using h8, h2.1, h2.2.1, h2.2.2, fun hx => h5 ((c0 _).2 hx), fun hx => h6 ((c0 _).2 hx), ?_, ?_,
                          fun hx => h7 (hsp.2 hx)⟩
                        · exact List.length_eq_zero_iff.1 (by omega)
                        · exact List.length_eq_zero_iff.1 (by omega)
      · rintro ⟨h8, h1, h2, h3, h4, h5, h6, h7, h9⟩
        have z := List.count_eq_zero.2 h4
        have z2 := List.count_eq_zero.2 h5
        rw [if_neg (by omega), if_neg (by rw [not_or, not_or]; exact ⟨h1, h2, h3⟩), if_neg (by rw [h6]; simp), if_neg (by rw [h7]; simp),
          if_neg (by omega), if_neg (by omega), if_neg (fun hx => h9 (hsp.1 hx)), if_neg (by rw [h8]; simp)]
    unfold compatibleMembers
    rw [if_neg (by simp), List.mem_filter, List.mem_filter, hcan]
    simp only [Bool.not_eq_true', and_assoc]
  · unfold compatibleMembers
    rw [if_neg (by simp)]
    exact List.filter_sublist.trans List.filter_sublist
  · intro m
    unfold memberParam
    simp only
    by_cases h : m.init = []
    · rw [if_neg (by rw [h]; simp), if_pos h]; simp only [List.append_assoc]
    · rw [if_pos (List.length_pos_iff.2 h), if_neg h]

example : (compatibleMembers true [⟨"int".toList, [], [], "a".toList, "3".toList, [], [], false, false⟩,
    ⟨"int".toList, ["*".toList], [], "p".toList, [], [], [], false, false⟩,
    ⟨"Bar".toList, [], [], "b".toList, [], [], [], false, false⟩]).map memberParam =
    ["int a = 3".toList, "Bar b = Bar()".toList] := by decide +kernel

/-- The struct made to parse the named constructor is nested in the scopes of the class, from the outermost to the innermost. -/
def C50_named_scope_statement : Prop := ∀ (scope : List ScopePart) (cls : Str) (members : List Member),
  (∀ p ∈ scope, (p.type = .namespace_ ∨ p.type = .classOrStruct) ∧ GoodName p.name) → GoodName cls →
  Neutral [spaces 20 ++ cls ++ "(".toList ++ join ", ".toList ((compatibleMembers true members).map memberParam) ++ ");".toList] →
  readCode (fakeStruct true scope cls members) ⟨[], .nothing, []⟩ = some ⟨[], .nothing, [(scope.map ScopePart.name, cls)]⟩

/-- C50. It fails from depth two on: the scopes are nested in the reverse order (the constructor is then attached to the class itself, so
that its own scope is right again). -/
theorem C50_named_scope_fails : ¬ C50_named_scope_statement := by
  intro h
  have := h [⟨.namespace_, "A".toList⟩, ⟨.namespace_, "B".toList⟩] "Foo".toList [] (by decide +kernel) (by decide +kernel) (by
    intro st decl
    have : [spaces 20 ++ "Foo".toList ++ "(".toList ++ join ", ".toList ((compatibleMembers true []).map memberParam) ++ ");".toList].flatMap words =
      ["Foo()".toList, ";".toList] := by decide +kernel
    rw [this]; rfl)
  exact absurd this (by decide +kernel)

/-- C50. What is true: every scope is opened and closed once, in the reverse order. This is the right order when the scopes read the same both
ways, in particular for one scope or none. -/
theorem C50_named_scope_partial (scope : List ScopePart) (cls : Str) (named : Bool) (members : List Member)
    (hs : ∀ p ∈ scope, (p.type = .namespace_ ∨ p.type = .classOrStruct) ∧ GoodName p.name) (hc : GoodName cls)
    (hp : Neutral [spaces 20 ++ cls ++ "(".toList ++ join ", ".toList ((compatibleMembers named members).map memberParam) ++ ");".toList])
    (hnl : '\n' ∉ join ", ".toList ((compatibleMembers named members).map memberParam))
    (st : List Str) (decl : List (List Str × Str)) :
    readCode (fakeStruct named scope cls members) ⟨st, .nothing, decl⟩ =
      some ⟨st, .nothing, decl ++ [(st.reverse ++ (scope.map ScopePart.name).reverse, cls)]⟩ := by
  unfold fakeStruct
  generalize join ", ".toList ((compatibleMembers named members).map memberParam) = params at hp hnl
  have base : ∀ st decl, readCode (structText cls params) ⟨st, .nothing, decl⟩ = some ⟨st, .nothing, decl ++ [(st.reverse ++ [], cls)]⟩ := by
    intro st decl
    have hcn := good_nl hc
    have hl : lines (structText cls params) = [[], spaces 16 ++ "struct ".toList ++ cls ++ " {".toList,
        spaces 20 ++ cls ++ "(".toList ++ params ++ ");".toList, spaces 16 ++ "};".toList, spaces 12] := by
      unfold structText
      rw [lines_unlines (by simp)]
      intro l hl
      simp only [List.mem_cons, List.not_mem_nil, or_false] at hl
      rcases hl with rfl | rfl | rfl | rfl | rfl
      · simp
      · simp only [List.mem_append, not_or]
        exact ⟨⟨⟨by decide, by decide⟩, hcn⟩, by decide⟩
      · simp only [List.mem_append, not_or]
        exact ⟨⟨⟨⟨by decide, hcn⟩, by decide⟩, hnl⟩, by decide⟩
      · decide
      · decide
    have hw1 : words (spaces 16 ++ "struct ".toList ++ cls ++ " {".toList) = ["struct".toList, cls, "{".toList] := by
      have e : spaces 16 ++ "struct ".toList ++ cls ++ " {".toList = spaces 16 ++ ("struct".toList ++ ' ' :: (cls ++ ' ' :: "{".toList)) := by
        rw [show "struct ".toList = "struct".toList ++ [' '] from rfl]
        simp only [List.append_assoc, List.cons_append, List.nil_append]; rfl
      rw [e, words_spaces, words_free]
      · rw [bare_split, bare_split, good_bare hc]; rfl
      · intro h
        rcases List.mem_append.1 h with h | h
        · revert h; decide
        · rcases List.mem_cons.1 h with h | h
          · revert h; decide
          · rcases List.mem_append.1 h with h | h
            · exact good_slash hc h
            · revert h; decide
    unfold readCode
    rw [hl, List.flatMap_cons, List.flatMap_cons, hw1]
    rw [show words [] = [] by decide, List.nil_append, List.foldlM_append]
    have s1 : (["struct".toList, cls, "{".toList]).foldlM step ⟨st, .nothing, decl⟩ =
      some ⟨[] :: st, .nothing, decl ++ [(st.reverse, cls)]⟩ := rfl
    rw [s1]
    show ((([spaces 20 ++ cls ++ "(".toList ++ params ++ ");".toList] ++ [spaces 16 ++ "};".toList, spaces 12]).flatMap words).foldlM step
      ⟨[] :: st, .nothing, decl ++ [(st.reverse, cls)]⟩) = _
    rw [List.flatMap_append, List.foldlM_append, hp]
    rw [show [spaces 16 ++ "};".toList, spaces 12].flatMap words = ["}".toList, ";".toList] by decide +kernel, List.append_nil]
    rfl
  have wrap : ∀ (p : ScopePart) (path : List Str) (code : Str), (p.type = .namespace_ ∨ p.type = .classOrStruct) → GoodName p.name →
      (∀ st decl, readCode code ⟨st, .nothing, decl⟩ = some ⟨st, .nothing, decl ++ [(st.reverse ++ path, cls)]⟩) →
      ∀ st decl, readCode (wrapPart code p) ⟨st, .nothing, decl⟩ = some ⟨st, .nothing, decl ++ [(st.reverse ++ (p.name :: path), cls)]⟩ := by
    intro p path code ht hn hcode st decl
    have e : wrapPart code p = ("namespace ".toList ++ p.name ++ " {".toList) ++ '\n' :: (code ++ '\n' :: ("}".toList ++ '\n' :: [])) := by
      unfold wrapPart
      rw [show " {\n".toList = " {".toList ++ ['\n'] from rfl, show "\n}\n".toList = '\n' :: ("}".toList ++ ['\n']) from rfl]
      split
      · simp only [List.append_assoc, List.cons_append, List.nil_append]
      · split
        · simp only [List.append_assoc, List.cons_append, List.nil_append]
        · rename_i h1 h2; rcases ht with h | h
          · exact absurd h h1
          · exact absurd h h2
    have hw : words ("namespace ".toList ++ p.name ++ " {".toList) = ["namespace".toList, p.name, "{".toList] := by
      have e : "namespace ".toList ++ p.name ++ " {".toList = "namespace".toList ++ ' ' :: (p.name ++ ' ' :: "{".toList) := by
        rw [show "namespace ".toList = "namespace".toList ++ [' '] from rfl]
        simp only [List.append_assoc, List.cons_append, List.nil_append]; rfl
      rw [e, words_free]
      · rw [bare_split, bare_split, good_bare hn]; rfl
      · intro h
        rcases List.mem_append.1 h with h | h
        · revert h; decide
        · rcases List.mem_cons.1 h with h | h
          · revert h; decide
          · rcases List.mem_append.1 h with h | h
            · exact good_slash hn h
            · revert h; decide
    have hl : lines ("namespace ".toList ++ p.name ++ " {".toList) = ["namespace ".toList ++ p.name ++ " {".toList] := by
      apply lines_bare
      simp only [List.mem_append, not_or]
      exact ⟨⟨by decide, good_nl hn⟩, by decide⟩
    unfold readCode
    rw [e, lines_split, lines_split, lines_split, hl, List.flatMap_append, List.flatMap_append, List.foldlM_append]
    rw [show ["namespace ".toList ++ p.name ++ " {".toList].flatMap words = ["namespace".toList, p.name, "{".toList] by
      rw [List.flatMap_cons, hw]; rfl]
    show ((((lines code).flatMap words) ++ _).foldlM step ⟨p.name :: st, .nothing, decl⟩) = _
    rw [List.foldlM_append]
    have := hcode (p.name :: st) decl
    unfold readCode at this
    rw [this]
    rw [show (lines "}".toList ++ lines []).flatMap words = ["}".toList] by decide +kernel]
    show some _ = some _
    rw [List.reverse_cons, List.append_assoc]
    rfl
  have main : ∀ (scope : List ScopePart) (path : List Str) (code : Str),
      (∀ p ∈ scope, (p.type = .namespace_ ∨ p.type = .classOrStruct) ∧ GoodName p.name) →
      (∀ st decl, readCode code ⟨st, .nothing, decl⟩ = some ⟨st, .nothing, decl ++ [(st.reverse ++ path, cls)]⟩) →
      ∀ st decl, readCode (scope.foldl wrapPart code) ⟨st, .nothing, decl⟩ =
        some ⟨st, .nothing, decl ++ [(st.reverse ++ ((scope.map ScopePart.name).reverse ++ path), cls)]⟩ := by
    intro scope
    induction scope with
    | nil => intro path code _ h st decl; exact h st decl
    | cons p ps ih =>
      intro path code hs h st decl
      rw [List.foldl_cons, ih (p.name :: path) (wrapPart code p) (fun q hq => hs q (List.mem_cons_of_mem _ hq))
        (wrap p path code (hs p (by simp)).1 (hs p (by simp)).2 h)]
      simp
  have := main scope [] _ hs base st decl
  rw [List.append_nil] at this
  exact this

example : (∀ p ∈ [(⟨.classOrStruct, "A".toList⟩ : ScopePart)], (p.type = .namespace_ ∨ p.type = .classOrStruct) ∧ GoodName p.name) ∧
    Neutral [spaces 20 ++ "Foo".toList ++ "(".toList ++ "int a = 3".toList ++ ");".toList] := by
  refine ⟨by decide +kernel, ?_⟩
  intro st decl
  have : [spaces 20 ++ "Foo".toList ++ "(".toList ++ "int a = 3".toList ++ ");".toList].flatMap words =
    ["Foo(int".toList, "a".toList, "=".toList, "3)".toList, ";".toList] := by decide +kernel
  rw [this]; rfl

end Verif.Glue.Props
