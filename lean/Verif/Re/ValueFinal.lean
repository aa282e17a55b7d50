import Verif.Re.ValueTheorem

/-! The standard replacements of values: the result. -/

namespace Verif.Re
open Verif.Py Spec Verif.Inst Verif.Inst.Spec
open Verif.Scope (isWordChar)

theorem valueRules_eq : valueRules =
    [(wordRe "true".toList, litTmpl (vtext [.word "True".toList])), (wordRe "false".toList, litTmpl (vtext [.word "False".toList])),
     (.seq .wordB (lits "void".toList (.seq reS0 (.seq (.chr '*') .eps))), litTmpl "Any".toList), (.seq .wordB (lits "void".toList (.seq .wordB .eps)), litTmpl "None".toList),
     (wordRe "NULL".toList, litTmpl (vtext [.word "None".toList])), (wordRe "nullptr".toList, litTmpl (vtext [.word "None".toList])),
     (.seq .wordB (lits "std".toList (lits "::".toList (lits "nullopt".toList (.seq .wordB .eps)))), litTmpl "None".toList),
     (.seq .wordB (lits "std".toList (.seq .any (lits "nullopt".toList (.seq .wordB .eps)))), litTmpl "None".toList),
     (.seq .wordB (lits "std".toList (lits "::".toList (lits "string".toList (.seq (.chr '(') (.seq (.chr ')') .eps))))), litTmpl "\"\"".toList),
     (.seq .wordB (lits "std".toList (.seq .any (lits "string".toList (.seq (.chr '(') (.seq (.chr ')') .eps))))), litTmpl "\"\"".toList),
     (wordRe "FLT_MIN".toList, litTmpl (vtext sysMin)), (wordRe "FLT_MAX".toList, litTmpl (vtext sysMax)),
     (wordRe "DBL_MIN".toList, litTmpl (vtext sysMin)), (wordRe "DBL_MAX".toList, litTmpl (vtext sysMax)),
     (wordRe "LDBL_MIN".toList, litTmpl (vtext sysMin)), (wordRe "LDBL_MAX".toList, litTmpl (vtext sysMax)),
     (reSep, [.ref 1, .chr '_', .ref 2]), (reSuffix ("fFdD".toList.map .one), [.ref 1]), (lits "::".toList .eps, litTmpl ".".toList)] := by
  decide +kernel

/-- What holds of the pieces before and after each rule. -/
structure Inv (u : Char → Bool) (l : List VTok) : Prop where
  lexed : Lexed u l
  calm : Calm l

theorem Inv.put {u : Char → Bool} {h : Str} {tw : List VTok} (ht : Takes u tw) (hh : h ≠ "std".toList) {l : List VTok} (hl : Inv u l) :
    Inv u (l.flatMap (putTok h tw)) := ⟨lexed_putTok ht hl.lexed, calm_putTok ht hh hl.lexed hl.calm⟩

theorem Inv.drop {u : Char → Bool} (fs : List Char) {l : List VTok} (hl : Inv u l) : Inv u (l.map (VTok.drop fs)) :=
  ⟨lexed_drop fs hl.lexed, calm_drop fs hl.calm⟩

theorem Inv.dot {u : Char → Bool} {l : List VTok} (hl : Inv u l) : Inv u (l.map VTok.dot) := ⟨lexed_dot hl.lexed, calm_dot hl.calm⟩

theorem takesTrue (u : Char → Bool) : Takes u [.word "True".toList] := takes_word (ident_of (by decide) (by decide)) (plain_of (by decide)) (by decide) (by decide)
theorem takesFalse (u : Char → Bool) : Takes u [.word "False".toList] := takes_word (ident_of (by decide) (by decide)) (plain_of (by decide)) (by decide) (by decide)
theorem takesNone (u : Char → Bool) : Takes u [.word "None".toList] := takes_word (ident_of (by decide) (by decide)) (plain_of (by decide)) (by decide) (by decide)
theorem takesMin (u : Char → Bool) : Takes u sysMin := takes_sys (ident_of (by decide) (by decide)) (plain_of (by decide)) (by decide)
theorem takesMax (u : Char → Bool) : Takes u sysMax := takes_sys (ident_of (by decide) (by decide)) (plain_of (by decide)) (by decide)

theorem inv_quote {u : Char → Bool} : ∀ {l : List VTok}, Lexed u l → Calm l → '\'' ∉ vtext l
  | [], _, _, h => by cases h
  | .word w :: l, hl, hc, h => by
    rw [vtext_cons] at h
    rcases List.mem_append.1 h with h | h
    · cases hl.1.2 _ h
    · exact inv_quote hl.2.2.2 hc.2.2 h
  | .num b s :: l, hl, hc, h => by
    rw [vtext_cons] at h
    rcases List.mem_append.1 h with h | h
    · rcases List.mem_append.1 h with h | h
      · rcases core_numCh ⟨[], b, .inl rfl, hl.1, rfl⟩ _ h with h | h
        · exact absurd h (by decide)
        · exact absurd h (by decide)
      · exact absurd (hl.2.1 _ h) (by decide)
    · exact inv_quote (l := l) hl.2.2.2.2.2 hc h
  | .scope :: l, hl, hc, h => by
    rw [vtext_cons] at h
    rcases List.mem_append.1 h with h | h
    · exact absurd h (by decide)
    · exact inv_quote (l := l) hl hc h
  | .sep c :: l, hl, hc, h => by
    rw [vtext_cons] at h
    rcases List.mem_append.1 h with h | h
    · exact hc.1 (List.mem_singleton.1 h).symm
    · exact inv_quote (l := l) hl.2.2 hc.2 h

theorem Inv.quote {u : Char → Bool} {l : List VTok} (hl : Inv u l) : '\'' ∉ vtext l := inv_quote hl.lexed hl.calm

theorem neverEmpty_std {u : Char → Bool} (k : Re) : NeverEmpty u (.seq .wordB (lits "std".toList k)) := neverEmpty_lits (by decide) k

/-- The words, one after the other. -/
def stepsW (tbl : List (Str × List VTok)) (l : List VTok) : List VTok := tbl.foldl (fun l q => l.flatMap (putTok q.1 q.2)) l

/-- All the changes of the pieces, one after the other. -/
def steps (l : List VTok) : List VTok := ((stepsW pyWords l).map (VTok.drop "fFdD".toList)).map VTok.dot

theorem stepsW_inv {u : Char → Bool} : ∀ {tbl : List (Str × List VTok)}, (∀ q ∈ tbl, Takes u q.2 ∧ q.1 ≠ "std".toList) → ∀ {l : List VTok}, Inv u l →
    Inv u (stepsW tbl l)
  | [], _, l, hl => hl
  | q :: tbl, h, l, hl => by
    obtain ⟨h1, h2⟩ := h q (by simp)
    exact stepsW_inv (tbl := tbl) (fun p hp => h p (by simp [hp])) (hl.put h1 h2)

theorem pyWords_takes (u : Char → Bool) : ∀ q ∈ pyWords, Takes u q.2 ∧ q.1 ≠ "std".toList := by
  intro q hq
  have hne : ∀ q ∈ pyWords, q.1 ≠ "std".toList := by decide +kernel
  refine ⟨?_, hne q hq⟩
  have hv : ∀ q ∈ pyWords, q.2 = [.word "True".toList] ∨ q.2 = [.word "False".toList] ∨ q.2 = [.word "None".toList] ∨ q.2 = sysMin ∨ q.2 = sysMax := by
    decide +kernel
  rcases hv q hq with h | h | h | h | h <;> rw [h]
  · exact takesTrue u
  · exact takesFalse u
  · exact takesNone u
  · exact takesMin u
  · exact takesMax u

theorem steps_inv {u : Char → Bool} {l : List VTok} (hl : Inv u l) : Inv u (steps l) := ((stepsW_inv (pyWords_takes u) hl).drop _).dot

theorem suffixes_fd : Suffixes "fFdD".toList := ⟨fun _ h => h⟩

theorem pass_word {u : Char → Bool} {h : Str} {tw : List VTok} {rs : List (Re × List Tok)} (hh : Ident u h) (hn : ∃ c ∈ h, ¬ AnyNum c)
    {l : List VTok} (hl : Lexed u l) :
    passR u ((wordRe h, litTmpl (vtext tw)) :: rs) (vtext l) = passR u rs (vtext (l.flatMap (putTok h tw))) := by
  rw [passR_cons, sub_word hh hn hl]

theorem pass_same {u : Char → Bool} {r : Re} {t : List Tok} {rs : List (Re × List Tok)} {s : Str} (h : sub u r t s = s) :
    passR u ((r, t) :: rs) s = passR u rs s := by
  rw [passR_cons, h]

theorem pass_to {u : Char → Bool} {r : Re} {t : List Tok} {rs : List (Re × List Tok)} {s s' : Str} (h : sub u r t s = s') :
    passR u ((r, t) :: rs) s = passR u rs s' := by
  rw [passR_cons, h]

theorem hw {h : Str} (c : Char) (h1 : c ∈ h) (h2 : isDigit c = false) (h3 : c ∉ ".eE+-".toList) (h4 : c ∉ "uUlLzZfFdD".toList) :
    ∃ c ∈ h, ¬ AnyNum c := ⟨c, h1, not_anyNum h2 h3 h4⟩

theorem pass_last {u : Char → Bool} {l : List VTok} (hl : Inv u l) :
    passR u [(reSep, [.ref 1, .chr '_', .ref 2]), (reSuffix ("fFdD".toList.map .one), [.ref 1]), (lits "::".toList .eps, litTmpl ".".toList)]
      (vtext l) = vtext ((l.map (VTok.drop "fFdD".toList)).map VTok.dot) := by
  rw [passR_cons, sub_reSep _ hl.quote, passR_cons, sub_numbers suffixes_fd hl.lexed, passR_cons, sub_scope (hl.drop _).lexed, passR_nil]

/-- One pass. -/
theorem pass_steps {u : Char → Bool} (hu : SpaceApart u) {l : List VTok} (h0 : Inv u l) : passR u valueRules (vtext l) = vtext (steps l) := by
  have h1 := h0.put (h := "true".toList) (takesTrue u) (by decide)
  have h2 := h1.put (h := "false".toList) (takesFalse u) (by decide)
  have h3 := h2.put (h := "NULL".toList) (takesNone u) (by decide)
  have h4 := h3.put (h := "nullptr".toList) (takesNone u) (by decide)
  have h5 := h4.put (h := "FLT_MIN".toList) (takesMin u) (by decide)
  have h6 := h5.put (h := "FLT_MAX".toList) (takesMax u) (by decide)
  have h7 := h6.put (h := "DBL_MIN".toList) (takesMin u) (by decide)
  have h8 := h7.put (h := "DBL_MAX".toList) (takesMax u) (by decide)
  have h9 := h8.put (h := "LDBL_MIN".toList) (takesMin u) (by decide)
  have h10 := h9.put (h := "LDBL_MAX".toList) (takesMax u) (by decide)
  have hvoid : ∃ c ∈ "void".toList, ¬ AnyNum c := hw 'v' (by decide) (by decide) (by decide) (by decide)
  rw [valueRules_eq]
  refine (pass_word (ident_of (by decide) (by decide)) (hw 't' (by decide) (by decide) (by decide) (by decide)) h0.lexed).trans ?_
  refine (pass_word (ident_of (by decide) (by decide)) (hw 'a' (by decide) (by decide) (by decide) (by decide)) h1.lexed).trans ?_
  refine (pass_same (sub_absent (voidIdent u) (headed_lits (voidIdent u) (stops_space hu (chr_begins (c := '*') rfl _)))
    (neverEmpty_lits (by decide) _) hvoid _ h2.lexed (calm_word h2.calm))).trans ?_
  refine (pass_same (sub_absent (voidIdent u) (headed_lits (voidIdent u) (stops_wordB u _)) (neverEmpty_lits (by decide) _)
    hvoid _ h2.lexed (calm_word h2.calm))).trans ?_
  refine (pass_word (ident_of (by decide) (by decide)) (hw 'N' (by decide) (by decide) (by decide) (by decide)) h2.lexed).trans ?_
  refine (pass_word (ident_of (by decide) (by decide)) (hw 'n' (by decide) (by decide) (by decide) (by decide)) h3.lexed).trans ?_
  refine (pass_same (sub_quiet _ (neverEmpty_std _) (quiet_std (stdLike_colon (.inl rfl) (stops_wordB u _)) [] h4.lexed h4.calm))).trans ?_
  refine (pass_same (sub_quiet _ (neverEmpty_std _) (quiet_std (stdLike_any (.inl rfl) (stops_wordB u _)) [] h4.lexed h4.calm))).trans ?_
  refine (pass_same (sub_quiet _ (neverEmpty_std _) (quiet_std (stdLike_colon (.inr rfl) (stops_chr (c := '(') rfl _)) [] h4.lexed h4.calm))).trans ?_
  refine (pass_same (sub_quiet _ (neverEmpty_std _) (quiet_std (stdLike_any (.inr rfl) (stops_chr (c := '(') rfl _)) [] h4.lexed h4.calm))).trans ?_
  refine (pass_word (ident_of (by decide) (by decide)) (hw 'M' (by decide) (by decide) (by decide) (by decide)) h4.lexed).trans ?_
  refine (pass_word (ident_of (by decide) (by decide)) (hw 'M' (by decide) (by decide) (by decide) (by decide)) h5.lexed).trans ?_
  refine (pass_word (ident_of (by decide) (by decide)) (hw 'M' (by decide) (by decide) (by decide) (by decide)) h6.lexed).trans ?_
  refine (pass_word (ident_of (by decide) (by decide)) (hw 'M' (by decide) (by decide) (by decide) (by decide)) h7.lexed).trans ?_
  refine (pass_word (ident_of (by decide) (by decide)) (hw 'M' (by decide) (by decide) (by decide) (by decide)) h8.lexed).trans ?_
  refine (pass_word (ident_of (by decide) (by decide)) (hw 'M' (by decide) (by decide) (by decide) (by decide)) h9.lexed).trans ?_
  refine (pass_last h10).trans ?_
  rw [steps, stepsW, pyWords]
  rw [List.foldl_cons, List.foldl_cons, List.foldl_cons, List.foldl_cons, List.foldl_cons, List.foldl_cons, List.foldl_cons, List.foldl_cons,
    List.foldl_cons, List.foldl_cons, List.foldl_nil]

theorem stepsW_append (tbl : List (Str × List VTok)) : ∀ (l m : List VTok), stepsW tbl (l ++ m) = stepsW tbl l ++ stepsW tbl m := by
  induction tbl with
  | nil => intro l m; rfl
  | cons q tbl ih =>
    intro l m
    show stepsW tbl ((l ++ m).flatMap _) = stepsW tbl (l.flatMap _) ++ stepsW tbl (m.flatMap _)
    rw [List.flatMap_append, ih]

theorem stepsW_other (tbl : List (Str × List VTok)) {t : VTok} (h : ∀ q ∈ tbl, t ≠ .word q.1) : stepsW tbl [t] = [t] := by
  induction tbl with
  | nil => rfl
  | cons q tbl ih =>
    have e : [t].flatMap (putTok q.1 q.2) = [t] := by
      show putTok q.1 q.2 t ++ [] = [t]
      rw [List.append_nil]
      cases t with
      | word w =>
        rw [putTok, if_neg]
        intro e
        exact h q (by simp) (by rw [e])
      | _ => rfl
    show stepsW tbl ([t].flatMap (putTok q.1 q.2)) = [t]
    rw [e]
    exact ih (fun p hp => h p (by simp [hp]))

theorem steps_append (l m : List VTok) : steps (l ++ m) = steps l ++ steps m := by
  rw [steps, stepsW_append, List.map_append, List.map_append]
  rfl

theorem steps_closed : ∀ q ∈ pyWords, steps [.word q.1] = VTok.py (.word q.1) := by decide +kernel

theorem py_other {w : Str} (h : ¬ ∃ q ∈ pyWords, q.1 = w) : VTok.py (.word w) = [.word w] := by
  have hf : pyWords.find? (fun q => decide (q.1 = w)) = none := by
    rw [List.find?_eq_none]
    intro q hq e
    exact h ⟨q, hq, of_decide_eq_true e⟩
  rw [VTok.py, hf]
  rfl

theorem steps_one (t : VTok) : steps [t] = t.py := by
  cases t with
  | word w =>
    by_cases h : ∃ q ∈ pyWords, q.1 = w
    · obtain ⟨q, hq, rfl⟩ := h
      exact steps_closed q hq
    · rw [py_other h, steps, stepsW_other]
      · rfl
      · intro q hq e
        exact h ⟨q, hq, (VTok.word.inj e).symm⟩
  | num b s =>
    rw [steps, stepsW_other pyWords (fun q _ e => by cases e)]
    show [VTok.dot (VTok.drop "fFdD".toList (.num b s))] = [VTok.drop "fFdD".toList (.num b s)]
    rcases drop_cases "fFdD".toList b s with ⟨c, rfl, _, e⟩ | ⟨_, e⟩
    · rw [e]; rfl
    · rw [e]; rfl
  | scope =>
    rw [steps, stepsW_other pyWords (fun q _ e => by cases e)]
    rfl
  | sep c =>
    rw [steps, stepsW_other pyWords (fun q _ e => by cases e)]
    rfl

/-- The steps make the value of Python. -/
theorem steps_eq (l : List VTok) : steps l = pyValue l := by
  induction l with
  | nil => rfl
  | cons t l ih =>
    have e : pyValue (t :: l) = t.py ++ pyValue l := List.flatMap_cons
    rw [← List.singleton_append, steps_append, ih, steps_one, List.singleton_append, e]

theorem py_closed : ∀ q ∈ pyWords, pyValue (VTok.py (.word q.1)) = VTok.py (.word q.1) := by decide +kernel

theorem py_one (t : VTok) : pyValue t.py = t.py := by
  cases t with
  | word w =>
    by_cases h : ∃ q ∈ pyWords, q.1 = w
    · obtain ⟨q, hq, rfl⟩ := h
      exact py_closed q hq
    · rw [py_other h]
      show VTok.py (.word w) ++ [] = _
      rw [py_other h]
      rfl
  | num b s =>
    show pyValue [VTok.drop "fFdD".toList (.num b s)] = [VTok.drop "fFdD".toList (.num b s)]
    rcases drop_cases "fFdD".toList b s with ⟨c, rfl, _, e⟩ | ⟨_, e⟩
    · rw [e]; rfl
    · rw [e]
      show [VTok.drop "fFdD".toList (.num b s)] = _
      rw [e]
  | scope => rfl
  | sep c => rfl

/-- A value of Python is not changed. -/
theorem pyValue_pyValue (l : List VTok) : pyValue (pyValue l) = pyValue l := by
  induction l with
  | nil => rfl
  | cons t l ih =>
    have e : pyValue (t :: l) = t.py ++ pyValue l := List.flatMap_cons
    have e2 : pyValue (t.py ++ pyValue l) = pyValue t.py ++ pyValue (pyValue l) := List.flatMap_append
    rw [e, e2, py_one, ih]

theorem apply_once {sub : Repl.Engine} {rs : List Repl.Replacement} {s : Str} (h : Repl.pass sub rs (Repl.pass sub rs s) = Repl.pass sub rs s) :
    Repl.apply sub rs s = Repl.pass sub rs s := by
  rw [Repl.apply_eq]
  dsimp only
  split
  · rfl
  · first
    | rw [if_pos h, h]
    | exact h

/-- The standard replacements of values, applied. -/
theorem apply_value {u : Char → Bool} (hu : SpaceApart u) {l : List VTok} (hl : Inv u l) :
    Repl.apply (engine u) valueList (vtext l) = vtext (pyValue l) := by
  have h1 : Repl.pass (engine u) valueList (vtext l) = vtext (pyValue l) := by
    rw [pass_rules u valueList read_value, pass_steps hu hl, steps_eq]
  rw [apply_once, h1]
  rw [h1, pass_rules u valueList read_value, pass_steps hu (by rw [← steps_eq]; exact steps_inv hl), steps_eq, pyValue_pyValue]

end Verif.Re
