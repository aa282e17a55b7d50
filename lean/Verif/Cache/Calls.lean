import Verif.Cache.Classes

/-! Property C104, third part: the names of functions that are called. -/

namespace Verif.Cache.Spec
open Verif.Py Verif.Inst.Spec

/-- The text is that of the parentheses of a call: spaces, then `(`. -/
def Call (s : Str) : Prop := ∃ sp r, s = sp ++ '(' :: r ∧ ∀ c ∈ sp, isSpace c = true

/-- `s` begins with spaces and `(`. -/
def call : Str → Bool
  | [] => false
  | c :: s => decide (c = '(') || (isSpace c && call s)

/-- The pieces of a text, where the name of a function that is called is changed. -/
def renameCalls (name v : Str) : List Piece → List Piece
  | [] => []
  | .sep c :: l => .sep c :: renameCalls name v l
  | .word w :: l => .word (if w = name ∧ call (text l) = true then v else w) :: renameCalls name v l

/-- The text `s'` is `s` where the name of the function is changed in the calls. -/
def CallsRenamed (u : Char → Bool) (name v s s' : Str) : Prop := ∃ l, CutOf u s l ∧ s' = text (renameCalls name v l)

end Verif.Cache.Spec

namespace Verif.Cache.Props
open Verif.Py Verif.Repl Verif.Cache Verif.Cache.Spec Verif.Re Verif.Re.Spec Verif.Inst Verif.Inst.Spec
open Verif.Scope (isWordChar)

theorem call_iff : ∀ s, call s = true ↔ Call s
  | [] => ⟨fun h => (by cases h), fun ⟨sp, r, e, _⟩ => absurd e (by simp)⟩
  | c :: s => by
    unfold call
    rw [Bool.or_eq_true, Bool.and_eq_true, decide_eq_true_eq, call_iff s]
    constructor
    · rintro (rfl | ⟨h, sp, r, rfl, hs⟩)
      · exact ⟨[], s, rfl, fun _ h => (by cases h)⟩
      · exact ⟨c :: sp, r, rfl, fun d hd => by
          rcases List.mem_cons.1 hd with rfl | hd
          · exact h
          · exact hs d hd⟩
    · rintro ⟨sp, r, e, hs⟩
      cases sp with
      | nil => exact .inl (List.cons.inj e).1
      | cons d sp =>
        obtain ⟨rfl, rfl⟩ := List.cons.inj e
        exact .inr ⟨hs c (by simp), sp, r, rfl, fun x hx => hs x (by simp [hx])⟩

/-- `\s*\(` -/
def parenRe : Re := .seq (.star true (.set false [.space false])) (.seq (.chr '(') .eps)

/-- `\bname(?=\s*\()` -/
def callRe (name : Str) : Re := .seq .wordB (lits name (.seq (.ahead parenRe) .eps))

theorem parse_paren (n : Nat) : parseSeq (n + 11 + 1) 0 ['(', '?', '=', '\\', 's', '*', '\\', '(', ')'] = some (.seq (.ahead parenRe) .eps, 0, []) := rfl

theorem compile_call {w : Str} (hw : AsciiIdent w) : compile (callPattern w) = some (callRe w, 0) := by
  have e1 : callPattern w = '\\' :: 'b' :: (w ++ ['(', '?', '=', '\\', 's', '*', '\\', '(', ')']) := rfl
  have h2 := parse_lits w _ 0 _ _ _ _ hw.2 (by intro c hc; cases hc; decide) (by decide) (parse_paren (2 * w.length + 22))
  have e2 : 3 * (callPattern w).length + 3 = (2 * w.length + 22 + 11 + 1 + w.length) + 1 + 1 := by
    rw [e1]
    simp only [List.length_cons, List.length_append, List.length_nil]
    omega
  have h4 : parseSeq (2 * w.length + 22 + 11 + 1 + w.length + 1) 0 ('\\' :: 'b' :: (w ++ ['(', '?', '=', '\\', 's', '*', '\\', '(', ')'])) =
      some (callRe w, 0, []) := by
    rw [parseSeq.eq_5]
    · have h5 : parseAtom (2 * w.length + 22 + 11 + 1 + w.length) 0 ('\\' :: 'b' :: (w ++ ['(', '?', '=', '\\', 's', '*', '\\', '(', ')'])) =
          some (.wordB, 0, w ++ ['(', '?', '=', '\\', 's', '*', '\\', '(', ')']) := by
        rw [Nat.add_right_comm]
        rfl
      rw [h5, Option.bind_some]
      dsimp only
      rw [parseQuant_none (head_word hw), Option.bind_some]
      dsimp only
      rw [h2]
      rfl
    all_goals
      intros
      first
        | (next e1 => exact absurd (List.cons.inj e1).1 (by decide))
        | (next e1 => cases e1)
  rw [compile, e2, e1, parseAlt, h4]
  rfl

theorem matches_spaces {u : Char → Bool} {g : Bool} {r : Re} {a m b : Str} {k k' : List (Nat × Str)} (h : Matches u r a m b k k')
    (hr : r = .star g (.set false [.space false])) : ∀ c ∈ m, isSpace c = true := by
  induction h with
  | starNil => intro c hc; cases hc
  | starCons g' r' a m m' b k k' k'' hne h1 h2 ih1 ih2 =>
    injection hr with hr1 hr2
    subst hr1; subst hr2
    intro c hc
    rcases List.mem_append.1 hc with hc | hc
    · cases h1 with
      | set _ d _ _ _ hd =>
        obtain ⟨i, hi, hh⟩ := hd
        rw [List.mem_singleton.1 hi] at hh
        rw [List.mem_singleton.1 hc]
        simpa [Item.has] using hh
    · exact ih2 rfl c hc
  | _ => cases hr

theorem fits_paren {u : Char → Bool} {a s : Str} : (∃ m b, s = m ++ b ∧ Fits u parenRe a m b) ↔ Call s := by
  constructor
  · rintro ⟨m, b, rfl, k, h⟩
    obtain ⟨m1, m2, k1, rfl, h1, h2⟩ := matches_seq h
    obtain ⟨m3, m4, k2, rfl, h3, h4⟩ := matches_seq h2
    obtain ⟨rfl, _⟩ := matches_chr h3
    exact ⟨m1, m4 ++ b, by simp, matches_spaces h1 rfl⟩
  · rintro ⟨sp, r, rfl, hs⟩
    refine ⟨sp ++ ['('], r, by simp, [], ?_⟩
    have hst : ∀ (sp : Str) (a b : Str), (∀ c ∈ sp, isSpace c = true) → Matches u (.star true (.set false [.space false])) a sp b [] [] := by
      intro sp
      induction sp with
      | nil => intro a b _; exact .starNil ..
      | cons c sp ih =>
        intro a b h
        exact .starCons true _ a [c] sp b [] [] [] (by simp)
          (.set _ c a _ _ ⟨_, List.mem_singleton.2 rfl, by simpa [Item.has] using h c (by simp)⟩) (ih (a ++ [c]) b (fun d hd => h d (by simp [hd])))
    have h2 : Matches u (.seq (.chr '(') .eps) (a ++ sp) ['('] r [] [] := .seq _ _ _ ['('] [] r [] [] [] (.chr ..) (.eps ..)
    exact .seq _ _ a sp ['('] r [] [] [] (hst sp a _ hs) h2

/-- No space is a letter. -/
def Spaces (u : Char → Bool) : Prop := ∀ c, isSpace c = true → u c = false

theorem space_not_word {u : Char → Bool} (hu : Spaces u) {c : Char} (h : isSpace c = true) : isWordChar u c = false := by
  unfold isWordChar
  by_cases h128 : c.toNat < 128
  · rw [if_pos h128]
    have h2 : c ≠ '_' := fun e => absurd h (by rw [e]; decide)
    unfold isSpace at h
    simp only [Bool.or_eq_true, Bool.and_eq_true, decide_eq_true_eq, beq_iff_eq] at h
    simp only [Bool.or_eq_false_iff, Bool.and_eq_false_iff, decide_eq_false_iff_not, beq_eq_false_iff_ne]
    refine ⟨⟨⟨?_, ?_⟩, ?_⟩, h2⟩ <;> omega
  · rw [if_neg h128]
    exact hu c h

theorem call_not_begins {u : Char → Bool} (hu : Spaces u) {s : Str} (h : Call s) : ¬ BeginsWithWord u s := by
  obtain ⟨sp, r, rfl, hs⟩ := h
  cases sp with
  | nil => rw [List.nil_append, begins_cons]; exact Bool.false_ne_true
  | cons c sp => rw [List.cons_append, begins_cons, space_not_word hu (hs c (by simp))]; decide

theorem tail_call {u : Char → Bool} {a m b : Str} {k k' : List (Nat × Str)} (h : Matches u (.seq (.ahead parenRe) .eps) a m b k k') :
    m = [] ∧ Call b := by
  obtain ⟨m1, m2, k1, rfl, h1, h2⟩ := matches_seq h
  cases h2
  generalize hb : [] ++ b = b' at h1
  cases h1 with
  | ahead _ _ m3 b3 _ _ h3 =>
    refine ⟨rfl, ?_⟩
    rw [List.nil_append] at hb
    subst hb
    obtain ⟨k4, h4⟩ := run_complete h3 []
    obtain ⟨m5, f1, _, f3⟩ := run_sound u _ _ (m3 ++ b3) [] _ h4
    have : m5 = m3 := (List.append_cancel_right f1).symm
    subst this
    exact fits_paren.1 ⟨m5, b3, rfl, _, f3⟩

theorem stops_call {u : Char → Bool} (hu : Spaces u) : Stops u (.seq (.ahead parenRe) .eps) := by
  intro a m b k k' _ h
  obtain ⟨rfl, hc⟩ := tail_call h
  exact call_not_begins hu hc

theorem hit_call {u : Char → Bool} {name a b : Str} (hn : Ident u name) (ha : ¬ EndsInWord u a) (hc : Call b) :
    ∃ t, matchAt u (callRe name) a.getLast? (name ++ b) = some t ∧ t.rest = b := by
  have hr : run u parenRe ⟨(a ++ name).getLast?, b, []⟩ ≠ [] := (fits_iff u parenRe (a ++ name) b []).2 (fits_paren.2 hc)
  unfold matchAt callRe
  rw [run_wordB (fun e => ha (e.2 (begins_append hn.1 hn.2))), run_lits, run, run]
  cases h : run u parenRe ⟨(a ++ name).getLast?, b, []⟩ with
  | nil => exact absurd h hr
  | cons t r => exact ⟨_, rfl, rfl⟩

theorem quiet_no_call {u : Char → Bool} (hu : Spaces u) {name a b : Str} (hn : Ident u name) (hc : ¬ Call b) :
    Quiet u (callRe name) a name b := by
  have hh := headed_lits hn (stops_call hu)
  obtain ⟨c, w, rfl⟩ : ∃ c w, name = c :: w := by
    cases name with
    | nil => exact absurd rfl hn.1
    | cons c w => exact ⟨c, w, rfl⟩
  rw [quiet_cons]
  refine ⟨?_, quiet_inside hh w b (ends_concat.2 (hn.2 c (by simp))) (fun x hx => hn.2 x (by simp [hx]))⟩
  rintro m b' e ⟨k, hm⟩
  obtain ⟨m1, m2, k1, rfl, h1, h2⟩ := matches_seq hm
  obtain ⟨rfl, _, _⟩ := matches_wordB h1
  obtain ⟨m', rfl, h4⟩ := matches_lits (c :: w) h2
  obtain ⟨rfl, hc'⟩ := tail_call h4
  have e' : c :: w ++ b = (c :: w) ++ b' := by simpa using e
  rw [List.append_cancel_left e'] at hc
  exact hc hc'

theorem scan_calls {u : Char → Bool} (hu : Spaces u) {name : Str} (hn : Ident u name) (v : Str) : ∀ {l : List Piece} (a : Str), Cut u l →
    (EndsInWord u a → ∀ w m, l ≠ .word w :: m) → scan u (callRe name) (litTmpl v) a.getLast? 0 (text l) = text (renameCalls name v l)
  | [], a, _, _ => scan_nil _ (matchAt_nil (neverEmpty_lits hn.1 _) a)
  | .sep c :: l, a, hl, _ => by
    have hh : Headed u name (callRe name) := headed_lits hn (stops_call hu)
    rw [text_cons, Piece.text, scan_quiet _ _ (quiet_sep hn hh hl.1 a (text l)),
      scan_calls hu hn v _ hl.2 (fun he => by rw [ends_concat, hl.1] at he; cases he)]
    rfl
  | .word w :: l, a, hl, ha => by
    have hh : Headed u name (callRe name) := headed_lits hn (stops_call hu)
    have hb := not_begins_text hl.2.2.1 hl.2.2.2
    have ih := fun a => scan_calls hu hn v (l := l) a hl.2.2.2 (fun _ => hl.2.2.1)
    show scan u (callRe name) (litTmpl v) a.getLast? 0 (w ++ text l) = (if w = name ∧ call (text l) = true then v else w) ++ text (renameCalls name v l)
    by_cases hw : w = name
    · subst hw
      by_cases hc : call (text l) = true
      · have hna : ¬ EndsInWord u a := fun he => ha he w l rfl
        obtain ⟨t, h1, h2⟩ := hit_call hn hna ((call_iff _).1 hc)
        rw [if_pos ⟨rfl, hc⟩, scan_hit _ hl.1 h1 h2, expand_litTmpl, ih]
      · rw [if_neg (fun h => hc h.2), scan_quiet _ _ (quiet_no_call hu hn (fun h => hc ((call_iff _).2 h))), ih]
    · rw [if_neg (fun h => hw h.1), scan_quiet _ _ (quiet_word hn hh ⟨hl.1, hl.2.1⟩ hw a hb), ih]

theorem engine_call {u : Char → Bool} (hu : Spaces u) {name v : Str} (hn : AsciiIdent name) (hv : '\\' ∉ v) (s : Str) :
    engine u (callPattern name) v s = text (renameCalls name v (cut u s)) := by
  rw [engine, rule, compile_call hn, Option.bind_some, parseTmpl_lit _ _ hv, Option.map_some]
  have := scan_calls hu (ident_of_ascii hn) v (l := cut u s) [] (cut_spec u s).1 (by rintro ⟨c, hc, _⟩; cases hc)
  rw [(cut_spec u s).2] at this
  exact this

/-! The calls of a text that has been renamed. -/

theorem call_renamed {u : Char → Bool} {name v : Str} (hv : AsciiIdent v) (hs : Spaces u) : ∀ {l : List Piece}, Cut u l →
    call (text (renameCalls name v l)) = call (text l)
  | [], _ => rfl
  | .sep c :: l, h => by
    show (decide (c = '(') || (isSpace c && call (text (renameCalls name v l)))) = (decide (c = '(') || (isSpace c && call (text l)))
    rw [call_renamed hv hs h.2]
  | .word w :: l, h => by
    have key : ∀ (x t : Str), Ident u x → call (x ++ t) = false := by
      intro x t hx
      cases hcall : call (x ++ t) with
      | false => rfl
      | true => exact absurd (begins_append hx.1 hx.2) (call_not_begins hs ((call_iff _).1 hcall))
    show call ((if w = name ∧ call (text l) = true then v else w) ++ text (renameCalls name v l)) = call (w ++ text l)
    rw [key w _ ⟨h.1, h.2.1⟩]
    apply key
    split
    · exact ident_of_ascii hv
    · exact ⟨h.1, h.2.1⟩

theorem cut_renamed {u : Char → Bool} {name v : Str} (hv : AsciiIdent v) : ∀ {l : List Piece}, Cut u l → Cut u (renameCalls name v l)
  | [], h => h
  | .sep c :: l, h => ⟨h.1, cut_renamed hv h.2⟩
  | .word w :: l, h => by
    have hi : ∀ x : Str, (x = v ∨ x = w) → x ≠ [] ∧ ∀ c ∈ x, isWordChar u c = true := by
      rintro x (rfl | rfl)
      · exact ident_of_ascii hv
      · exact ⟨h.1, h.2.1⟩
    have hx := hi (if w = name ∧ call (text l) = true then v else w) (by split <;> simp)
    refine ⟨hx.1, hx.2, ?_, cut_renamed hv h.2.2.2⟩
    intro x m e
    cases l with
    | nil => cases e
    | cons p l =>
      cases p with
      | sep c => cases e
      | word y => exact h.2.2.1 y l rfl

theorem renameCalls_twice {u : Char → Bool} {name v : Str} (hs : Spaces u) (hv : AsciiIdent v) (hne : name ≠ v) : ∀ {l : List Piece}, Cut u l →
    renameCalls name v (renameCalls name v l) = renameCalls name v l
  | [], _ => rfl
  | .sep c :: l, h => by
    show Piece.sep c :: renameCalls name v (renameCalls name v l) = _
    rw [renameCalls_twice hs hv hne h.2]
    rfl
  | .word w :: l, h => by
    show Piece.word (if (if w = name ∧ call (text l) = true then v else w) = name ∧ call (text (renameCalls name v l)) = true then v
      else (if w = name ∧ call (text l) = true then v else w)) :: renameCalls name v (renameCalls name v l) =
      Piece.word (if w = name ∧ call (text l) = true then v else w) :: renameCalls name v l
    rw [renameCalls_twice hs hv hne h.2.2.2, call_renamed hv hs h.2.2.2]
    by_cases hw : w = name ∧ call (text l) = true
    · rw [if_pos hw, if_neg (fun k => hne k.1.symm)]
    · rw [if_neg hw, if_neg hw]

theorem renameCalls_same (name : Str) : ∀ l, renameCalls name name l = l
  | [] => rfl
  | .sep c :: l => by
    show Piece.sep c :: renameCalls name name l = _
    rw [renameCalls_same name l]
  | .word w :: l => by
    show Piece.word (if w = name ∧ call (text l) = true then name else w) :: renameCalls name name l = _
    rw [renameCalls_same name l]
    by_cases h : w = name ∧ call (text l) = true
    · rw [if_pos h, h.1]
    · rw [if_neg h]

/-- C104: what is stored for a function changes its name where it is a whole word followed by `(`, and nothing else. -/
theorem C104_call (u : Char → Bool) (hu : Spaces u) (cpp py s : Str) (h1 : AsciiIdent cpp) (h2 : AsciiIdent py) :
    CallsRenamed u cpp py s (Repl.apply (engine u) (functionRules false false cpp py) s) := by
  refine ⟨cut u s, cut_spec u s, ?_⟩
  unfold functionRules
  rw [if_neg (by decide)]
  by_cases e : cpp = py
  · rw [if_neg (fun k => k e), ← e, renameCalls_same, (cut_spec u s).2, apply_eq]
    show (if s = s then s else _) = s
    rw [if_pos rfl]
  · rw [if_pos e, apply_eq]
    have hp : ∀ x, pass (engine u) [⟨callPattern cpp, py⟩] x = text (renameCalls cpp py (cut u x)) :=
      fun x => engine_call hu h1 (ascii_no_backslash h2) x
    dsimp only
    rw [hp s]
    by_cases e1 : text (renameCalls cpp py (cut u s)) = s
    · rw [if_pos e1]
    · have e2 : text (renameCalls cpp py (cut u (text (renameCalls cpp py (cut u s))))) = text (renameCalls cpp py (cut u s)) := by
        rw [cut_text (cut_renamed h2 (cut_spec u s).1), renameCalls_twice hu h2 e (cut_spec u s).1]
      rw [if_neg e1, hp, e2, if_pos rfl]

/-- C104: nothing is stored for constructors, operators, and names that do not change. -/
theorem C104_not_stored (ctor op : Bool) (cpp py : Str) : functionRules ctor op cpp py = [] ↔ ctor = true ∨ op = true ∨ cpp = py := by
  unfold functionRules
  cases ctor
  · cases op
    · by_cases h : cpp = py
      · simp [h]
      · simp [h]
    · simp
  · simp

example : Spaces (fun _ => false) ∧ AsciiIdent "MakeFont".toList ∧ AsciiIdent "make_font".toList := ⟨fun _ _ => rfl, by decide, by decide⟩

example : Repl.apply (engine (fun _ => false)) (functionRules false false "MakeFont".toList "make_font".toList)
    "g(MakeFont (2), MakeFont, ReMakeFont())".toList = "g(make_font (2), MakeFont, ReMakeFont())".toList := by decide +kernel

end Verif.Cache.Props
