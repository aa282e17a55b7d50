import Verif.Cache.Props

/-! Property C104, second part: the members of enumerations with `class`. -/

namespace Verif.Cache.Spec
open Verif.Py

/-- The text begins with `E`, any character but a line feed, and `M`; and `M` is not the beginning of a longer word. -/
def BeginsMember (u : Char → Bool) (E M s : Str) : Prop := ∃ c b, c ≠ '\n' ∧ s = E ++ c :: (M ++ b) ∧ ¬ Re.Spec.BeginsWithWord u b

/-- The text `s`, and what it becomes: from left to right, what begins so is replaced by `v`, the rest is kept. -/
inductive MembersReplaced (u : Char → Bool) (E M v : Str) : Str → Str → Prop
  | done : MembersReplaced u E M v [] []
  | keep (c s t) : ¬ BeginsMember u E M (c :: s) → MembersReplaced u E M v s t → MembersReplaced u E M v (c :: s) (c :: t)
  | hit (c b t) : c ≠ '\n' → ¬ Re.Spec.BeginsWithWord u b → MembersReplaced u E M v b t → MembersReplaced u E M v (E ++ c :: (M ++ b)) (v ++ t)

end Verif.Cache.Spec

namespace Verif.Cache.Props
open Verif.Py Verif.Repl Verif.Cache Verif.Cache.Spec Verif.Re Verif.Re.Spec Verif.Inst Verif.Inst.Spec
open Verif.Scope (isWordChar)

/-- `E.M\b` -/
def memberRe (E M : Str) : Re := lits E (.seq .any (lits M (.seq .wordB .eps)))

/-- `\bE.M\b|E.M\b` -/
def classRe (E M : Str) : Re := .alt (.seq .wordB (memberRe E M)) (memberRe E M)

theorem parseQuant_none {r : Re} {s : Str} (h : ∀ c, s.head? = some c → c ∉ "*+?".toList) : parseQuant r s = some (r, s) := by
  unfold parseQuant
  split
  · exact absurd (by decide) (h '*' rfl)
  · exact absurd (by decide) (h '+' rfl)
  · exact absurd (by decide) (h '?' rfl)
  · rfl

theorem head_word {w s : Str} (hw : AsciiIdent w) : ∀ c, (w ++ s).head? = some c → c ∉ "*+?".toList := by
  intro c hc hm
  cases w with
  | nil => exact hw.1 rfl
  | cons d w =>
    have e : d = c := Option.some.inj hc
    have hd := hw.2 d (by simp)
    rw [e] at hd
    have : ∀ d ∈ "*+?".toList, isWordChar (fun _ => false) d = false := by decide
    rw [this c hm] at hd
    cases hd.2

theorem parse_member {E M : Str} (hE : AsciiIdent E) (hM : AsciiIdent M) (n : Nat) (rest : Str) (hr : rest = [] ∨ ∃ t, rest = '|' :: t) :
    parseSeq (n + 3 + M.length + 1 + E.length) 0 (E ++ '.' :: (M ++ '\\' :: 'b' :: rest)) = some (memberRe E M, 0, rest) := by
  have h1 : parseSeq (n + 2 + 1) 0 ('\\' :: 'b' :: rest) = some (.seq .wordB .eps, 0, rest) := by
    rcases hr with rfl | ⟨t, rfl⟩ <;> rfl
  have h2 := parse_lits M (n + 2) 0 _ _ _ _ hM.2 (by intro c hc; cases hc; decide) (by simp) h1
  have h3 : parseSeq (n + 3 + M.length + 1) 0 ('.' :: (M ++ '\\' :: 'b' :: rest)) = some (.seq .any (lits M (.seq .wordB .eps)), 0, rest) := by
    have ha : parseAtom (n + 3 + M.length) 0 ('.' :: (M ++ '\\' :: 'b' :: rest)) = some (.any, 0, M ++ '\\' :: 'b' :: rest) := by
      rw [show n + 3 + M.length = n + 2 + M.length + 1 from by omega]
      rfl
    rw [parseSeq.eq_5]
    · rw [ha, Option.bind_some]
      dsimp only
      rw [parseQuant_none (head_word hM), Option.bind_some]
      dsimp only
      rw [h2]
      rfl
    all_goals
      intros
      first
        | (next e1 => exact absurd (List.cons.inj e1).1 (by decide))
        | (next e1 => cases e1)
  exact parse_lits E (n + 3 + M.length) 0 _ _ _ _ hE.2 (by intro c hc; cases hc; decide) (by simp) h3

theorem parse_member_b {E M : Str} (hE : AsciiIdent E) (hM : AsciiIdent M) (n : Nat) (rest : Str) (hr : rest = [] ∨ ∃ t, rest = '|' :: t) :
    parseSeq (n + 3 + M.length + 1 + E.length + 1) 0 ('\\' :: 'b' :: (E ++ '.' :: (M ++ '\\' :: 'b' :: rest))) =
      some (.seq .wordB (memberRe E M), 0, rest) := by
  have ha : parseAtom (n + 3 + M.length + 1 + E.length) 0 ('\\' :: 'b' :: (E ++ '.' :: (M ++ '\\' :: 'b' :: rest))) =
      some (.wordB, 0, E ++ '.' :: (M ++ '\\' :: 'b' :: rest)) := by
    rw [show n + 3 + M.length + 1 + E.length = n + 3 + M.length + E.length + 1 from by omega]
    rfl
  rw [parseSeq.eq_5]
  · rw [ha, Option.bind_some]
    dsimp only
    rw [parseQuant_none (head_word hE), Option.bind_some]
    dsimp only
    rw [parse_member hE hM n rest hr]
    rfl
  all_goals
    intros
    first
      | (next e1 => exact absurd (List.cons.inj e1).1 (by decide))
      | (next e1 => cases e1)

theorem classPattern_eq (E M : Str) : classPattern E M =
    '\\' :: 'b' :: (E ++ '.' :: (M ++ '\\' :: 'b' :: '|' :: (E ++ '.' :: (M ++ '\\' :: 'b' :: [])))) := by
  unfold classPattern
  rw [show "\\b".toList = ['\\', 'b'] from rfl]
  simp only [List.append_assoc, List.cons_append, List.nil_append]

theorem compile_class {E M : Str} (hE : AsciiIdent E) (hM : AsciiIdent M) : compile (classPattern E M) = some (classRe E M, 0) := by
  obtain ⟨n, hn⟩ : ∃ n, n = 5 * M.length + 5 * E.length + 24 := ⟨_, rfl⟩
  obtain ⟨k, hk⟩ : ∃ k, k = n + M.length + E.length + 3 := ⟨_, rfl⟩
  have hl : 3 * (classPattern E M).length + 3 = k + 1 + 1 + 1 := by
    rw [classPattern_eq]
    simp only [List.length_cons, List.length_append, List.length_nil]
    omega
  have h1 := parse_member_b hE hM n ('|' :: (E ++ '.' :: (M ++ '\\' :: 'b' :: []))) (.inr ⟨_, rfl⟩)
  have h2 := parse_member hE hM n [] (.inl rfl)
  rw [show n + 3 + M.length + 1 + E.length + 1 = k + 1 + 1 from by omega] at h1
  rw [show n + 3 + M.length + 1 + E.length = k + 1 from by omega] at h2
  have h3 : parseAlt (k + 1 + 1) 0 (E ++ '.' :: (M ++ '\\' :: 'b' :: [])) = some (memberRe E M, 0, []) := by
    rw [parseAlt, h2]
    rfl
  have h4 : parseAlt (k + 1 + 1 + 1) 0 (classPattern E M) = some (classRe E M, 0, []) := by
    rw [classPattern_eq, parseAlt, h1]
    show (parseAlt (k + 1 + 1) 0 _).map _ = _
    rw [h3]
    rfl
  rw [compile, hl, h4]
  rfl

theorem fits_member {u : Char → Bool} {E M a m b : Str} (hM : Ident u M) :
    Fits u (memberRe E M) a m b ↔ ∃ c, c ≠ '\n' ∧ m = E ++ c :: M ∧ ¬ BeginsWithWord u b := by
  constructor
  · rintro ⟨k, h⟩
    obtain ⟨m1, rfl, h1⟩ := matches_lits E h
    obtain ⟨m2, m3, k1, rfl, h2, h3⟩ := matches_seq h1
    cases h2 with
    | any c _ _ _ hc =>
      obtain ⟨m4, rfl, h4⟩ := matches_lits M h3
      obtain ⟨m5, m6, k2, rfl, h5, h6⟩ := matches_seq h4
      obtain ⟨rfl, rfl, h7⟩ := matches_wordB h5
      cases h6
      refine ⟨c, hc, by simp, fun hb => h7 ⟨fun _ => by simpa using hb, fun _ => ends_append hM.1 hM.2⟩⟩
  · rintro ⟨c, hc, rfl, hb⟩
    have hl : ∀ (w : Str) (r : Re) (a m b : Str), Matches u r (a ++ w) m b [] [] → Matches u (lits w r) a (w ++ m) b [] [] := by
      intro w r
      induction w with
      | nil => intro a m b h; simpa [lits_nil] using h
      | cons d w ih =>
        intro a m b h
        rw [lits_cons]
        exact Matches.seq (.chr d) _ a [d] (w ++ m) b [] [] [] (.chr d a _ []) (ih (a ++ [d]) m b (by simpa using h))
    refine ⟨[], hl E _ a (c :: M) b ?_⟩
    refine Matches.seq .any _ (a ++ E) [c] M b [] [] [] (.any c _ _ _ hc) ?_
    have h1 := hl M (.seq .wordB .eps) (a ++ E ++ [c]) [] b
      (Matches.seq .wordB .eps _ [] [] b [] [] [] (.wordB _ _ _ (fun h => hb (by simpa using h.1 (ends_append hM.1 hM.2)))) (.eps _ _ _))
    simpa using h1

theorem fits_class {u : Char → Bool} {E M a m b : Str} (hM : Ident u M) :
    Fits u (classRe E M) a m b ↔ ∃ c, c ≠ '\n' ∧ m = E ++ c :: M ∧ ¬ BeginsWithWord u b := by
  rw [← fits_member hM (a := a)]
  constructor
  · rintro ⟨k, h⟩
    cases h with
    | altL _ _ _ _ _ _ _ h =>
      obtain ⟨m1, m2, k1, rfl, h1, h2⟩ := matches_seq h
      obtain ⟨rfl, rfl, _⟩ := matches_wordB h1
      rw [List.append_nil] at h2
      exact ⟨_, h2⟩
    | altR _ _ _ _ _ _ _ h => exact ⟨_, h⟩
  · rintro ⟨k, h⟩
    exact ⟨k, .altR _ _ _ _ _ _ _ h⟩

theorem replaced_class {u : Char → Bool} {E M v : Str} (hM : Ident u M) {a s t : Str} (h : Replaced u (classRe E M) (litTmpl v) a s t) :
    MembersReplaced u E M v s t := by
  induction h with
  | done a => exact .done
  | keep a c s t hn _ ih =>
    refine .keep c s t ?_ ih
    rintro ⟨d, b, hd, e, hb⟩
    exact hn (E ++ d :: M) b (by rw [e]; simp) ((fits_class hM).2 ⟨d, hd, rfl, hb⟩)
  | hit a m b k t _ hm _ ih =>
    obtain ⟨d, hd, rfl, hb⟩ := (fits_class hM).1 ⟨k, hm⟩
    rw [expand_litTmpl, List.append_assoc, List.cons_append]
    exact .hit d b t hd hb ih

/-- C104: the rule of the member `M` of `enum class E`, exactly: what is replaced is `E`, any character, and `M` at the end of a word. -/
theorem C104_class_exact (u : Char → Bool) (E M v s : Str) (hE : AsciiIdent E) (hM : AsciiIdent M) (hv : '\\' ∉ v) :
    MembersReplaced u E M v s (engine u (classPattern E M) v s) := by
  rw [engine, rule, compile_class hE hM, Option.bind_some, parseTmpl_lit _ _ hv, Option.map_some]
  have hi := ident_of_ascii (u := u) hM
  refine replaced_class hi (a := []) (scan_replaced (litTmpl v) ?_ s.length [] s rfl)
  intro a b hf
  obtain ⟨c, _, e, _⟩ := (fits_class hi).1 hf
  exact absurd e (by simp)

/-- C104: the rule stored for a member of `enum class E` is that one, with the Python names. -/
theorem C104_class_rules (b : Bool) (e : Enum) (h : e.isClass = true) :
    enumRules b e = e.members.map (fun m => ⟨classPattern e.cpp m.cpp, e.py ++ '.' :: m.py⟩) := by
  rw [enumRules_eq, List.map_eq_flatMap]
  congr 1
  funext m
  unfold memberRules
  rw [h]
  show [_] = [_]
  rw [List.append_assoc]
  rfl

theorem membersReplaced_unique {u : Char → Bool} {E M v s t t' : Str} (h : MembersReplaced u E M v s t) (h' : MembersReplaced u E M v s t') : t = t' := by
  induction h generalizing t' with
  | done =>
    generalize hx : ([] : Str) = x at h'
    cases h' with
    | done => rfl
    | keep c s t hn _ => cases hx
    | hit c b t _ _ _ => exact absurd hx.symm (by simp)
  | keep c s t hn _ ih =>
    generalize hx : c :: s = x at h'
    cases h' with
    | done => cases hx
    | keep c' s' t' hn' h' =>
      obtain ⟨rfl, rfl⟩ := List.cons.inj hx
      rw [ih h']
    | hit c' b' t' hc hb _ => exact absurd ⟨c', b', hc, hx, hb⟩ hn
  | hit c b t hc hb _ ih =>
    generalize hx : E ++ c :: (M ++ b) = x at h'
    cases h' with
    | done => exact absurd hx (by simp)
    | keep c' s' t' hn' _ => exact absurd ⟨c, b, hc, hx.symm, hb⟩ hn'
    | hit c' b' t' hc' hb' h' =>
      obtain ⟨_, e⟩ := List.cons.inj (List.append_cancel_left hx)
      have e' := List.append_cancel_left e
      subst e'
      rw [ih h']

/-- C104: where no such text begins, nothing changes; and `E.M` with the rest `b` becomes the Python text, with the rest. -/
theorem C104_class_member (u : Char → Bool) (E M v : Str) (hE : AsciiIdent E) (hM : AsciiIdent M) (hv : '\\' ∉ v) :
    (∀ s, (∀ x y, s = x ++ y → ¬ BeginsMember u E M y) → engine u (classPattern E M) v s = s) ∧
      ∀ b, ¬ BeginsWithWord u b → engine u (classPattern E M) v (E ++ '.' :: (M ++ b)) = v ++ engine u (classPattern E M) v b := by
  constructor
  · intro s hs
    refine membersReplaced_unique (C104_class_exact u E M v s hE hM hv) ?_
    induction s with
    | nil => exact .done
    | cons c s ih => exact .keep c s s (hs [] _ rfl) (ih (fun x y e => hs (c :: x) y (by rw [e]; rfl)))
  · intro b hb
    exact membersReplaced_unique (C104_class_exact u E M v _ hE hM hv) (.hit '.' b _ (by decide) hb (C104_class_exact u E M v b hE hM hv))

/-- `enum class Mode { Start }` -/
def mode : Enum := ⟨"Mode".toList, "Mode".toList, true, [⟨"Start".toList, "start".toList⟩]⟩

example : AsciiIdent mode.cpp ∧ (∀ m ∈ mode.members, AsciiIdent m.cpp) ∧
    Repl.apply (engine (fun _ => false)) (enumRules false mode) "f(Mode.Start, Mode.Starter)".toList = "f(Mode.start, Mode.Starter)".toList := by
  decide +kernel

/-- The full statement: a text in which `E` is not a word is not changed by the rules of `enum class E`. -/
def C104_class_statement : Prop := ∀ (u : Char → Bool) (b : Bool) (e : Enum) (s : Str), Named e → e.isClass = true → ¬ HasWord u e.cpp s →
  Repl.apply (engine u) (enumRules b e) s = s

/-- C104: the point is not escaped, and the second half of the expression has no `\b` at its left: `Mode_Start` becomes `Mode.start`, and the member of
another enumeration `OtherMode.Start` becomes `OtherMode.start`. -/
theorem C104_class_fails : ¬ C104_class_statement := by
  intro h
  have h0 := h (fun _ => false) false mode "OtherMode.Start".toList (by decide) rfl (by rw [hasWord_iff]; decide +kernel)
  revert h0
  decide +kernel

example : Repl.apply (engine (fun _ => false)) (enumRules false mode) "Mode_Start".toList = "Mode.start".toList := by decide +kernel

end Verif.Cache.Props
