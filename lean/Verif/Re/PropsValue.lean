import Verif.Re.CommentFinal

/-! C80 and C81: the standard replacements of values and of comments. -/

namespace Verif.Re.Props
open Verif.Py Verif.Re Spec Verif.Inst Verif.Inst.Spec
open Verif.Scope (isWordChar)

/-- What the standard replacements of values make of a text. -/
def valueOf (u : Char → Bool) (s : Str) : Option Str := (Repl.fromString valueText).map (fun rs => Repl.apply (engine u) rs s)

/-- What the standard replacements of comments make of a text. -/
def commentOf (u : Char → Bool) (s : Str) : Option Str := (Repl.fromString commentText).map (fun rs => Repl.apply (engine u) rs s)

theorem valueOf_eq (u : Char → Bool) (s : Str) : valueOf u s = some (Repl.apply (engine u) valueList s) := by rw [valueOf, from_value]; rfl
theorem commentOf_eq (u : Char → Bool) (s : Str) : commentOf u s = some (Repl.apply (engine u) commentList s) := by rw [commentOf, from_comment]; rfl

/-! ### Values -/

theorem space_none : SpaceApart (fun _ => false) := by
  intro c hc
  have h : c ≠ '_' := by rintro rfl; cases hc
  unfold isSpace at hc
  unfold isWordChar
  have h2 : (c == '_') = false := decide_eq_false h
  rw [h2]
  split
  · simp only [Bool.or_eq_true, Bool.and_eq_true, decide_eq_true_eq, beq_iff_eq] at hc
    simp only [Bool.or_false, Bool.or_eq_false_iff, Bool.and_eq_false_iff, decide_eq_false_iff_not]
    omega
  · rfl

/-- C80, the full statement: a C++ value, cut in its pieces in any way, becomes the Python value. -/
def C80_statement : Prop := ∀ u, SpaceApart u → ∀ l : List VTok, (∀ w, .word w ∈ l → Ident u w) → valueOf u (vtext l) = some (vtext (pyValue l))

/-- C80 fails: in the name `kernel_2d` the end is taken for a number with a suffix. -/
theorem C80_fails : ¬ C80_statement := by
  intro h
  have h1 := h (fun _ => false) space_none [.word "kernel_2d".toList] (by
    intro w hw
    rw [VTok.word.inj (List.mem_singleton.1 hw)]
    exact ident_of (by decide) (by decide))
  rw [valueOf_eq] at h1
  revert h1
  decide +kernel

/-- C80 (partial: names without a digit after `_`, no `void`, no `std::nullopt`, no `std::string`, no `'`, and longest pieces). The standard
replacements of values translate every value piece by piece: the words of the table, the numbers without `f`, `F`, `d`, `D`, and `::`.
All the rest is kept, in the same order; and the result is not changed again. -/
theorem C80_partial {u : Char → Bool} (hu : SpaceApart u) {l : List VTok} (hl : Lexed u l) (hc : Calm l) :
    valueOf u (vtext l) = some (vtext (pyValue l)) ∧ valueOf u (vtext (pyValue l)) = some (vtext (pyValue l)) := by
  have hi : Inv u l := ⟨hl, hc⟩
  have h2 : Inv u (pyValue l) := by rw [← steps_eq]; exact steps_inv hi
  refine ⟨by rw [valueOf_eq, apply_value hu hi], ?_⟩
  rw [valueOf_eq, apply_value hu h2, pyValue_pyValue]

/-- A value that meets the hypotheses: `ImRect(-1.5f, Cfg::MaxX, FLT_MAX)`. -/
def sample : List VTok :=
  [.word "ImRect".toList, .sep '(', .sep '-', .num "1.5".toList "f".toList, .sep ',', .sep ' ', .word "Cfg".toList, .scope, .word "MaxX".toList,
   .sep ',', .sep ' ', .word "FLT_MAX".toList, .sep ')']

theorem sample_lexed : Lexed (fun _ => false) sample :=
  ⟨ident_of (by decide) (by decide), plain_of (by decide), apart_sep _ _, rfl, fun e => absurd e (by decide), rfl, fun e => absurd e (by decide),
    ⟨"1".toList, ".5".toList, [], by decide, (by unfold Digits; decide), .inr ⟨"5".toList, (by unfold Digits; decide), rfl⟩, .inl rfl, rfl⟩, by decide,
    apart_sep _ _, fun _ e => (by cases e), fun _ e => (by cases e), rfl, fun e => absurd e (by decide), rfl, fun e => absurd e (by decide),
    ident_of (by decide) (by decide), plain_of (by decide), ⟨fun _ _ e => (by cases e), fun _ _ _ e => (by cases e)⟩, ident_of (by decide) (by decide),
    plain_of (by decide), apart_sep _ _, rfl, fun e => absurd e (by decide), rfl, fun e => absurd e (by decide), ident_of (by decide) (by decide),
    plain_of (by decide), apart_sep _ _, rfl, fun e => absurd e (by decide), trivial⟩

theorem sample_calm : Calm sample := by
  have hn : ∀ {w : Str}, w.head? ≠ some 's' ∧ w.head? ≠ some 'v' → w = "std".toList → False := fun h e => by rw [e] at h; exact h.1 rfl
  exact ⟨calmWord_of (by decide), fun e => (hn (by decide) e).elim, by decide, by decide, by decide, by decide, calmWord_of (by decide),
    fun e => (hn (by decide) e).elim, calmWord_of (by decide), fun e => (hn (by decide) e).elim, by decide, by decide, calmWord_of (by decide),
    fun e => (hn (by decide) e).elim, by decide, trivial⟩

example : valueOf (fun _ => false) "ImRect(-1.5f, Cfg::MaxX, FLT_MAX)".toList = some "ImRect(-1.5, Cfg.MaxX, sys.float_info.max)".toList :=
  (C80_partial space_none sample_lexed sample_calm).1

/-- C80, for the text of a literal: it is kept. -/
def C80_literal_statement : Prop := ∀ u s, '"' ∉ s → '\\' ∉ s → valueOf u ('"' :: (s ++ ['"'])) = some ('"' :: (s ++ ['"']))

/-- C80: the text of a literal is changed, `"is true"` becomes `"is True"`. -/
theorem C80_literal_fails : ¬ C80_literal_statement := by
  intro h
  have h1 := h (fun _ => false) "is true".toList (by decide) (by decide)
  rw [valueOf_eq] at h1
  revert h1
  decide +kernel

/-- C80, for the suffixes of C++: there is none in the Python value. -/
def C80_suffix_statement : Prop := ∀ u d s, d ≠ [] → Digits d → s ≠ [] → (∀ c ∈ s, c ∈ "uUlLzZ".toList) → valueOf u (d ++ s) = some d

/-- C80: the suffixes of integers are kept, `10u` is not a number of Python. -/
theorem C80_suffix_fails : ¬ C80_suffix_statement := by
  intro h
  have h1 := h (fun _ => false) "10".toList "u".toList (by decide) (by unfold Digits; decide) (by decide) (by decide)
  rw [valueOf_eq] at h1
  revert h1
  decide +kernel

/-- The cases that are left out: `std::nullopt`, `std::string()`, `1'000`, and a name by mistake. -/
example : valueOf (fun _ => false) "f(std::nullopt, std::string(), 1'000'000)".toList = some "f(None, \"\", 1_000_000)".toList ∧
    valueOf (fun _ => false) "std_nullopt".toList = some "None".toList := by
  rw [valueOf_eq, valueOf_eq]
  decide +kernel

/-! ### Comments -/

/-- C81, the full statement: a comment, cut in its pieces in any way, becomes the Python comment. -/
def C81_statement : Prop := ∀ u, ∀ l : List VTok, (∀ w, .word w ∈ l → Ident u w) → commentOf u (vtext l) = some (vtext (pyComment l))

/-- C81 fails: a comment that mentions `kernel_2d` then mentions `kernel_2`. -/
theorem C81_fails : ¬ C81_statement := by
  intro h
  have h1 := h (fun _ => false) [.word "kernel_2d".toList] (by
    intro w hw
    rw [VTok.word.inj (List.mem_singleton.1 hw)]
    exact ident_of (by decide) (by decide))
  rw [commentOf_eq] at h1
  revert h1
  decide +kernel

/-- C81 (partial: names without a digit after `_`, and longest pieces). The standard replacements of comments change the words of the table and
the numbers that end with `f` or `d`; every other word, every number and every other character is kept, in the same order, and the result is not
changed again. -/
theorem C81_partial {u : Char → Bool} {l : List VTok} (hl : Lexed u l) :
    commentOf u (vtext l) = some (vtext (pyComment l)) ∧ commentOf u (vtext (pyComment l)) = some (vtext (pyComment l)) := by
  have hi : InvC u l := ⟨hl⟩
  have h2 : InvC u (pyComment l) := by rw [← stepsC_eq]; exact stepsC_inv hi
  refine ⟨by rw [commentOf_eq, apply_comment hi], ?_⟩
  rw [commentOf_eq, apply_comment h2, pyComment_pyComment]

/-- C81. A comment in which no word of the table and no number with a suffix occurs is kept as it is. -/
theorem C81_kept_partial {u : Char → Bool} {l : List VTok} (hl : Lexed u l) (hw : ∀ w, .word w ∈ l → ∀ q ∈ comWords, q.1 ≠ w)
    (hn : ∀ b s, .num b s ∈ l → s ≠ "f".toList ∧ s ≠ "d".toList) : commentOf u (vtext l) = some (vtext l) := by
  rw [(C81_partial hl).1]
  congr 1
  have : ∀ m : List VTok, (∀ t ∈ m, t ∈ l) → pyComment m = m := by
    intro m
    induction m with
    | nil => intro _; rfl
    | cons t m ih =>
      intro h
      have e : pyComment (t :: m) = t.com ++ pyComment m := List.flatMap_cons
      rw [e, ih (fun x hx => h x (by simp [hx]))]
      have ht := h t (by simp)
      have e2 : t.com = [t] := by
        cases t with
        | word w => exact com_other (fun ⟨q, hq, e⟩ => hw w ht q hq e)
        | num b s =>
          show [VTok.drop "fd".toList (.num b s)] = _
          rcases drop_cases "fd".toList b s with ⟨c, rfl, hc, _⟩ | ⟨_, e⟩
          · obtain ⟨h1, h2⟩ := hn b [c] ht
            have h3 : c = 'f' ∨ c = 'd' := by simpa using hc
            rcases h3 with rfl | rfl
            · exact absurd rfl h1
            · exact absurd rfl h2
          · rw [e]
        | scope => rfl
        | sep c => rfl
      rw [e2]
      rfl
  rw [this l (fun _ h => h)]

example : commentOf (fun _ => false) "ImRect(-1.5f, Cfg::MaxX, FLT_MAX)".toList = some "ImRect(-1.5, Cfg::MaxX, FLT_MAX)".toList :=
  (C81_partial sample_lexed).1

/-- A comment without change: `Cfg::MaxX`. -/
example : commentOf (fun _ => false) "Cfg::MaxX".toList = some "Cfg::MaxX".toList :=
  C81_kept_partial (l := [.word "Cfg".toList, .scope, .word "MaxX".toList])
    ⟨ident_of (by decide) (by decide), plain_of (by decide), ⟨fun _ _ e => (by cases e), fun _ _ _ e => (by cases e)⟩,
      ident_of (by decide) (by decide), plain_of (by decide), ⟨fun _ _ e => (by cases e), fun _ _ _ e => (by cases e)⟩, trivial⟩
    (by
      intro w h
      have : w = "Cfg".toList ∨ w = "MaxX".toList := by simpa using h
      rcases this with rfl | rfl <;> decide +kernel)
    (by intro b s h; simp at h)

end Verif.Re.Props
