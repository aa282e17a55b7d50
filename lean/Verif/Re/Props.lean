import Verif.Re.Std
import Verif.Re.Compile

/-! C79: the regular expressions of the replacements. -/

namespace Verif.Re.Props
open Verif.Py Verif.Re Spec Verif.Inst Verif.Inst.Spec
open Verif.Scope (isWordChar)

/-- C79. The standard replacements of types, values and comments are all read: none of them makes `re.compile` or `re.sub` fail. -/
theorem C79_rules : ∀ text ∈ [typeText, valueText, commentText], ∃ rs, rules text = some rs ∧ rs ≠ [] := by
  intro text h
  rcases List.mem_cons.1 h with rfl | h
  · exact ⟨_, rules_type, List.cons_ne_nil _ _⟩
  rcases List.mem_cons.1 h with rfl | h
  · exact ⟨_, rules_value, List.cons_ne_nil _ _⟩
  rcases List.mem_cons.1 h with rfl | h
  · exact ⟨_, rules_comment, List.cons_ne_nil _ _⟩
  · cases h

/-- C79. The places where the backtracking may end are exactly the ends of the matches. -/
theorem C79_engine (u : Char → Bool) (r : Re) (a m b : Str) :
    (∃ k, (⟨(a ++ m).getLast?, b, k⟩ : St) ∈ run u r ⟨a.getLast?, m ++ b, []⟩) ↔ Fits u r a m b := by
  constructor
  · rintro ⟨k, h⟩
    obtain ⟨m', e1, _, e3⟩ := run_sound u r a (m ++ b) [] _ h
    rw [← List.append_cancel_right e1] at e3
    exact ⟨_, e3⟩
  · rintro ⟨k, h⟩
    exact run_complete h []

/-- C79. A match is found at a place exactly if there is one. -/
theorem C79_found (u : Char → Bool) (r : Re) (a s : Str) :
    (matchAt u r a.getLast? s).isSome = true ↔ ∃ m b, s = m ++ b ∧ Fits u r a m b := by
  cases h : matchAt u r a.getLast? s with
  | none =>
    rw [matchAt_none_iff] at h
    simp only [Option.isSome_none, Bool.false_eq_true, false_iff]
    rintro ⟨m, b, e, hf⟩
    exact h m b e hf
  | some t =>
    obtain ⟨m, e1, _, e3⟩ := matchAt_some h
    simp only [Option.isSome_some, true_iff]
    exact ⟨m, _, e1, _, e3⟩

/-- C79. The replacement, for an expression that matches no empty text: a character is kept if no match begins at it, and the other ones are
in the matches, which are replaced; nothing is skipped and nothing is replaced twice. -/
theorem C79_sub (u : Char → Bool) (r : Re) (tmpl : List Tok) (hr : ∀ a b, ¬ Fits u r a [] b) (s : Str) :
    Replaced u r tmpl [] s (sub u r tmpl s) := scan_replaced tmpl hr s.length [] s rfl

/-- The hypothesis is met by `\btrue\b`. -/
example : ∀ a b, ¬ Fits (fun _ => false) (wordRe "true".toList) a [] b := neverEmpty_lits (by decide) _

/-- C79. The rule that `\bname\b` and a text make, for any identifier of ASCII characters and any text without `\`: it is read, and it replaces
the name wherever it is a whole word, and nowhere else. -/
theorem C79_word (u : Char → Bool) {w v : Str} (hw : Ident u w) (ha : ∀ c ∈ w, c.toNat < 128 ∧ isWordChar (fun _ => false) c = true)
    (hv : '\\' ∉ v) (s : Str) :
    (rule ("\\b".toList ++ w ++ "\\b".toList) v).isSome = true ∧
    engine u ("\\b".toList ++ w ++ "\\b".toList) v s = (text ((cut u s).map fun
      | .word x => if x = w then .word v else .word x
      | .sep c => .sep c)) := by
  rw [engine, rule_word ha hv]
  refine ⟨rfl, ?_⟩
  dsimp only
  rw [sub_renames (renames_wordRe hw v), ren]
  refine congrArg text (List.map_congr_left fun p _ => ?_)
  cases p with
  | sep c => rfl
  | word x =>
    show Piece.word (put w v x) = _
    rw [put]
    dsimp only
    split <;> rfl

/-- C79. It is what the substitution of the template arguments (C53) does. -/
theorem C79_subn (u : Char → Bool) {w v : Str} (hw : Ident u w) (ha : ∀ c ∈ w, c.toNat < 128 ∧ isWordChar (fun _ => false) c = true)
    (hv : '\\' ∉ v) (s : Str) : engine u ("\\b".toList ++ w ++ "\\b".toList) v s = (subn u w v s).1 := by
  rw [engine, rule_word ha hv, subn_ren hw]
  exact sub_renames (renames_wordRe hw v) s

example : engine (fun _ => false) "\\bT\\b".toList "int".toList "T f(std::vector<T> x, T_ y, aT z)".toList =
    "int f(std::vector<int> x, T_ y, aT z)".toList := by decide +kernel

end Verif.Re.Props
