import Verif.Re.ValueFinal

/-! The standard replacements of comments, on the pieces of a comment. -/

namespace Verif.Re
open Verif.Py Spec Verif.Inst Verif.Inst.Spec

theorem commentRules_eq : commentRules =
    [(wordRe "true".toList, litTmpl (vtext [.word "True".toList])), (wordRe "false".toList, litTmpl (vtext [.word "False".toList])),
     (wordRe "void".toList, litTmpl (vtext [.word "None".toList])), (wordRe "NULL".toList, litTmpl (vtext [.word "None".toList])),
     (wordRe "nullptr".toList, litTmpl (vtext [.word "None".toList])), (reSuffix ("fd".toList.map .one), [.ref 1])] := by
  decide +kernel

/-- All the changes of the pieces, one after the other. -/
def stepsC (l : List VTok) : List VTok := (stepsW comWords l).map (VTok.drop "fd".toList)

/-- The pieces are cut. -/
structure InvC (u : Char → Bool) (l : List VTok) : Prop where
  lexed : Lexed u l

theorem InvC.put {u : Char → Bool} {h : Str} {tw : List VTok} (ht : Takes u tw) {l : List VTok} (hl : InvC u l) : InvC u (l.flatMap (putTok h tw)) :=
  ⟨lexed_putTok ht hl.lexed⟩

theorem suffixes_fd' : Suffixes "fd".toList := ⟨by decide⟩

theorem passC_last {u : Char → Bool} {l : List VTok} (hl : InvC u l) :
    passR u [(reSuffix ("fd".toList.map .one), [.ref 1])] (vtext l) = vtext (l.map (VTok.drop "fd".toList)) := by
  rw [passR_cons, sub_numbers suffixes_fd' hl.lexed, passR_nil]

theorem passC_steps {u : Char → Bool} {l : List VTok} (h0 : InvC u l) : passR u commentRules (vtext l) = vtext (stepsC l) := by
  have h1 := h0.put (h := "true".toList) (takesTrue u)
  have h2 := h1.put (h := "false".toList) (takesFalse u)
  have h3 := h2.put (h := "void".toList) (takesNone u)
  have h4 := h3.put (h := "NULL".toList) (takesNone u)
  have h5 := h4.put (h := "nullptr".toList) (takesNone u)
  rw [commentRules_eq]
  refine (pass_word (ident_of (by decide) (by decide)) (hw 't' (by decide) (by decide) (by decide) (by decide)) h0.lexed).trans ?_
  refine (pass_word (ident_of (by decide) (by decide)) (hw 'a' (by decide) (by decide) (by decide) (by decide)) h1.lexed).trans ?_
  refine (pass_word (ident_of (by decide) (by decide)) (hw 'v' (by decide) (by decide) (by decide) (by decide)) h2.lexed).trans ?_
  refine (pass_word (ident_of (by decide) (by decide)) (hw 'N' (by decide) (by decide) (by decide) (by decide)) h3.lexed).trans ?_
  refine (pass_word (ident_of (by decide) (by decide)) (hw 'n' (by decide) (by decide) (by decide) (by decide)) h4.lexed).trans ?_
  refine (passC_last h5).trans ?_
  rw [stepsC, stepsW, comWords]
  rw [List.foldl_cons, List.foldl_cons, List.foldl_cons, List.foldl_cons, List.foldl_cons, List.foldl_nil]

theorem comWords_takes (u : Char → Bool) : ∀ q ∈ comWords, Takes u q.2 := by
  intro q hq
  have hv : ∀ q ∈ comWords, q.2 = [.word "True".toList] ∨ q.2 = [.word "False".toList] ∨ q.2 = [.word "None".toList] := by decide +kernel
  rcases hv q hq with h | h | h <;> rw [h]
  · exact takesTrue u
  · exact takesFalse u
  · exact takesNone u

theorem stepsW_invC {u : Char → Bool} : ∀ {tbl : List (Str × List VTok)}, (∀ q ∈ tbl, Takes u q.2) → ∀ {l : List VTok}, InvC u l → InvC u (stepsW tbl l)
  | [], _, _, hl => hl
  | q :: tbl, h, _, hl => stepsW_invC (tbl := tbl) (fun p hp => h p (by simp [hp])) (hl.put (h q (by simp)))

theorem stepsC_inv {u : Char → Bool} {l : List VTok} (hl : InvC u l) : InvC u (stepsC l) :=
  ⟨lexed_drop _ (stepsW_invC (comWords_takes u) hl).lexed⟩

theorem stepsC_append (l m : List VTok) : stepsC (l ++ m) = stepsC l ++ stepsC m := by
  rw [stepsC, stepsW_append, List.map_append]
  rfl

theorem stepsC_closed : ∀ q ∈ comWords, stepsC [.word q.1] = VTok.com (.word q.1) := by decide +kernel

theorem com_other {w : Str} (h : ¬ ∃ q ∈ comWords, q.1 = w) : VTok.com (.word w) = [.word w] := by
  have hf : comWords.find? (fun q => decide (q.1 = w)) = none := by
    rw [List.find?_eq_none]
    intro q hq e
    exact h ⟨q, hq, of_decide_eq_true e⟩
  rw [VTok.com, hf]
  rfl

theorem stepsC_one (t : VTok) : stepsC [t] = t.com := by
  cases t with
  | word w =>
    by_cases h : ∃ q ∈ comWords, q.1 = w
    · obtain ⟨q, hq, rfl⟩ := h
      exact stepsC_closed q hq
    · rw [com_other h, stepsC, stepsW_other]
      · rfl
      · intro q hq e
        exact h ⟨q, hq, (VTok.word.inj e).symm⟩
  | _ =>
    rw [stepsC, stepsW_other comWords (fun q _ e => by cases e)]
    rfl

theorem stepsC_eq (l : List VTok) : stepsC l = pyComment l := by
  induction l with
  | nil => rfl
  | cons t l ih =>
    have e : pyComment (t :: l) = t.com ++ pyComment l := List.flatMap_cons
    rw [← List.singleton_append, stepsC_append, ih, stepsC_one, List.singleton_append, e]

theorem com_closed : ∀ q ∈ comWords, pyComment (VTok.com (.word q.1)) = VTok.com (.word q.1) := by decide +kernel

theorem com_one (t : VTok) : pyComment t.com = t.com := by
  cases t with
  | word w =>
    by_cases h : ∃ q ∈ comWords, q.1 = w
    · obtain ⟨q, hq, rfl⟩ := h
      exact com_closed q hq
    · rw [com_other h]
      show VTok.com (.word w) ++ [] = _
      rw [com_other h]
      rfl
  | num b s =>
    show pyComment [VTok.drop "fd".toList (.num b s)] = [VTok.drop "fd".toList (.num b s)]
    rcases drop_cases "fd".toList b s with ⟨c, rfl, _, e⟩ | ⟨_, e⟩
    · rw [e]; rfl
    · rw [e]
      show [VTok.drop "fd".toList (.num b s)] = _
      rw [e]
  | scope => rfl
  | sep c => rfl

/-- A comment of Python is not changed. -/
theorem pyComment_pyComment (l : List VTok) : pyComment (pyComment l) = pyComment l := by
  induction l with
  | nil => rfl
  | cons t l ih =>
    have e : pyComment (t :: l) = t.com ++ pyComment l := List.flatMap_cons
    have e2 : pyComment (t.com ++ pyComment l) = pyComment t.com ++ pyComment (pyComment l) := List.flatMap_append
    rw [e, e2, com_one, ih]

/-- The standard replacements of comments, applied. -/
theorem apply_comment {u : Char → Bool} {l : List VTok} (hl : InvC u l) :
    Repl.apply (engine u) commentList (vtext l) = vtext (pyComment l) := by
  have h1 : Repl.pass (engine u) commentList (vtext l) = vtext (pyComment l) := by
    rw [pass_rules u commentList read_comment, passC_steps hl, stepsC_eq]
  rw [apply_once, h1]
  rw [h1, pass_rules u commentList read_comment, passC_steps (by rw [← stepsC_eq]; exact stepsC_inv hl), stepsC_eq, pyComment_pyComment]

end Verif.Re
