import Verif.Re.Words

/-! The expression of a word, read. -/

namespace Verif.Re
open Verif.Py Spec
open Verif.Scope (isWordChar)

/-- The word as it is written in an expression: letters, digits and `_` need no escape. -/
theorem parse_lits (w : Str) : ∀ (n g : Nat) (s : Str) (q : Re) (g' : Nat) (s' : Str), (∀ c ∈ w, c.toNat < 128 ∧ isWordChar (fun _ => false) c = true) →
    (∀ c, s.head? = some c → c ∉ "*+?".toList) → s ≠ [] → parseSeq (n + 1) g s = some (q, g', s') →
    parseSeq (n + 1 + w.length) g (w ++ s) = some (lits w q, g', s') := by
  induction w with
  | nil => intro n g s q g' s' _ _ _ h; exact h
  | cons c w ih =>
    intro n g s q g' s' hw hs hne h
    have hc := hw c (by simp)
    have hx : ∀ d ∈ "()|\\[.$*+?^{}".toList, c ≠ d := by
      rintro d hd rfl
      have : ∀ d ∈ "()|\\[.$*+?^{}".toList, isWordChar (fun _ => false) d = false := by decide
      rw [this c hd] at hc
      cases hc.2
    have ih' := ih n g s q g' s' (fun x hx => hw x (by simp [hx])) hs hne h
    have e : n + 1 + (c :: w).length = (n + 1 + w.length) + 1 := by rw [List.length_cons]; omega
    rw [e, List.cons_append]
    have hq : ∀ x, (w ++ s).head? = some x → x ∉ "*+?".toList := by
      intro x hx'
      cases w with
      | nil => exact hs x hx'
      | cons d w =>
        have hd := hw d (by simp)
        have : x = d := (Option.some.inj hx').symm
        subst this
        intro hm
        have : ∀ d ∈ "*+?".toList, isWordChar (fun _ => false) d = false := by decide
        rw [this x hm] at hd
        cases hd.2
    have ha : parseAtom (n + 1 + w.length) g (c :: (w ++ s)) = some (.chr c, g, w ++ s) := by
      rw [Nat.add_right_comm n 1 w.length, parseAtom.eq_11]
      · rw [if_neg]
        intro hm
        exact hx c (by
          have : ∀ d ∈ "*+?^{}\\".toList, d ∈ "()|\\[.$*+?^{}".toList := by decide
          exact this c hm) rfl
      all_goals
        intros
        first
          | (next e1 _ => exact absurd e1 (hx _ (by decide)))
          | (next e1 => exact absurd e1 (hx _ (by decide)))
    have hquant : parseQuant (.chr c) (w ++ s) = some (.chr c, w ++ s) := by
      unfold parseQuant
      split
      · next h1 => exact absurd (by decide) (hq '*' (by rw [h1]; rfl))
      · next h1 => exact absurd (by decide) (hq '+' (by rw [h1]; rfl))
      · next h1 => exact absurd (by decide) (hq '?' (by rw [h1]; rfl))
      · rfl
    rw [parseSeq.eq_5]
    · rw [ha, Option.bind_some, hquant, Option.bind_some]
      dsimp only
      rw [ih', Option.map_some, lits_cons]
    all_goals
      intros
      first
        | (next e1 _ => exact absurd e1 (hx _ (by decide)))
        | (next e1 => exact absurd e1 (hx _ (by decide)))
        | (next e1 => exact absurd (List.cons.inj e1).1 (hx _ (by decide)))
        | (next e1 => cases e1)

theorem compile_word {w : Str} (hw : ∀ c ∈ w, c.toNat < 128 ∧ isWordChar (fun _ => false) c = true) :
    compile ("\\b".toList ++ w ++ "\\b".toList) = some (wordRe w, 0) := by
  have h1 : parseSeq (2 * w.length + 12 + 1) 0 "\\b".toList = some (.seq .wordB .eps, 0, []) := rfl
  have h2 := parse_lits w _ 0 _ _ _ _ hw (by intro c hc; cases hc; decide) (by decide) h1
  have h3 : parseQuant .wordB (w ++ "\\b".toList) = some (.wordB, w ++ "\\b".toList) := by
    have hq : ∀ x, (w ++ "\\b".toList).head? = some x → x ∉ "*+?".toList := by
      intro x hx
      cases w with
      | nil => cases hx; decide
      | cons d w =>
        have hd := hw d (by simp)
        have : x = d := (Option.some.inj hx).symm
        subst this
        intro hm
        have : ∀ d ∈ "*+?".toList, isWordChar (fun _ => false) d = false := by decide
        rw [this x hm] at hd
        cases hd.2
    unfold parseQuant
    split
    · next h1 => exact absurd (by decide) (hq '*' (by rw [h1]; rfl))
    · next h1 => exact absurd (by decide) (hq '+' (by rw [h1]; rfl))
    · next h1 => exact absurd (by decide) (hq '?' (by rw [h1]; rfl))
    · rfl
  have e1 : "\\b".toList ++ w ++ "\\b".toList = '\\' :: 'b' :: (w ++ "\\b".toList) := rfl
  have e2 : 3 * ("\\b".toList ++ w ++ "\\b".toList).length + 3 = (2 * w.length + 12 + 1 + w.length) + 1 + 1 := by
    rw [List.length_append, List.length_append]
    show 3 * (2 + w.length + 2) + 3 = _
    omega
  have h4 : parseSeq (2 * w.length + 12 + 1 + w.length + 1) 0 ('\\' :: 'b' :: (w ++ "\\b".toList)) = some (wordRe w, 0, []) := by
    rw [parseSeq.eq_5]
    · have h5 : parseAtom (2 * w.length + 12 + 1 + w.length) 0 ('\\' :: 'b' :: (w ++ "\\b".toList)) = some (.wordB, 0, w ++ "\\b".toList) := by
        rw [Nat.add_right_comm]
        rfl
      rw [h5, Option.bind_some]
      dsimp only
      rw [h3, Option.bind_some]
      dsimp only
      rw [h2]
      rfl
    all_goals
      intros
      first
        | (next e1 => exact absurd (List.cons.inj e1).1 (by decide))
        | (next e1 => cases e1)
  rw [compile, e2, e1, parseAlt, h4]
  rfl

theorem parseTmpl_lit (n : Nat) (v : Str) (hv : '\\' ∉ v) : parseTmpl n v = some (litTmpl v) := by
  induction v with
  | nil => rfl
  | cons c v ih =>
    have hc : c ≠ '\\' := fun e => hv (by simp [e])
    rw [parseTmpl.eq_3]
    · rw [if_neg hc, ih (fun h => hv (by simp [h]))]
      rfl
    · intros
      next e1 _ => exact hc e1

theorem rule_word {w v : Str} (hw : ∀ c ∈ w, c.toNat < 128 ∧ isWordChar (fun _ => false) c = true) (hv : '\\' ∉ v) :
    rule ("\\b".toList ++ w ++ "\\b".toList) v = some (wordRe w, litTmpl v) := by
  rw [rule, compile_word hw, Option.bind_some, parseTmpl_lit _ _ hv, Option.map_some]

end Verif.Re
