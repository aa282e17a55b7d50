import Verif.Find.Lemmas

/-! Expressions made of plain characters, read. -/

namespace Verif.Find
open Verif.Py Verif.Re Verif.Re.Spec Verif.Find.Spec
open Verif.Scope (isWordChar)

/-- The characters that have a meaning in an expression. -/
def special : Str := "()|\\[.$*+?^{}".toList

theorem parse_plain (w : Str) : ∀ (n g : Nat) (s : Str) (q : Re) (g' : Nat) (s' : Str), (∀ c ∈ w, c ∉ special) →
    (∀ c, s.head? = some c → c ∉ "*+?".toList) → s ≠ [] → parseSeq (n + 1) g s = some (q, g', s') →
    parseSeq (n + 1 + w.length) g (w ++ s) = some (lits w q, g', s') := by
  induction w with
  | nil => intro n g s q g' s' _ _ _ h; exact h
  | cons c w ih =>
    intro n g s q g' s' hw hs hne h
    have hc := hw c (by simp)
    have hx : ∀ d ∈ "()|\\[.$*+?^{}".toList, c ≠ d := by
      rintro d hd rfl
      exact hc hd
    have ih' := ih n g s q g' s' (fun x hx => hw x (by simp [hx])) hs hne h
    have e : n + 1 + (c :: w).length = (n + 1 + w.length) + 1 := by rw [List.length_cons]; omega
    rw [e, List.cons_append]
    have hq : ∀ x, (w ++ s).head? = some x → x ∉ "*+?".toList := by
      intro x hx'
      cases w with
      | nil => exact hs x hx'
      | cons d w =>
        have hd := hw d (by simp)
        have : x = d := (Option.some.inj hx').symm
        subst this
        intro hm
        have : ∀ d ∈ "*+?".toList, d ∈ special := by decide
        exact hd (this x hm)
    have ha : parseAtom (n + 1 + w.length) g (c :: (w ++ s)) = some (.chr c, g, w ++ s) := by
      rw [Nat.add_right_comm n 1 w.length, parseAtom.eq_11]
      · rw [if_neg]
        intro hm
        exact hx c (by
          have : ∀ d ∈ "*+?^{}\\".toList, d ∈ "()|\\[.$*+?^{}".toList := by decide
          exact this c hm) rfl
      all_goals
        intros
        first
          | (next e1 _ => exact absurd e1 (hx _ (by decide)))
          | (next e1 => exact absurd e1 (hx _ (by decide)))
    have hquant : parseQuant (.chr c) (w ++ s) = some (.chr c, w ++ s) := by
      unfold parseQuant
      split
      · next h1 => exact absurd (by decide) (hq '*' (by rw [h1]; rfl))
      · next h1 => exact absurd (by decide) (hq '+' (by rw [h1]; rfl))
      · next h1 => exact absurd (by decide) (hq '?' (by rw [h1]; rfl))
      · rfl
    rw [parseSeq.eq_5]
    · rw [ha, Option.bind_some, hquant, Option.bind_some]
      dsimp only
      rw [ih', Option.map_some, lits_cons]
    all_goals
      intros
      first
        | (next e1 _ => exact absurd e1 (hx _ (by decide)))
        | (next e1 => exact absurd e1 (hx _ (by decide)))
        | (next e1 => exact absurd (List.cons.inj e1).1 (hx _ (by decide)))
        | (next e1 => cases e1)

/-- `\b`, a text, and a star. -/
def starRe (w : Str) : Re := .seq .wordB (lits w (.seq (.chr '*') .eps))

theorem compile_star {w : Str} (hw : ∀ c ∈ w, c ∉ special) : compile ("\\b".toList ++ w ++ "\\*".toList) = some (starRe w, 0) := by
  have h1 : parseSeq (2 * w.length + 12 + 1) 0 "\\*".toList = some (.seq (.chr '*') .eps, 0, []) := rfl
  have h2 := parse_plain w _ 0 _ _ _ _ hw (by intro c hc; cases hc; decide) (by decide) h1
  have h3 : parseQuant .wordB (w ++ "\\*".toList) = some (.wordB, w ++ "\\*".toList) := by
    have hq : ∀ x, (w ++ "\\*".toList).head? = some x → x ∉ "*+?".toList := by
      intro x hx
      cases w with
      | nil => cases hx; decide
      | cons d w =>
        have hd := hw d (by simp)
        have : x = d := (Option.some.inj hx).symm
        subst this
        intro hm
        have : ∀ d ∈ "*+?".toList, d ∈ special := by decide
        exact hd (this x hm)
    unfold parseQuant
    split
    · next h1 => exact absurd (by decide) (hq '*' (by rw [h1]; rfl))
    · next h1 => exact absurd (by decide) (hq '+' (by rw [h1]; rfl))
    · next h1 => exact absurd (by decide) (hq '?' (by rw [h1]; rfl))
    · rfl
  have e1 : "\\b".toList ++ w ++ "\\*".toList = '\\' :: 'b' :: (w ++ "\\*".toList) := rfl
  have e2 : 3 * ("\\b".toList ++ w ++ "\\*".toList).length + 3 = (2 * w.length + 12 + 1 + w.length) + 1 + 1 := by
    rw [List.length_append, List.length_append]
    show 3 * (2 + w.length + 2) + 3 = _
    omega
  have h4 : parseSeq (2 * w.length + 12 + 1 + w.length + 1) 0 ('\\' :: 'b' :: (w ++ "\\*".toList)) = some (starRe w, 0, []) := by
    rw [parseSeq.eq_5]
    · have h5 : parseAtom (2 * w.length + 12 + 1 + w.length) 0 ('\\' :: 'b' :: (w ++ "\\*".toList)) = some (.wordB, 0, w ++ "\\*".toList) := by
        rw [Nat.add_right_comm]
        rfl
      rw [h5, Option.bind_some]
      dsimp only
      rw [h3, Option.bind_some]
      dsimp only
      rw [h2]
      rfl
    all_goals
      intros
      first
        | (next e1 => exact absurd (List.cons.inj e1).1 (by decide))
        | (next e1 => cases e1)
  rw [compile, e2, e1, parseAlt, h4]
  rfl

theorem multiline_plain (s : Str) : ∀ (w : Str), (∀ c ∈ w, c ∉ special) → multiline false (w ++ s) = w ++ multiline false s
  | [], _ => rfl
  | c :: w, h => by
    have hc := h c (by simp)
    have hx : ∀ d ∈ special, c ≠ d := by
      rintro d hd rfl
      exact hc hd
    rw [List.cons_append, multiline.eq_8]
    · rw [multiline_plain s w (fun d hd => h d (by simp [hd]))]
      rfl
    all_goals
      intros
      first
        | (next e1 _ => exact absurd e1 (hx _ (by decide)))
        | (next e1 => exact absurd e1 (hx _ (by decide)))

theorem replace_star {w : Str} (hw : '*' ∉ w) : replace (w ++ ['*']) ['*'] "\\*".toList = w ++ "\\*".toList := by
  rw [replace_char, List.flatMap_append]
  congr 1
  induction w with
  | nil => rfl
  | cons c w ih =>
    rw [List.flatMap_cons, if_neg (fun e => hw (by rw [e]; simp)), ih (fun hm => hw (by simp [hm]))]
    rfl

/-- `contains_word_boundary_left_only` for a plain text and a star. -/
theorem containsWordLeft_eq (u : Char → Bool) (text : Str) {w : Str} (hw : ∀ c ∈ w, c ∉ special) :
    containsWordLeft u text (w ++ ['*']) = some (search u (starRe w) none text) := by
  have h1 : '*' ∉ w := fun h => hw '*' h (by decide)
  have h2 : multiline false ("\\b".toList ++ (w ++ "\\*".toList)) = "\\b".toList ++ w ++ "\\*".toList := by
    show '\\' :: 'b' :: multiline false (w ++ "\\*".toList) = _
    rw [multiline_plain _ w hw]
    rfl
  have h3 : compileRegex ("\\b".toList ++ (w ++ "\\*".toList)) = some (starRe w) := by
    have e : startsWith ("\\b".toList ++ (w ++ "\\*".toList)) ['|'] = false := rfl
    unfold compileRegex
    rw [e, if_neg (by decide), h2, compile_star hw]
    rfl
  unfold containsWordLeft doesMatch
  rw [replace_star h1, if_neg, h3, Option.map_some]
  exact fun h => absurd (List.append_eq_nil_iff.1 (List.length_eq_zero_iff.1 h)).1 (by decide)

theorem search_star (u : Char → Bool) (text w : Str) (hw : ∃ c w', w = c :: w' ∧ isWordChar u c = true) :
    search u (starRe w) none text = true ↔ ∃ a b, text = a ++ w ++ '*' :: b ∧ ∀ c, a.getLast? = some c → isWordChar u c = false := by
  have := search_iff u (starRe w) text []
  rw [show ([] : Str).getLast? = none from rfl] at this
  rw [this]
  obtain ⟨c0, w', rfl, hc0⟩ := hw
  have hend : ∀ a : Str, (∀ c, a.getLast? = some c → isWordChar u c = false) ↔ ¬ EndsInWord u a := by
    intro a
    constructor
    · rintro h ⟨c, h1, h2⟩
      rw [h c h1] at h2
      cases h2
    · intro h c hc
      exact Bool.eq_false_iff.2 (fun h2 => h ⟨c, hc, h2⟩)
  constructor
  · rintro ⟨x, m, b, e, k, h⟩
    obtain ⟨m1, m2, k1, rfl, h1, h2⟩ := matches_seq h
    obtain ⟨rfl, rfl, h3⟩ := matches_wordB h1
    obtain ⟨m', rfl, h4⟩ := matches_lits _ h2
    obtain ⟨m5, m6, k5, rfl, h5, h6⟩ := matches_seq h4
    obtain ⟨rfl, rfl⟩ := matches_chr h5
    obtain ⟨rfl, rfl⟩ := matches_eps h6
    refine ⟨x, b, by simpa using e, (hend x).2 (fun hx => h3 ⟨fun _ => ⟨c0, rfl, hc0⟩, fun _ => hx⟩)⟩
  · rintro ⟨a, b, rfl, h⟩
    refine ⟨a, c0 :: w' ++ ['*'], b, by simp, [], ?_⟩
    refine .seq _ _ _ [] _ _ _ [] _ (.wordB _ _ _ ?_) ?_
    · intro h2
      exact (hend a).1 h (h2.2 ⟨c0, rfl, hc0⟩)
    · have := (fits_lits (u := u) (w := c0 :: w') (r := .seq (.chr '*') .eps) (a := a) (m := c0 :: w' ++ ['*']) (b := b)).2
        ⟨['*'], rfl, [], .seq _ _ _ ['*'] [] _ _ [] _ (.chr _ _ _ _) (.eps _ _ _)⟩
      obtain ⟨k, hk⟩ := this
      have hk0 : k = [] := by
        obtain ⟨m', _, h4⟩ := matches_lits _ hk
        obtain ⟨m5, m6, k5, rfl, h5, h6⟩ := matches_seq h4
        obtain ⟨rfl, rfl⟩ := matches_chr h5
        exact (matches_eps h6).2
      subst hk0
      simpa using hk

end Verif.Find
