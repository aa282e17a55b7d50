import Verif.Find.Alternatives

/-! C97: the options that are lists of expressions with `|` between them. -/

namespace Verif.Find.Props
open Verif.Py Verif.Re Verif.Re.Spec Verif.Find Verif.Find.Spec

/-- The full statement: a text matches expressions that are joined when it matches one of them. -/
def C97_statement : Prop :=
  ∀ (u : Char → Bool) (l : List Str) (word : Str), (∀ r ∈ l, doesMatch u r word ≠ none) →
    (doesMatch u (joinPipe l) word = some true ↔ ∃ r ∈ l, doesMatch u r word = some true)

/-- An expression that can be joined: not empty, its first character is not `|`, and every `[` has its `]`. -/
def Whole (r : Str) : Prop := r ≠ [] ∧ startsWith r ['|'] = false ∧ closed false r = true

instance (r : Str) : Decidable (Whole r) := inferInstanceAs (Decidable (_ ∧ _))

theorem doesMatch_whole {u : Char → Bool} {r word : Str} (h : r ≠ []) (h2 : startsWith r ['|'] = false) {x : Bool} :
    doesMatch u r word = some x ↔ ∃ y k, compile (multiline false r) = some (y, k) ∧ search u y none word = x := by
  unfold doesMatch compileRegex
  rw [if_neg (fun e => h (List.length_eq_zero_iff.1 e)), h2, if_neg (by decide), Option.map_map, Option.map_eq_some_iff]
  constructor
  · rintro ⟨⟨y, k⟩, h3, h4⟩
    exact ⟨y, k, h3, h4⟩
  · rintro ⟨y, k, h3, h4⟩
    exact ⟨(y, k), h3, h4⟩

theorem search_or {u : Char → Bool} {x y z : Re} (h : ∀ a w b, Fits u y a w b ↔ Fits u x a w b ∨ Fits u z a w b) (s : Str) :
    search u y none s = (search u x none s || search u z none s) := by
  rw [Bool.eq_iff_iff, Bool.or_eq_true]
  have e := fun r => search_iff u r s []
  rw [show ([] : Str).getLast? = none from rfl] at e
  rw [e, e, e]
  constructor
  · rintro ⟨p, m, b, h1, h2⟩
    rcases (h _ _ _).1 h2 with h3 | h3
    · exact .inl ⟨p, m, b, h1, h3⟩
    · exact .inr ⟨p, m, b, h1, h3⟩
  · rintro (⟨p, m, b, h1, h3⟩ | ⟨p, m, b, h1, h3⟩)
    · exact ⟨p, m, b, h1, (h _ _ _).2 (.inl h3)⟩
    · exact ⟨p, m, b, h1, (h _ _ _).2 (.inr h3)⟩

/-- Two expressions with `|` between them: what one or the other finds. -/
theorem C97_two (u : Char → Bool) (p q word : Str) (x y : Bool) (hp : Whole p) (hq : q ≠ []) (hq2 : startsWith q ['|'] = false)
    (h1 : doesMatch u p word = some x) (h2 : doesMatch u q word = some y) : doesMatch u (p ++ '|' :: q) word = some (x || y) := by
  obtain ⟨hp1, hp2, hp3⟩ := hp
  obtain ⟨r1, k1, e1, rfl⟩ := (doesMatch_whole hp1 hp2).1 h1
  obtain ⟨r2, k2, e2, rfl⟩ := (doesMatch_whole hq hq2).1 h2
  obtain ⟨r3, k3, e3, e4⟩ := compile_two u e1 e2
  refine (doesMatch_whole (by simp) ?_).2 ⟨r3, k3, ?_, search_or e4 word⟩
  · cases p with
    | nil => exact absurd rfl hp1
    | cons c p => exact hp2
  · rw [multiline_two q false p hp3, e3]

theorem join_whole {l : List Str} {r : Str} (h : ∀ x ∈ r :: l, Whole x) :
    joinPipe (r :: l) ≠ [] ∧ startsWith (joinPipe (r :: l)) ['|'] = false := by
  obtain ⟨h1, h2, _⟩ := h r (by simp)
  cases r with
  | nil => exact absurd rfl h1
  | cons c r =>
    cases l with
    | nil => exact ⟨h1, h2⟩
    | cons s l =>
      have e : joinPipe ((c :: r) :: s :: l) = c :: (r ++ ['|'] ++ joinPipe (s :: l)) := join_cons_cons _ _ _ _
      rw [e]
      exact ⟨by simp, h2⟩

/-- Proved part: for expressions that can be joined. What is joined can always be read. -/
theorem C97_partial (u : Char → Bool) (word : Str) : ∀ l : List Str, (∀ r ∈ l, Whole r ∧ doesMatch u r word ≠ none) →
    doesMatch u (joinPipe l) word = some (l.any (fun r => doesMatch u r word == some true))
  | [], _ => rfl
  | [r], h => by
    have h1 := (h r (by simp)).2
    show doesMatch u r word = _
    rw [List.any_cons, List.any_nil, Bool.or_false]
    cases hx : doesMatch u r word with
    | none => exact absurd hx h1
    | some x => cases x <;> rfl
  | r :: s :: l, h => by
    have ih := C97_partial u word (s :: l) (fun x hx => h x (by simp [hx]))
    obtain ⟨h1, h2⟩ := h r (by simp)
    have hj := join_whole (l := l) (r := s) (fun x hx => (h x (by simp [hx])).1)
    cases hx : doesMatch u r word with
    | none => exact absurd hx h2
    | some x =>
      have e : joinPipe (r :: s :: l) = r ++ '|' :: joinPipe (s :: l) := by
        show join ['|'] (r :: s :: l) = _
        rw [join_cons_cons, List.append_assoc]
        rfl
      rw [e, C97_two u r _ word x _ h1 hj.1 hj.2 hx ih]
      show _ = some ((doesMatch u r word == some true) || (s :: l).any (fun r => doesMatch u r word == some true))
      rw [hx]
      cases x <;> rfl

/-- For such expressions the statement holds as it is written. -/
theorem C97_iff_partial (u : Char → Bool) (word : Str) (l : List Str) (h : ∀ r ∈ l, Whole r ∧ doesMatch u r word ≠ none) :
    doesMatch u (joinPipe l) word = some true ↔ ∃ r ∈ l, doesMatch u r word = some true := by
  rw [C97_partial u word l h, Option.some.injEq, List.any_eq_true]
  simp only [beq_iff_eq]

/-- A `|` before the expression is ignored. -/
theorem C97_leading (u : Char → Bool) (r word : Str) (h : r ≠ []) (h2 : startsWith r ['|'] = false) :
    doesMatch u ('|' :: r) word = doesMatch u r word := by
  unfold doesMatch compileRegex
  rw [if_neg (by simp), if_neg (fun e => h (List.length_eq_zero_iff.1 e)), h2, if_pos (show startsWith ('|' :: r) ['|'] = true from rfl)]
  rfl

example : doesMatch (fun _ => false) (joinPipe ["^(a|b)+_$".toList, "[|]".toList, "priv$".toList]) "foo_priv".toList = some true ∧
    (∀ r ∈ ["^(a|b)+_$".toList, "[|]".toList, "priv$".toList], Whole r ∧ doesMatch (fun _ => false) r "foo_priv".toList ≠ none) := by
  decide +kernel

/-- The full statement fails: with a `|` at the end every text is matched. -/
theorem C97_fails : ¬ C97_statement := by
  intro h
  have h1 := (h (fun _ => false) ["^a$".toList, []] "b".toList (by decide +kernel)).1 (by decide +kernel)
  exact absurd h1 (by decide +kernel)

end Verif.Find.Props
