import Verif.Name.Lemmas

/-! Property C07: case conversions. -/

namespace Verif.Name
open Verif.Py

/-- C07: the result has no upper case letter. -/
theorem C07_no_upper (name : Str) : ∀ c ∈ toSnakeCase name, ¬ Spec.Upper c := by
  intro c hc hu
  obtain ⟨x, _, rfl⟩ := List.mem_map.1 hc
  have := (isUp_iff _).2 hu
  rw [isUp_lowC] at this; exact Bool.noConfusion this

/-- C07: only underscores are added or removed: apart from them the result is the lower-cased name. -/
theorem C07_same_letters (name : Str) :
    Spec.eraseUnderscores (toSnakeCase name) = lower (Spec.eraseUnderscores name) := by
  unfold toSnakeCase
  rw [erase_lower, erase_sub3, erase_sub2, erase_sub1]

/-- `lower` is what one expects: letter by letter, upper case to lower case. -/
theorem C07_lower_spec (c : Char) :
    (Spec.Upper c → Spec.Lower (lowC c) ∧ (lowC c).toNat = c.toNat + 32) ∧
    (¬ Spec.Upper c → lowC c = c) := by
  constructor
  · intro h
    have h1 := (isUp_iff c).2 h
    have h2 := h1
    simp [isUp] at h2
    have h3 : (Char.ofNat (c.toNat + 32)).toNat = c.toNat + 32 := toNat_ofNat (by omega)
    have h4 : (lowC c).toNat = c.toNat + 32 := by simp [lowC, h1, h3]
    refine ⟨(isLow_iff _).1 ?_, h4⟩
    simp [isLow, h4]; omega
  · intro h
    apply lowC_of_not_up
    cases hx : isUp c with
    | true => exact absurd ((isUp_iff c).1 hx) h
    | false => rfl

/-- C07: a name without upper case letters is already in snake case. -/
theorem C07_snake_unchanged (name : Str) (h : ∀ c ∈ name, ¬ Spec.Upper c) :
    toSnakeCase name = name := by
  have h' : ∀ c ∈ name, isUp c = false := by
    intro c hc
    cases hx : isUp c with
    | true => exact absurd ((isUp_iff c).1 hx) (h c hc)
    | false => rfl
  unfold toSnakeCase
  rw [sub1_no_up _ h', sub2_no_up _ h', sub3_no_up _ h']
  unfold lower
  conv => rhs; rw [← List.map_id name]
  exact List.map_congr_left (fun c hc => lowC_of_not_up (h' c hc))

example : ∀ c ∈ "my_function_2".toList, ¬ Spec.Upper c := by decide

/-- C07: converting twice is converting once. -/
theorem C07_idempotent (name : Str) : toSnakeCase (toSnakeCase name) = toSnakeCase name :=
  C07_snake_unchanged _ (C07_no_upper name)

/-- C07: camel case words are separated: `MyLongName` becomes `my_long_name`. -/
theorem C07_camel_words (ws : List Str) (h : ∀ w ∈ ws, Spec.CapWord w) :
    toSnakeCase ws.flatten = join ['_'] (ws.map lower) := by
  have h' : ∀ w ∈ ws, Cap w := fun w hw => cap_of_spec (h w hw)
  unfold toSnakeCase
  rw [sub1_words ws h', sub2_noDouble _ (noDouble_pairs ws h'), sub3_pairs ws h', lower_join]

example : ∀ w ∈ ["My".toList, "Long".toList, "Name".toList], Spec.CapWord w := by
  intro w hw
  simp at hw
  rcases hw with rfl | rfl | rfl
  · exact ⟨'M', 'y', [], by decide, by decide, by decide, by decide⟩
  · exact ⟨'L', 'o', "ng".toList, by decide, by decide, by decide, by decide⟩
  · exact ⟨'N', 'a', "me".toList, by decide, by decide, by decide, by decide⟩

/-- C07: round trip: a snake case name of words of at least two letters survives the conversion to
camel case and back. -/
theorem C07_camel_round_trip (ws : List Str) (hne : ws ≠ []) (h : ∀ w ∈ ws, Spec.LowWord w) :
    toSnakeCase (toCamelCase (join ['_'] ws)) = join ['_'] ws := by
  have hlow : ∀ w ∈ ws, ∀ c ∈ w, isLow c = true := fun w hw c hc => (isLow_iff c).2 ((h w hw).2 c hc)
  have hsplit : splitOn '_' (join ['_'] ws) = ws :=
    splitOn_join hne (fun w hw hm => low_ne_underscore (hlow w hw _ hm) rfl)
  unfold toCamelCase
  rw [hsplit]
  have key : ∀ w ∈ ws, Cap (titleAux false w) ∧ lower (titleAux false w) = w := by
    intro w hw
    have h2 := (h w hw).1
    have hl := hlow w hw
    match w, h2 with
    | a :: b :: w', _ =>
      have ha := hl a (by simp)
      have htail : ∀ c ∈ b :: w', isLow c = true := fun c hc => hl c (by simp at hc ⊢; right; exact hc)
      have e : titleAux false (a :: b :: w') = upC a :: b :: w' := by
        unfold titleAux
        simp only [Bool.false_eq_true, if_false, ha, Bool.or_true]
        rw [title_low _ htail]
      rw [e]
      refine ⟨⟨upC a, b, w', rfl, (up_upC ha).1, htail⟩, ?_⟩
      have : lower (b :: w') = b :: w' := by
        unfold lower
        conv => rhs; rw [← List.map_id (b :: w')]
        exact List.map_congr_left (fun c hc => lowC_of_not_up (low_not_up (htail c hc)))
      have e2 : lower (upC a :: b :: w') = lowC (upC a) :: lower (b :: w') := List.map_cons
      rw [e2, this, (up_upC ha).2]
  have hflat : ws.flatMap (titleAux false) = (ws.map (titleAux false)).flatten := by
    rw [List.flatMap_def]
  rw [hflat]
  have h' : ∀ w ∈ ws.map (titleAux false), Cap w := by
    intro w hw
    obtain ⟨x, hx, rfl⟩ := List.mem_map.1 hw
    exact (key x hx).1
  unfold toSnakeCase
  rw [sub1_words _ h', sub2_noDouble _ (noDouble_pairs _ h'), sub3_pairs _ h', lower_join,
    List.map_map]
  congr 1
  conv => rhs; rw [← List.map_id ws]
  exact List.map_congr_left (fun w hw => (key w hw).2)

example : ["my".toList, "name".toList] ≠ [] ∧
    ∀ w ∈ ["my".toList, "name".toList], Spec.LowWord w := by
  refine ⟨by decide, ?_⟩
  intro w hw
  simp at hw
  rcases hw with rfl | rfl <;> exact ⟨by decide, by decide⟩

end Verif.Name
