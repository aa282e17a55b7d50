import Verif.Tpl.Model
import Verif.Tpl.Spec
import Verif.Py.StrLemmas

/-! Lemmas on names and specifications. -/

namespace Verif.Tpl
open Verif.Py Spec

theorem mem_replaceAux {old new : Str} {c : Char} : ∀ {s : Str} {k : Nat}, c ∈ replaceAux old new k s → c ∈ s ∨ c ∈ new := by
  intro s
  induction s with
  | nil => intro k h; cases k <;> simp [replaceAux] at h
  | cons x xs ih =>
    intro k h
    cases k with
    | succ k => exact (ih h).imp (List.mem_cons_of_mem _) id
    | zero =>
      unfold replaceAux at h
      split at h
      · rcases List.mem_append.1 h with h | h
        · exact .inr h
        · exact (ih h).imp (List.mem_cons_of_mem _) id
      · rcases List.mem_cons.1 h with h | h
        · exact .inl (by simp [h])
        · exact (ih h).imp (List.mem_cons_of_mem _) id

theorem mem_replace {s old new : Str} {c : Char} (h : c ∈ replace s old new) : c ∈ s ∨ c ∈ new := mem_replaceAux h

theorem not_mem_replace {s old new : Str} {c : Char} (h1 : c ∉ s) (h2 : c ∉ new) : c ∉ replace s old new :=
  fun h => (mem_replace h).elim h1 h2

theorem not_mem_replace_char (s : Str) (c : Char) (new : Str) (h : c ∉ new) : c ∉ replace s [c] new := by
  rw [replace_char]
  intro hc
  obtain ⟨x, _, hx⟩ := List.mem_flatMap.1 hc
  split at hx
  · exact h hx
  · simp at hx; exact absurd hx.symm ‹_›

/-! ### Two colons in a row -/

theorem pair_cons {a x : Char} {l : Str} : [a, a] <:+: x :: l ↔ (x = a ∧ l.head? = some a) ∨ [a, a] <:+: l := by
  rw [List.infix_cons_iff]
  constructor
  · rintro (h | h)
    · left
      obtain ⟨w, hw⟩ := h
      simp only [List.cons_append, List.nil_append, List.cons.injEq] at hw
      exact ⟨hw.1.symm, by rw [← hw.2]; rfl⟩
    · exact .inr h
  · rintro (⟨rfl, h⟩ | h)
    · left
      cases l with
      | nil => simp at h
      | cons y l => simp at h; exact ⟨l, by rw [h]; rfl⟩
    · exact .inr h

theorem pair_append {a : Char} {n l : Str} (h : a ∉ n) : [a, a] <:+: n ++ l → [a, a] <:+: l := by
  induction n with
  | nil => exact id
  | cons x n ih =>
    simp only [List.mem_cons, not_or] at h
    rw [List.cons_append, pair_cons]
    rintro (⟨rfl, _⟩ | h')
    · exact absurd rfl h.1
    · exact ih h.2 h'

theorem replaceAux_head {old new : Str} {a : Char} (hn : new ≠ []) (ha : a ∉ new) (s : Str)
    (h : (replaceAux old new 0 s).head? = some a) : s.head? = some a := by
  cases s with
  | nil => simp [replaceAux] at h
  | cons x xs =>
    unfold replaceAux at h
    split at h
    · cases new with
      | nil => exact absurd rfl hn
      | cons y ys =>
        simp at h
        exact absurd (by simp [h]) ha
    · simpa using h

/-- A replacement by a non empty text without the character creates no pair. -/
theorem no_pair_replace {old new : Str} {a : Char} (hn : new ≠ []) (ha : a ∉ new) : ∀ (s : Str) (k : Nat),
    ¬ [a, a] <:+: s → ¬ [a, a] <:+: replaceAux old new k s := by
  intro s
  induction s with
  | nil => intro k _ h; cases k <;> simp [replaceAux] at h
  | cons x xs ih =>
    intro k hs h
    have hs' : ¬ [a, a] <:+: xs := fun h' => hs (pair_cons.2 (.inr h'))
    cases k with
    | succ k => exact ih k hs' h
    | zero =>
      unfold replaceAux at h
      split at h
      · exact ih _ hs' (pair_append ha h)
      · rcases pair_cons.1 h with ⟨rfl, h1⟩ | h1
        · exact hs (pair_cons.2 (.inl ⟨rfl, replaceAux_head hn ha xs h1⟩))
        · exact ih 0 hs' h1

/-- Replacing the pairs leaves none. -/
theorem no_pair_after {new : Str} {a : Char} (hn : new ≠ []) (ha : a ∉ new) : ∀ (s : Str) (k : Nat),
    ¬ [a, a] <:+: replaceAux [a, a] new k s := by
  intro s
  induction s with
  | nil => intro k h; cases k <;> simp [replaceAux] at h
  | cons x xs ih =>
    intro k h
    cases k with
    | succ k => exact ih k h
    | zero =>
      unfold replaceAux at h
      split at h
      · exact ih _ (pair_append ha h)
      · rename_i hp
        rcases pair_cons.1 h with ⟨rfl, h1⟩ | h1
        · have := replaceAux_head hn ha xs h1
          cases xs with
          | nil => simp at this
          | cons y ys => simp at this; subst this; simp at hp
        · exact ih 0 h1

theorem typeSuffix_no_pair (t : Str) : ¬ "::".toList <:+: typeSuffix t := by
  have e : "::".toList = [':', ':'] := rfl
  unfold typeSuffix
  rw [e]
  refine no_pair_replace (by decide) (by decide) _ 0 ?_
  refine no_pair_replace (by decide) (by decide) _ 0 ?_
  refine no_pair_replace (by decide) (by decide) _ 0 ?_
  refine no_pair_replace (by decide) (by decide) _ 0 ?_
  refine no_pair_replace (by decide) (by decide) _ 0 ?_
  refine no_pair_replace (by decide) (by decide) _ 0 ?_
  refine no_pair_replace (by decide) (by decide) _ 0 ?_
  exact no_pair_after (by decide) (by decide) _ 0

theorem typeSuffix_no_char (t : Str) : '&' ∉ typeSuffix t ∧ '*' ∉ typeSuffix t ∧ ' ' ∉ typeSuffix t := by
  unfold typeSuffix
  refine ⟨?_, ?_, ?_⟩
  · refine not_mem_replace ?_ (by decide)
    refine not_mem_replace ?_ (by decide)
    refine not_mem_replace ?_ (by decide)
    exact not_mem_replace_char _ _ _ (by decide)
  · refine not_mem_replace ?_ (by decide)
    exact not_mem_replace_char _ _ _ (by decide)
  · exact not_mem_replace_char _ _ _ (by decide)

theorem colons_std : ∀ (s : Str), ColonsPaired s → ColonsPaired (replace s "std::".toList []) := by
  intro s
  induction hn : s.length using Nat.strongRecOn generalizing s with
  | _ n ih =>
    intro h
    by_cases hp : "std::".toList <+: s
    · obtain ⟨r, rfl⟩ := hp
      rw [replace_match (by decide), List.nil_append]
      have hr : ColonsPaired r := by
        cases h with
        | char _ _ _ h =>
          cases h with
          | char _ _ _ h =>
            cases h with
            | char _ _ _ h =>
              cases h with
              | char _ _ hc _ => exact absurd rfl hc
              | pair _ h => exact h
      exact ih r.length (by rw [← hn]; simp; omega) r rfl hr
    · cases h with
      | nil => exact .nil
      | char c s hc h =>
        rw [replace_no_match hp]
        exact .char c _ hc (ih s.length (by rw [← hn]; simp) s rfl h)
      | pair s h =>
        rw [replace_no_match hp]
        have hp2 : ¬ "std::".toList <+: ':' :: s := by
          rintro ⟨w, hw⟩
          simp at hw
        rw [replace_no_match hp2]
        exact .pair _ (ih s.length (by rw [← hn]; simp; omega) s rfl h)

theorem colons_gone {s : Str} (h : ColonsPaired s) : ':' ∉ replace s "::".toList "_".toList := by
  induction h with
  | nil => simp
  | char c s hc _ ih =>
    have : ¬ "::".toList <+: c :: s := by
      rintro ⟨w, hw⟩
      simp at hw
      exact hc hw.1.symm
    rw [replace_no_match this, List.mem_cons, not_or]
    exact ⟨Ne.symm hc, ih⟩
  | pair s _ ih =>
    have e : ':' :: ':' :: s = "::".toList ++ s := rfl
    rw [e, replace_match (by decide)]
    simp only [List.mem_append, not_or]
    exact ⟨by decide, ih⟩

/-- Characters of the suffix of a simple type. -/
theorem typeSuffix_ident {t : Str} (h : SimpleType t) : ∀ c ∈ typeSuffix t, isIdent c = true := by
  obtain ⟨hc, ht⟩ := h
  intro c hcm
  have hno := typeSuffix_no_char t
  have hcolon : ':' ∉ typeSuffix t := by
    unfold typeSuffix
    refine not_mem_replace ?_ (by decide)
    refine not_mem_replace ?_ (by decide)
    refine not_mem_replace ?_ (by decide)
    refine not_mem_replace ?_ (by decide)
    refine not_mem_replace ?_ (by decide)
    refine not_mem_replace ?_ (by decide)
    refine not_mem_replace ?_ (by decide)
    exact colons_gone (colons_std t hc)
  have key : c ∈ t ∨ isIdent c = true := by
    have step : ∀ {s old new : Str}, (∀ x ∈ new, isIdent x = true) → (c ∈ s → c ∈ t ∨ isIdent c = true) →
        c ∈ replace s old new → c ∈ t ∨ isIdent c = true :=
      fun hn hs hm => (mem_replace hm).elim hs (fun h => .inr (hn _ h))
    unfold typeSuffix at hcm
    refine step (by decide) ?_ hcm
    refine step (by decide) ?_
    refine step (by decide) ?_
    refine step (by decide) ?_
    refine step (by decide) ?_
    refine step (by decide) ?_
    refine step (by decide) ?_
    refine step (by decide) ?_
    exact step (by decide) .inl
  rcases key with h | h
  · rcases ht c h with h | rfl | rfl | rfl | rfl
    · exact h
    · exact absurd hcm hno.2.2
    · exact absurd hcm hno.1
    · exact absurd hcm hno.2.1
    · exact absurd hcm hcolon
  · exact h

/-! ### The last specification that matches -/

theorem matchingSpec_foldl (name : Str) : ∀ (specs : List TSpec) (r : Option TSpec),
    specs.foldl (fun r s => if s.matches_ name then some s else r) r =
      ((specs.filter (fun s => s.matches_ name)).getLast?).or r := by
  intro specs
  induction specs with
  | nil => intro r; rfl
  | cons s specs ih =>
    intro r
    rw [List.foldl_cons, ih]
    by_cases h : s.matches_ name = true
    · rw [if_pos h, List.filter_cons_of_pos (by simpa using h)]
      cases hf : specs.filter (fun s => s.matches_ name) with
      | nil => rfl
      | cons x xs =>
        rw [List.getLast?_cons_cons]
        cases hl : (x :: xs).getLast? with
        | none => simp at hl
        | some y => rfl
    · rw [if_neg h, List.filter_cons_of_neg (by simpa using h)]

theorem matchingSpec_eq (specs : List TSpec) (name : Str) :
    matchingSpec specs name = (specs.filter (fun s => s.matches_ name)).getLast? := by
  unfold matchingSpec
  rw [matchingSpec_foldl]
  simp

theorem matchingSpec_mem {specs : List TSpec} {name : Str} {s : TSpec} (h : matchingSpec specs name = some s) :
    s ∈ specs ∧ s.matches_ name = true := by
  rw [matchingSpec_eq] at h
  have := List.mem_of_getLast? h
  simpa using this

theorem filter_unambiguous {specs : List TSpec} {name : Str} (h : Unambiguous specs name) :
    specs.filter (fun s => s.matches_ name) = [] ∨ ∃ s, specs.filter (fun s => s.matches_ name) = [s] := by
  have hp : (specs.filter (fun s => s.matches_ name)).Pairwise
      (fun a b => ¬ (a.matches_ name = true ∧ b.matches_ name = true)) := List.Pairwise.sublist List.filter_sublist h
  cases hf : specs.filter (fun s => s.matches_ name) with
  | nil => exact .inl rfl
  | cons a l =>
    cases l with
    | nil => exact .inr ⟨a, rfl⟩
    | cons b l =>
      exfalso
      rw [hf] at hp
      have ha : a ∈ specs.filter (fun s => s.matches_ name) := by rw [hf]; simp
      have hb : b ∈ specs.filter (fun s => s.matches_ name) := by rw [hf]; simp
      simp only [List.mem_filter] at ha hb
      exact (List.pairwise_cons.1 hp).1 b (by simp) ⟨ha.2, hb.2⟩

theorem matching_unique {specs : List TSpec} {name : Str} (h : Unambiguous specs name) {a b : TSpec} (ha : a ∈ specs)
    (hb : b ∈ specs) (h1 : a.matches_ name = true) (h2 : b.matches_ name = true) : a = b := by
  have ha' : a ∈ specs.filter (fun s => s.matches_ name) := List.mem_filter.2 ⟨ha, h1⟩
  have hb' : b ∈ specs.filter (fun s => s.matches_ name) := List.mem_filter.2 ⟨hb, h2⟩
  rcases filter_unambiguous h with hf | ⟨s, hf⟩
  · rw [hf] at ha'; simp at ha'
  · rw [hf] at ha' hb'
    simp at ha' hb'
    rw [ha', hb']

/-- The function name: the first specification that matches the name and the type. -/
theorem functionPythonName_eq (specs : List TSpec) (f t : Str) :
    functionPythonName specs f t = (specs.find? (fun s => s.matches_ f && (s.handlesInstantiation t || s.handlesSynonym t))).map
      (fun s => if s.suffix then naming f t else f) := by
  induction specs with
  | nil => rfl
  | cons s specs ih =>
    rw [functionPythonName, List.find?_cons]
    cases s.matches_ f && (s.handlesInstantiation t || s.handlesSynonym t) with
    | true => simp only [if_true, Option.map_some]; cases s.suffix <;> rfl
    | false => simpa using ih

end Verif.Tpl
