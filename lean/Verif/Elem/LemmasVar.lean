import Verif.Elem.Lemmas
import Verif.Elem.SpecVar
import Verif.Py.StrLemmas

/-! Lemmas on binding variables. -/

namespace Verif.Elem
open Verif.Py Spec

/-- The end of a name: nothing, or the next part. -/
def Cont (r : Str) : Prop := r = [] ∨ ∃ m ∈ marks, m <+: r

theorem marks_shape {m : Str} (h : m ∈ marks) : ∃ t, m = '_' :: t ∧ '_' ∉ t := by
  simp only [marks, List.mem_cons, List.not_mem_nil, or_false] at h
  rcases h with rfl | rfl | rfl
  · exact ⟨"Class".toList, rfl, by decide⟩
  · exact ⟨"Ns".toList, rfl, by decide⟩
  · exact ⟨"Enum".toList, rfl, by decide⟩

/-- A plain name is determined by the text that starts with it. -/
theorem plain_append_le {x y r r' : Str} (hy : Plain y) (hr : Cont r) (hr' : Cont r') (h : x ++ r = y ++ r')
    (hl : x.length ≤ y.length) : x = y := by
  obtain ⟨z, rfl, rfl⟩ : ∃ z, y = x ++ z ∧ r = z ++ r' := by
    rcases List.append_eq_append_iff.1 h with ⟨z, h1, h2⟩ | ⟨z, h1, h2⟩
    · exact ⟨z, h1, h2⟩
    · have : z = [] := by
        rw [h1] at hl
        simp at hl
        exact List.length_eq_zero_iff.1 (by omega)
      subst this
      exact ⟨[], by simpa using h1.symm, by simpa using h2.symm⟩
  cases z with
  | nil => simp
  | cons c z =>
    exfalso
    rcases hr with hr | ⟨m, hm, hp⟩
    · simp at hr
    · obtain ⟨t, ht, hu⟩ := marks_shape hm
      obtain ⟨w, hw⟩ := hp
      rcases Nat.lt_or_ge (c :: z).length m.length with hlt | hge
      · -- the next part would start inside a prefix
        obtain ⟨v, hv1, hv2⟩ : ∃ v, m = (c :: z) ++ v ∧ r' = v ++ w := by
          rcases List.append_eq_append_iff.1 hw with ⟨v, h1, h2⟩ | ⟨v, h1, h2⟩
          · exfalso
            have := congrArg List.length h1
            simp at this hlt
            omega
          · exact ⟨v, h1, h2⟩
        cases v with
        | nil =>
          have := congrArg List.length hv1
          simp at this hlt
          omega
        | cons a v =>
          rw [ht] at hv1
          simp only [List.cons_append, List.cons.injEq] at hv1
          have ha : a ∈ t := by rw [hv1.2]; simp
          rcases hr' with hr' | ⟨m', hm', hp'⟩
          · rw [hv2] at hr'; simp at hr'
          · obtain ⟨t', ht', _⟩ := marks_shape hm'
            obtain ⟨w', hw'⟩ := hp'
            rw [hv2, ht'] at hw'
            simp only [List.cons_append, List.cons.injEq] at hw'
            exact hu (hw'.1 ▸ ha)
      · obtain ⟨v, hv⟩ : ∃ v, c :: z = m ++ v := by
          rcases List.append_eq_append_iff.1 hw with ⟨v, h1, h2⟩ | ⟨v, h1, h2⟩
          · exact ⟨v, h1⟩
          · have : v = [] := by
              have := congrArg List.length h1
              simp at this hge
              exact List.length_eq_zero_iff.1 (by omega)
            subst this
            exact ⟨[], by simpa using h1.symm⟩
        exact hy m hm ⟨x, v, by rw [hv]; simp⟩

theorem plain_append {x y r r' : Str} (hx : Plain x) (hy : Plain y) (hr : Cont r) (hr' : Cont r')
    (h : x ++ r = y ++ r') : x = y ∧ r = r' := by
  have : x = y := by
    rcases Nat.le_total x.length y.length with hl | hl
    · exact plain_append_le hy hr hr' h hl
    · exact (plain_append_le hx hr' hr h.symm hl).symm
  subst this
  exact ⟨rfl, by simpa using h⟩

/-- The text of the parts, each one preceded by `_`. -/
def tailText : List ScopePart → Str
  | [] => []
  | p :: ps => '_' :: (partName p ++ tailText ps)

theorem join_parts (p : ScopePart) (ps : List ScopePart) :
    join "_".toList ((p :: ps).map partName) = partName p ++ tailText ps := by
  induction ps generalizing p with
  | nil => simp [join, tailText]
  | cons q qs ih =>
    have := ih q
    rw [List.map_cons, List.map_cons, join, ← List.map_cons, this]
    · simp [tailText]
    · simp

theorem cont_tail (ps : List ScopePart) : Cont (tailText ps) := by
  cases ps with
  | nil => exact .inl rfl
  | cons p ps =>
    right
    unfold tailText partName
    cases p.type with
    | classOrStruct => exact ⟨"_Class".toList, by simp [marks], ⟨p.name ++ tailText ps, by simp [tagOf]⟩⟩
    | namespace_ => exact ⟨"_Ns".toList, by simp [marks], ⟨p.name ++ tailText ps, by simp [tagOf]⟩⟩
    | enum_ => exact ⟨"_Enum".toList, by simp [marks], ⟨p.name ++ tailText ps, by simp [tagOf]⟩⟩

theorem tag_append {a b : ScopeType} {x y : Str} (h : tagOf a ++ x = tagOf b ++ y) : a = b ∧ x = y := by
  cases a <;> cases b <;> simp [tagOf] at h <;> exact ⟨rfl, h⟩

theorem tailText_inj : ∀ (a b : List ScopePart), (∀ p ∈ a, Plain p.name) → (∀ p ∈ b, Plain p.name) →
    tailText a = tailText b → a = b := by
  intro a
  induction a with
  | nil =>
    intro b _ _ h
    cases b with
    | nil => rfl
    | cons p ps => simp [tailText] at h
  | cons p ps ih =>
    intro b ha hb h
    cases b with
    | nil => simp [tailText] at h
    | cons q qs =>
      simp only [tailText, List.cons.injEq, true_and, partName, List.append_assoc] at h
      obtain ⟨h1, h2⟩ := tag_append h
      obtain ⟨h3, h4⟩ := plain_append (ha p (by simp)) (hb q (by simp)) (cont_tail ps) (cont_tail qs) h2
      have := ih qs (fun x hx => ha x (by simp [hx])) (fun x hx => hb x (by simp [hx])) h4
      obtain ⟨pt, pn⟩ := p
      obtain ⟨qt, qn⟩ := q
      simp only at h1 h3
      rw [h1, h3, this]

theorem varNameOf_cons (roots : List Str) (scope : List ScopePart) (p : ScopePart) (ps : List ScopePart)
    (h : pybindScope roots scope = p :: ps) :
    varNameOf roots scope [] = "py".toList ++ (partName p ++ tailText ps) := by
  unfold varNameOf
  rw [h, ← join_parts]
  rfl

theorem varNameOf_nil (roots : List Str) (scope : List ScopePart) (params : List Str) (h : pybindScope roots scope = []) :
    varNameOf roots scope params = "m".toList := by
  unfold varNameOf
  rw [h]
  rfl

theorem varNameOf_parent (roots : List Str) (scope : List ScopePart) :
    varNameOf roots scope [] = parentVarNameOf roots scope := by
  unfold varNameOf parentVarNameOf
  split
  · rfl
  · simp

theorem varNameOf_py (roots : List Str) (scope : List ScopePart) (params : List Str) (h : pybindScope roots scope ≠ []) :
    ∃ r, varNameOf roots scope params = 'p' :: r := by
  unfold varNameOf
  split
  · rename_i h'
    simp at h'
    exact absurd h' h
  · simp only
    split
    · exact ⟨_, rfl⟩
    · exact ⟨_, rfl⟩

theorem pybind_prefix (ks : Kinds) (roots : List Str) (path : List Nat) :
    pybindScope roots (scopesOf ks path) = scopesOf ks (path.filter (HasVar ks roots)) := by
  induction path with
  | nil => rfl
  | cons i path ih =>
    unfold pybindScope scopesOf at ih ⊢
    rw [List.filterMap_cons, List.filter_cons]
    unfold HasVar at ih ⊢
    cases hs : selfScope (ks i) with
    | none => simpa using ih
    | some p =>
      simp only
      rw [List.filter_cons]
      split
      · rw [List.filterMap_cons, hs]
        simp only
        rw [ih]
      · exact ih

theorem getLast?_filter_split {α : Type} (p : α → Bool) (l : List α) (e : α) (h : (l.filter p).getLast? = some e) :
    ∃ a b, l = a ++ e :: b ∧ p e = true ∧ b.filter p = [] := by
  induction l with
  | nil => simp at h
  | cons x l ih =>
    by_cases hl : l.filter p = []
    · rw [List.filter_cons] at h
      split at h
      · rename_i hx
        rw [hl] at h
        simp only [List.getLast?_singleton, Option.some.injEq] at h
        subst h
        exact ⟨[], l, rfl, hx, hl⟩
      · rw [hl] at h; simp at h
    · have : (l.filter p).getLast? = some e := by
        rw [List.filter_cons] at h
        split at h
        · cases hf : l.filter p with
          | nil => exact absurd hf hl
          | cons y ys => rw [hf, List.getLast?_cons_cons] at h; exact h
        · exact h
      obtain ⟨a, b, rfl, h1, h2⟩ := ih this
      exact ⟨x :: a, b, rfl, h1, h2⟩

theorem not_contains_of_char {s pat : Str} (c : Char) (h1 : c ∈ pat) (h2 : c ∉ s) : contains s pat = false := by
  refine Bool.eq_false_iff.2 fun h => ?_
  obtain ⟨a, b, hab⟩ := (contains_iff _ _).1 h
  exact h2 (by rw [hab]; simp [h1])

theorem argName_plain {s : Str} (h : PlainArg s) : argName s = s := by
  have h1 : '*' ∉ s := fun hc => (h.2 _ hc).1 rfl
  have h2 : ' ' ∉ s := fun hc => (h.2 _ hc).2.1 rfl
  have h3 : ':' ∉ s := fun hc => (h.2 _ hc).2.2.1 rfl
  unfold argName
  rw [replace_of_not_contains (not_contains_of_char '*' (by decide) h1),
    replace_of_not_contains (not_contains_of_char '*' (by decide) h1),
    replace_of_not_contains (not_contains_of_char ' ' (by decide) h2),
    replace_of_not_contains (not_contains_of_char ':' (by decide) h3),
    replace_of_not_contains (not_contains_of_char ':' (by decide) h3)]

end Verif.Elem
