import Verif.Type.Lemmas

/-! # Printing of types

Property C29. -/

namespace Verif.Type.Props
open Verif.Py Verif.Type Verif.Type.Spec

/-- With at most one `const`, a type is printed as its specifiers, names and modifiers, once each in order. -/
theorem C29_printed (t : CppType) (hp : Proper t) (hc : t.specifiers.count "const".toList ≤ 1) :
    strCode t = some (words (t.specifiers ++ t.typenames ++ t.modifiers)) := by
  unfold Proper at hp
  have h1 : ∀ w ∈ t.specifiers, w ≠ [] := fun w hw => hp w (by simp [hw])
  have h2 : ∀ w ∈ t.typenames, w ≠ [] := fun w hw => hp w (by simp [hw])
  have h3 : ∀ w ∈ t.modifiers, w ≠ [] := fun w hw => hp w (by simp [hw])
  have hc' : t.specifiers.count const_ ≤ 1 := hc
  unfold strCode
  rw [if_neg (by omega)]
  have e1 : printedSpecifiers t.specifiers = t.specifiers := by
    unfold printedSpecifiers; rw [if_neg (by omega)]
  have e2 : finalConst t.specifiers = [] := by
    unfold finalConst; rw [if_neg (by omega)]
  rw [e1, e2, joinRemoveEmpty_of h1, joinRemoveEmpty_of h3, join_three _ _ _ h1 h2 h3, List.append_nil]
  rfl

/-- With two, the first is printed in its place before the type and the second after it. -/
theorem C29_two_const (t : CppType) (hp : Proper t) (a b : List Str)
    (hs : t.specifiers = a ++ "const".toList :: b) (hb : "const".toList ∉ b) (ha : a.count "const".toList = 1) :
    strCode t = some (words (a ++ b ++ t.typenames ++ t.modifiers ++ ["const".toList])) := by
  unfold Proper at hp
  have h1 : ∀ w ∈ a ++ b, w ≠ [] := by
    intro w hw
    apply hp w
    rw [hs]
    simp only [List.mem_append, List.mem_cons] at hw ⊢
    rcases hw with hw | hw <;> simp [hw]
  have h2 : ∀ w ∈ t.typenames, w ≠ [] := fun w hw => hp w (by simp [hw])
  have h3 : ∀ w ∈ t.modifiers, w ≠ [] := fun w hw => hp w (by simp [hw])
  have hc : t.specifiers.count const_ = 2 := by
    rw [hs]
    have hb' : b.count const_ = 0 := List.count_eq_zero.2 hb
    have ha' : a.count const_ = 1 := ha
    have : (("const".toList :: b).count const_) = b.count const_ + 1 := List.count_cons_self
    rw [List.count_append, this, ha', hb']
  unfold strCode
  rw [if_neg (by omega)]
  have e1 : printedSpecifiers t.specifiers = a ++ b := by
    unfold printedSpecifiers; rw [if_pos hc, hs]; exact erase_last a b _ hb
  have e2 : finalConst t.specifiers = " const".toList := by
    unfold finalConst; rw [if_pos hc]
  rw [e1, e2, joinRemoveEmpty_of h1, joinRemoveEmpty_of h3, join_three _ _ _ h1 h2 h3]
  have hne : a ++ b ++ t.typenames ++ t.modifiers ≠ [] := by
    intro he
    have : a = [] := by
      cases a with
      | nil => rfl
      | cons x xs => simp at he
    rw [this] at ha
    simp at ha
  unfold words
  have := join_append (sep := [' ']) hne (b := ["const".toList]) (by simp)
  rw [this]
  have e : join [' '] ["const".toList] = "const".toList := rfl
  have e' : " const".toList = [' '] ++ "const".toList := by decide
  rw [e, e', ← List.append_assoc]
  rfl

/-- More than two is an error, and the only one. -/
theorem C29_error (t : CppType) : strCode t = none ↔ 2 < t.specifiers.count "const".toList := by
  unfold strCode
  have : t.specifiers.count const_ = t.specifiers.count "const".toList := rfl
  rw [this]
  split <;> simp_all

/-- The type of a returned value is printed in the same way, without `inline`, `virtual`, `extern` and `static`,
and without a leading `auto` before the actual type. -/
theorem C29_return_type (t : CppType) (hp : Proper t) (hc : t.specifiers.count "const".toList ≤ 1)
    (hu : ∀ u ∈ ["inline".toList, "virtual".toList, "extern".toList, "static".toList], t.specifiers.count u ≤ 1) :
    strReturnType [] true t = some (words (t.specifiers.filter (fun w =>
        ¬ w ∈ ["inline".toList, "virtual".toList, "extern".toList, "static".toList]) ++
      (if t.typenames.length > 1 ∧ t.typenames.head? = some "auto".toList then t.typenames.tail else t.typenames) ++
      t.modifiers)) := by
  unfold Proper at hp
  have h1 : ∀ w ∈ t.specifiers, w ≠ [] := fun w hw => hp w (by simp [hw])
  have h2 : ∀ w ∈ t.typenames, w ≠ [] := fun w hw => hp w (by simp [hw])
  have h3 : ∀ w ∈ t.modifiers, w ≠ [] := fun w hw => hp w (by simp [hw])
  have hc' : ¬ t.specifiers.count const_ > 1 := by
    have : t.specifiers.count const_ ≤ 1 := hc
    omega
  have hname : returnName t.typenames =
      join blank (if t.typenames.length > 1 ∧ t.typenames.head? = some "auto".toList then t.typenames.tail else t.typenames) := by
    generalize t.typenames = l
    match l with
    | [] => rfl
    | [x] => rfl
    | x :: y :: r =>
      unfold returnName
      by_cases hx : x = "auto".toList
      · simp only [if_pos hx]
        rw [if_pos ⟨by simp, by rw [hx]; rfl⟩]; rfl
      · simp only [if_neg hx]
        rw [if_neg (by rintro ⟨_, h⟩; exact hx (Option.some.inj h))]
  have hw : wantedSpecifiers t.specifiers = t.specifiers.filter (fun w =>
        ¬ w ∈ ["inline".toList, "virtual".toList, "extern".toList, "static".toList]) := by
    unfold wantedSpecifiers
    exact wanted_filter unwanted t.specifiers t.specifiers (by decide) hu (fun _ _ => Iff.rfl)
  unfold strReturnType
  rw [if_neg hc', hname, hw]
  have h4 : ∀ w ∈ (if t.typenames.length > 1 ∧ t.typenames.head? = some "auto".toList then t.typenames.tail else t.typenames), w ≠ [] := by
    intro w hw
    split at hw
    · exact h2 w (List.mem_of_mem_tail hw)
    · exact h2 w hw
  have h5 : ∀ w ∈ t.specifiers.filter (fun w =>
        ¬ w ∈ ["inline".toList, "virtual".toList, "extern".toList, "static".toList]), w ≠ [] :=
    fun w hw => h1 w (List.mem_filter.1 hw).1
  simp only [List.foldl_nil, if_true]
  rw [joinRemoveEmpty_of h5, joinRemoveEmpty_of h3, join_three _ _ _ h5 h4 h3]
  rfl

/-- The full property: removing the API prefixes does not touch a type that contains none of them. -/
def C29_api_prefix_statement : Prop :=
  ∀ (prefixes : List Str) (t : CppType), Proper t → (∀ p ∈ prefixes, p ∉ t.specifiers ++ t.typenames ++ t.modifiers) →
    strReturnType prefixes true t = strReturnType prefixes false t

/-- It fails: with the prefix `MY_API`, the type `MY_APIResult` is printed `Result`. -/
theorem C29_api_prefix_fails : ¬ C29_api_prefix_statement := by
  intro h
  have := h ["MY_API".toList] ⟨[], ["MY_APIResult".toList], []⟩ (by intro w hw; simp at hw; subst hw; simp)
    (by decide +kernel)
  revert this
  decide +kernel

/-- What holds: a prefix that is a specifier of its own is removed with the blanks after it, and a type whose
printed form starts with no prefix is unchanged. Missing: types whose name starts with a prefix. -/
theorem C29_api_prefix_partial (pre : Str) (rest : List Str) (hr : rest ≠ []) (hne : ∀ w ∈ rest, w ≠ [])
    (hb : ∀ w ∈ rest, ∀ c ∈ w, isSpace c = false) :
    removePrefix (words (pre :: rest)) pre = words rest ∧
    ∀ other : Str, ¬ other <+: words rest → removePrefix (words rest) other = words rest := by
  constructor
  · unfold removePrefix words
    have e : join [' '] (pre :: rest) = pre ++ ([' '] ++ join [' '] rest) := by
      cases rest with
      | nil => exact absurd rfl hr
      | cons x xs => rw [join_cons_cons]; simp
    rw [e]
    unfold startsWith
    rw [if_pos (List.isPrefixOf_iff_prefix.2 (List.prefix_append _ _)), List.drop_left,
      lstrip_append_of_all (by decide)]
    cases rest with
    | nil => exact absurd rfl hr
    | cons x xs =>
      cases x with
      | nil => exact absurd rfl (hne [] (by simp))
      | cons c cs =>
        have hc := hb (c :: cs) (by simp) c (by simp)
        cases xs with
        | nil => exact lstrip_cons_of_not hc
        | cons y ys => rw [join_cons_cons]; exact lstrip_cons_of_not hc
  · intro other h
    unfold removePrefix startsWith
    rw [if_neg (fun hh => h (List.isPrefixOf_iff_prefix.1 hh))]

example : strCode ⟨["const".toList, "const".toList], ["char".toList], ["*".toList]⟩ = some "const char * const".toList := by
  decide +kernel
example : strCode ⟨["static".toList, "const".toList], ["unsigned".toList, "int".toList], ["*".toList, "&".toList]⟩ =
    some "static const unsigned int * &".toList := by decide +kernel
example : strReturnType ["MY_API".toList] true ⟨["inline".toList, "const".toList], ["auto".toList, "int".toList], ["&".toList]⟩ =
    some "const int &".toList := by decide +kernel
example : strReturnType ["MY_API".toList] true ⟨[], ["MY_API".toList, "int".toList], []⟩ = some "int".toList := by decide +kernel
example : Proper ⟨["const".toList], ["int".toList], ["*".toList]⟩ := by
  intro w hw; simp at hw; rcases hw with rfl | rfl | rfl <;> simp

end Verif.Type.Props
