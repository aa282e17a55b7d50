import Verif.Boxed.Lemmas

/-! C45: boxed types. -/

namespace Verif.Boxed.Props
open Verif.Py Verif.Boxed.Spec

theorem canBox_iff (t : Str) : canBox t = true ↔ t ∈ boxable.map Prod.fst := by
  have h1 : ∀ u ∈ boxable.map Prod.fst, canBox u = true := by decide +kernel
  have h2 : ∀ u ∈ numericTypes ++ ["string".toList, "std::string".toList, "bool".toList], u ∈ boxable.map Prod.fst := by decide +kernel
  constructor
  · intro h
    apply h2
    rw [List.mem_append]
    unfold canBox at h
    split at h
    · rename_i h'; exact .inl h'
    · split at h
      · rename_i h'; exact .inr h'
      · simp at h
  · exact h1 t

/-! ### Names -/

/-- C45. Exactly the types of the table have a boxed type, and it is named `Boxed…`. -/
theorem C45_boxable (t : Str) : (∃ n, boxedTypeName t = some n) ↔ t ∈ boxable.map Prod.fst := by
  have h1 : ∀ u ∈ boxable.map Prod.fst, (boxedTypeName u).isSome = true := by decide +kernel
  constructor
  · rintro ⟨n, h⟩
    rw [← canBox_iff]
    cases hc : canBox t with
    | true => rfl
    | false =>
      unfold boxedTypeName at h
      rw [hc] at h
      exact absurd h (fun h => nomatch h)
  · intro h
    exact Option.isSome_iff_exists.1 (h1 t h)

example : boxedTypeName "unsigned int".toList = some "BoxedUnsignedInt".toList := by decide +kernel

/-- The name of a boxed type is an identifier. -/
def C45_identifier_statement : Prop := ∀ t n, boxedTypeName t = some n → Identifier n

instance (c : Char) : Decidable (IdentChar c) := inferInstanceAs (Decidable (_ ∨ _))

/-- C45. It fails for `std::size_t`, whose boxed type is `BoxedStd::size_t`. -/
theorem C45_identifier_fails : ¬ C45_identifier_statement := by
  intro h
  have := (h "std::size_t".toList "BoxedStd::size_t".toList (by decide +kernel)).1 ':' (by decide)
  exact absurd this (by decide)

/-- C45. It holds for all the other boxable types. -/
theorem C45_identifier_partial (t n : Str) (h : boxedTypeName t = some n) (ht : t ≠ "std::size_t".toList) : Identifier n := by
  have hm := (C45_boxable t).1 ⟨n, h⟩
  have hall : ∀ u ∈ boxable.map Prod.fst, u ≠ "std::size_t".toList → ∀ m ∈ boxedTypeName u, (∀ c ∈ m, IdentChar c) ∧
      ∃ r, m = 'B' :: r := by
    have : ∀ u ∈ boxable.map Prod.fst, u ≠ "std::size_t".toList → ∀ m ∈ boxedTypeName u, (∀ c ∈ m, IdentChar c) ∧
        m.head? = some 'B' := by decide +kernel
    intro u hu h1 m hm
    obtain ⟨h2, h3⟩ := this u hu h1 m hm
    cases m with
    | nil => simp at h3
    | cons c m => simp only [List.head?_cons, Option.some.injEq] at h3; exact ⟨h2, m, by rw [h3]⟩
  obtain ⟨h1, r, h2⟩ := hall t hm ht n h
  exact ⟨h1, 'B', r, h2, by decide⟩

/-- Different types have different boxed types. -/
def C45_distinct_statement : Prop := ∀ t u n, boxedTypeName t = some n → boxedTypeName u = some n → t = u

/-- C45. It fails for the two names of the string type: when both are met, the structure `BoxedString` is defined twice. -/
theorem C45_distinct_fails : ¬ C45_distinct_statement := by
  intro h
  exact absurd (h "string".toList "std::string".toList _ (by decide +kernel) (by decide +kernel : boxedTypeName "std::string".toList =
    some "BoxedString".toList)) (by decide)

/-- C45. It holds for all the others. -/
theorem C45_distinct_partial (t u n : Str) (ht : boxedTypeName t = some n) (hu : boxedTypeName u = some n) :
    t = u ∨ (t ∈ ["string".toList, "std::string".toList] ∧ u ∈ ["string".toList, "std::string".toList]) := by
  have h1 := (C45_boxable t).1 ⟨n, ht⟩
  have h2 := (C45_boxable u).1 ⟨n, hu⟩
  have hall : ∀ a ∈ boxable.map Prod.fst, ∀ b ∈ boxable.map Prod.fst, boxedTypeName a = boxedTypeName b →
      a = b ∨ (a ∈ ["string".toList, "std::string".toList] ∧ b ∈ ["string".toList, "std::string".toList]) := by decide +kernel
  exact hall t h1 u h2 (ht.trans hu.symm)

/-! ### The structure -/

/-- C45. The structure of a boxed type holds a value of the C++ type, initialised with the zero of that type, and shows it; its name is
that of the boxed type. This is so for every boxable type and every indentation. -/
theorem C45_struct (t init indent : Str) (hi : ∀ c ∈ indent, isSpace c = true) (hn : '\n' ∉ indent) (h : (t, init) ∈ boxable) :
    ∃ name, boxedTypeName t = some name ∧
      structCode t indent = some (unlines (boxLines name t init (valueText t) indent) ++ "\n".toList) := by
  have hm : t ∈ boxable.map Prod.fst := List.mem_map.2 ⟨_, h, rfl⟩
  obtain ⟨name, hname⟩ := (C45_boxable t).2 hm
  refine ⟨name, hname, ?_⟩
  have hall : ∀ e ∈ boxable, defaultValue e.1 = some e.2 ∧ toStringValue e.1 = valueText e.1 ∧ '\n' ∉ e.1 ∧ '\n' ∉ e.2 := by decide +kernel
  have hnn : ∀ u ∈ boxable.map Prod.fst, ∀ m ∈ boxedTypeName u, '\n' ∉ m ∧ m.getLast? ≠ some ' ' ∧ m ≠ [] := by decide +kernel
  obtain ⟨h1, h2, h3, h4⟩ := hall _ h
  obtain ⟨h5, h6, h7⟩ := hnn t hm name hname
  unfold structCode
  rw [(canBox_iff t).2 hm, h1, hname]
  simp only
  congr 2
  have hv : '\n' ∉ valueText t := by unfold valueText; split <;> decide
  have := unindent_block 8 4 ("struct ".toList ++ name)
    ["{".toList, indent ++ t ++ " value;".toList,
     indent ++ name ++ "(".toList ++ t ++ " v = ".toList ++ init ++ ") : value(v) {}".toList,
     indent ++ "std::string __repr__() const { return std::string(\"".toList ++ name ++ "(\") + ".toList ++ valueText t ++
       " + \")\"; }".toList] "};".toList (by omega) ⟨'s', "truct ".toList ++ name, rfl, by decide⟩ ⟨'}', by decide, by decide⟩ ?_ ?_
  · unfold structTemplate
    rw [h2]
    exact this
  · intro l hl
    simp only [List.cons_append, List.nil_append, List.mem_cons, List.not_mem_nil, or_false] at hl
    have hend : ∀ a b : Str, b ≠ [] → b.getLast? ≠ some ' ' → (a ++ b).getLast? ≠ some ' ' := by
      intro a b hb h
      rw [List.getLast?_append_of_ne_nil _ hb]; exact h
    rcases hl with rfl | rfl | rfl | rfl | rfl | rfl
    · exact hend _ _ h7 h6
    · decide
    · exact hend _ _ (by decide) (by decide)
    · exact hend _ _ (by decide) (by decide)
    · exact hend _ _ (by decide) (by decide)
    · decide
  · intro l hl
    simp only [List.cons_append, List.nil_append, List.mem_cons, List.not_mem_nil, or_false] at hl
    have d1 : '\n' ∉ "struct ".toList := by decide
    have d2 : '\n' ∉ " value;".toList := by decide
    have d3 : '\n' ∉ "(".toList := by decide
    have d4 : '\n' ∉ " v = ".toList := by decide
    have d5 : '\n' ∉ ") : value(v) {}".toList := by decide
    have d6 : '\n' ∉ "std::string __repr__() const { return std::string(\"".toList := by decide
    have d7 : '\n' ∉ "(\") + ".toList := by decide
    have d8 : '\n' ∉ " + \")\"; }".toList := by decide
    have happ : ∀ a b : Str, '\n' ∉ a → '\n' ∉ b → '\n' ∉ a ++ b := fun a b ha hb h => (List.mem_append.1 h).elim ha hb
    rcases hl with rfl | rfl | rfl | rfl | rfl | rfl
    · exact happ _ _ d1 h5
    · decide
    · exact happ _ _ (happ _ _ hn h3) d2
    · exact happ _ _ (happ _ _ (happ _ _ (happ _ _ (happ _ _ (happ _ _ hn h5) d3) h3) d4) h4) d5
    · exact happ _ _ (happ _ _ (happ _ _ (happ _ _ (happ _ _ hn d6) h5) d7) hv) d8
    · decide

example : ("long double".toList, "0.".toList) ∈ boxable ∧ structCode "bool".toList "  ".toList = some ("struct BoxedBool\n{\n  bool value;\n  " ++
    "BoxedBool(bool v = false) : value(v) {}\n  std::string __repr__() const { return std::string(\"BoxedBool(\") + std::to_string(value) + \")\"; }\n};\n").toList := by
  decide +kernel

/-! ### The glue code -/

/-- C45. The glue code defines the structure of each registered type exactly once, in alphabetical order; it is then the same whatever the
order in which the types were met, and however often. Registering a type gives the name of its structure. -/
theorem C45_glue (ts : List Str) (indent : Str) (h : ∀ t ∈ ts, t ∈ boxable.map Prod.fst) :
    ∃ types codes, boxedTypesCode (afterRegistrations ts) indent = some codes.flatten ∧
      types.Pairwise Before ∧ (∀ t, t ∈ types ↔ t ∈ ts) ∧
      List.Forall₂ (fun t code => structCode t indent = some code) types codes ∧
      ∀ t ∈ ts, ∀ s, (registered s t).1 = boxedTypeName t := by
  obtain ⟨h1, h2⟩ := registrations_spec ts [] List.nodup_nil
  have hmem : ∀ t, t ∈ sorted (afterRegistrations ts) ↔ t ∈ ts := by
    intro t
    rw [(sorted_perm _).mem_iff]
    have := h2 t
    simp only [List.not_mem_nil, false_or] at this
    exact this
  have hc : ∀ t ∈ boxable.map Prod.fst, ∃ code, structCode t indent = some code := by
    intro t ht
    have hall : ∀ u ∈ boxable.map Prod.fst, canBox u = true ∧ (defaultValue u).isSome = true ∧ (boxedTypeName u).isSome = true := by
      decide +kernel
    obtain ⟨a1, a2, a3⟩ := hall t ht
    obtain ⟨v, hv⟩ := Option.isSome_iff_exists.1 a2
    obtain ⟨n, hn⟩ := Option.isSome_iff_exists.1 a3
    unfold structCode
    rw [a1, hv, hn]
    exact ⟨_, rfl⟩
  have hex : ∀ l : List Str, (∀ t ∈ l, t ∈ boxable.map Prod.fst) → ∃ codes, l.mapM (fun t => structCode t indent) = some codes ∧
      List.Forall₂ (fun t code => structCode t indent = some code) l codes := by
    intro l
    induction l with
    | nil => exact fun _ => ⟨[], rfl, .nil⟩
    | cons t l ih =>
      intro hl
      obtain ⟨codes, e1, e2⟩ := ih (fun t ht => hl t (List.mem_cons_of_mem _ ht))
      obtain ⟨c, hc⟩ := hc t (hl t (by simp))
      exact ⟨c :: codes, by simp [List.mapM_cons, hc, e1], .cons hc e2⟩
  obtain ⟨codes, e1, e2⟩ := hex (sorted (afterRegistrations ts)) (fun t ht => h t ((hmem t).1 ht))
  refine ⟨sorted (afterRegistrations ts), codes, ?_, sorted_before _ h1, hmem, e2, fun _ _ _ => rfl⟩
  unfold boxedTypesCode
  rw [e1]
  rfl

example : sorted (afterRegistrations ["int".toList, "float".toList, "bool".toList, "int".toList]) =
    ["bool".toList, "float".toList, "int".toList] := by decide +kernel

/-- C45. In particular the order does not matter. -/
theorem C45_order_independent (ts us : List Str) (indent : Str) (h : ∀ t, t ∈ ts ↔ t ∈ us) :
    boxedTypesCode (afterRegistrations ts) indent = boxedTypesCode (afterRegistrations us) indent := by
  obtain ⟨h1, h2⟩ := registrations_spec ts [] List.nodup_nil
  obtain ⟨h3, h4⟩ := registrations_spec us [] List.nodup_nil
  have : sorted (afterRegistrations ts) = sorted (afterRegistrations us) := by
    apply before_unique _ _ (sorted_before _ h1) (sorted_before _ h3)
    intro t
    rw [(sorted_perm _).mem_iff, (sorted_perm _).mem_iff]
    have a := h2 t
    have b := h4 t
    simp only [List.not_mem_nil, false_or] at a b
    rw [a, b, h]
  unfold boxedTypesCode
  rw [this]

example : ∀ t, t ∈ ["int".toList, "bool".toList, "int".toList] ↔ t ∈ ["bool".toList, "int".toList] := by simp

end Verif.Boxed.Props
