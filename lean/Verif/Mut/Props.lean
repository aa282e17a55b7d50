import Verif.Mut.Values
import Verif.Scope.Props

/-! C88: the default values that are shared between the calls of a Python function. -/

namespace Verif.Mut.Props
open Verif.Py Verif.Re Spec

private def nou : Char → Bool := fun _ => false
private def no : Str → Bool := fun _ => false

theorem strip_last (s : Str) : (strip s).getLast? ≠ some '\n' := by
  unfold strip
  intro h
  rcases rstrip_last (lstrip s) with e | ⟨a, c, e, hc⟩
  · rw [e] at h
    cases h
  · rw [e, List.getLast?_append] at h
    have : c = '\n' := Option.some.inj h
    rw [this] at hc
    exact absurd hc (by decide)

theorem mem_words (s : Str) : s ∈ keywords ↔ s ∈ words :=
  ⟨fun h => (by decide +kernel : ∀ x ∈ keywords, x ∈ words) s h, fun h => (by decide +kernel : ∀ x ∈ words, x ∈ keywords) s h⟩

theorem mem_types (s : Str) : s ∈ baseTypes ↔ s ∈ valueTypes :=
  ⟨fun h => (by decide +kernel : ∀ x ∈ baseTypes, x ∈ valueTypes) s h, fun h => (by decide +kernel : ∀ x ∈ valueTypes, x ∈ baseTypes) s h⟩

theorem patterns_iff {u : Char → Bool} {s : Str} (hs : s.getLast? ≠ some '\n') :
    patterns.any (fun r => matchesStart u r s) = true ↔ Decimal s ∨ Integer s ∨ Quoted s ∨ Char12 s := by
  rw [patterns, List.any_cons, List.any_cons, List.any_cons, List.any_cons, List.any_nil, Bool.or_false, Bool.or_eq_true, Bool.or_eq_true, Bool.or_eq_true,
    starts_float hs, starts_int hs, starts_string hs, starts_char hs]

/-- C88, values: a default value does not look mutable exactly when it is a number, a text between quotes, a word that is a value, or constructs a type
whose values never change. -/
theorem C88_value {u : Char → Bool} (isType isValue : Str → Bool) (v : Str) :
    looksMutable u isType isValue v = false ↔ Immutable isType isValue (strip v) := by
  have hp := patterns_iff (u := u) (strip_last v)
  unfold looksMutable
  simp only
  generalize strip v = s at hp ⊢
  by_cases h1 : isValue s = true
  · rw [if_pos h1]
    exact ⟨fun _ => .chosen h1, fun _ => rfl⟩
  rw [if_neg h1]
  by_cases h2 : patterns.any (fun r => matchesStart u r s) = true
  · rw [if_pos h2]
    refine ⟨fun _ => ?_, fun _ => rfl⟩
    rcases hp.1 h2 with h | h | h | h
    · exact .decimal h
    · exact .integer h
    · exact .quoted h
    · exact .char h
  rw [if_neg h2]
  have h2' := fun h => h2 (hp.2 h)
  by_cases h3 : s ∈ keywords
  · rw [if_pos h3]
    exact ⟨fun _ => .word ((mem_words s).1 h3), fun _ => rfl⟩
  rw [if_neg h3]
  have key : Immutable isType isValue s ↔ ∃ t, extractType s = some t ∧ (t ∈ baseTypes ∨ isType t = true) := by
    constructor
    · intro h
      cases h with
      | chosen h => exact absurd h h1
      | decimal h => exact absurd (.inl h) h2'
      | integer h => exact absurd (.inr (.inl h)) h2'
      | quoted h => exact absurd (.inr (.inr (.inl h))) h2'
      | char h => exact absurd (.inr (.inr (.inr h))) h2'
      | word h => exact absurd ((mem_words s).2 h) h3
      | type t h h' => exact ⟨t, extract_iff.2 h, h'.imp (mem_types t).2 id⟩
    · rintro ⟨t, h, h'⟩
      exact .type t (extract_iff.1 h) (h'.imp (mem_types t).1 id)
  rw [key]
  cases e : extractType s with
  | none => exact ⟨fun h => (by cases h), fun ⟨t, h, _⟩ => (by cases h)⟩
  | some t =>
    simp only
    by_cases h4 : t ∈ baseTypes
    · rw [if_pos h4]
      exact ⟨fun _ => ⟨t, rfl, .inl h4⟩, fun _ => rfl⟩
    · rw [if_neg h4]
      constructor
      · intro h
        exact ⟨t, rfl, .inr (by simpa using h)⟩
      · rintro ⟨t', e', h⟩
        rw [← Option.some.inj e'] at h
        simpa using h.resolve_left h4

example : looksMutable nou no no " -1.5e-3f ".toList = false :=
  (C88_value no no _).2 (.decimal ⟨['-'], "1.5".toList, "e-3".toList, "f".toList, .inr rfl,
    .dot ['1'] ['5'] ⟨by simp, by decide⟩ (by decide), .some 'e' ['-'] ['3'] (.inl rfl) (.inr (.inr rfl)) ⟨by simp, by decide⟩,
    .inr ⟨'f', by decide, rfl⟩, by decide +kernel⟩)

example : looksMutable nou no no "std::string(\"a\")".toList = false :=
  (C88_value no no _).2 (.type "std::string".toList (.paren "std::string".toList "\"a\")".toList (by decide) (by decide) (by decide)) (.inl (by decide +kernel)))

/-- C88, parameters: a parameter does not seem mutable exactly when its type is one whose values never change or its default value is immutable. -/
theorem C88_param {u : Char → Bool} (isType isValue : Str → Bool) (t v : Str) :
    seemsMutable u isType isValue t v = false ↔ t ∈ valueTypes ∨ isType t = true ∨ Immutable isType isValue (strip v) := by
  unfold seemsMutable
  by_cases h1 : t ∈ baseTypes
  · rw [if_pos h1]
    exact ⟨fun _ => .inl ((mem_types t).1 h1), fun _ => rfl⟩
  rw [if_neg h1]
  by_cases h2 : isType t = true
  · rw [if_pos h2]
    exact ⟨fun _ => .inr (.inl h2), fun _ => rfl⟩
  rw [if_neg h2, C88_value]
  exact ⟨fun h => .inr (.inr h), fun h => (h.resolve_left (fun h => h1 ((mem_types t).2 h))).resolve_left h2⟩

example : seemsMutable nou no no "std::vector<int>".toList "{}".toList = true := by decide +kernel

/-- C88, literals: the literals of C++ do not look mutable. -/
theorem C88_literal {u : Char → Bool} (isType isValue : Str → Bool) {v : Str}
    (h : Decimal (strip v) ∨ Integer (strip v) ∨ (∃ m, Inside m ∧ strip v = '"' :: (m ++ ['"']))) : looksMutable u isType isValue v = false := by
  rw [C88_value]
  rcases h with h | h | ⟨m, h, e⟩
  · exact .decimal h
  · exact .integer h
  · refine .quoted ⟨m, ?_, e⟩
    clear e
    induction h with
    | nil => simp
    | char c s _ _ h _ ih => exact fun hc => (List.mem_cons.1 hc).elim (fun e => h e.symm) ih
    | escape c s h _ ih =>
      intro hc
      rcases List.mem_cons.1 hc with e | hc
      · exact absurd e (by decide)
      · exact (List.mem_cons.1 hc).elim (fun e => h e.symm) ih

example : looksMutable nou no no "\"say \\\"hi\\\"\"".toList = false :=
  C88_literal no no (.inr (.inr ⟨"say \\\"hi\\\"".toList,
    .char _ _ (by decide) (by decide) (by decide) (.char _ _ (by decide) (by decide) (by decide) (.char _ _ (by decide) (by decide) (by decide)
      (.char _ _ (by decide) (by decide) (by decide) (.escape _ _ (by decide) (.char _ _ (by decide) (by decide) (by decide)
        (.char _ _ (by decide) (by decide) (by decide) (.escape _ _ (by decide) .nil))))))), by decide +kernel⟩))

/-- C88, digits in groups: an integer with a separator between two digits does not look mutable. -/
def C88_groups_statement : Prop := ∀ (u : Char → Bool) (a b : Str) (x y : Char), Integer (a ++ x :: y :: b) → Digit x → Digit y →
  looksMutable u (fun _ => false) (fun _ => false) (a ++ x :: '\'' :: y :: b) = false

/-- C88, digits in groups, fails: `1'000` looks mutable. -/
theorem C88_groups_fails : ¬ C88_groups_statement := by
  intro h
  have h1 := h nou [] "00".toList '1' '0' ⟨[], "1000".toList, [], .inl rfl, .dec '1' "000".toList (by decide) (by decide), by decide, rfl⟩ (by decide) (by decide)
  revert h1
  decide +kernel

/-- C88, texts between quotes: a value between quotes that does not look mutable is one string literal. -/
def C88_string_statement : Prop := ∀ (u : Char → Bool) (m : Str),
  looksMutable u (fun _ => false) (fun _ => false) ('"' :: (m ++ ['"'])) = false → Inside m

/-- C88, texts between quotes, fails: `"a" + names() + "b"` does not look mutable. -/
theorem C88_string_fails : ¬ C88_string_statement := by
  intro h
  have h1 := h nou "a\" + names() + \"b".toList (by decide +kernel)
  cases h1 with
  | char _ _ _ _ _ h1 =>
    cases h1 with
    | char _ _ h2 _ _ _ => exact h2 rfl

/-- C88, qualifiers: whether a parameter seems mutable does not depend on `const` before its type. -/
def C88_const_statement : Prop := ∀ (u : Char → Bool) (t v : Str),
  seemsMutable u (fun _ => false) (fun _ => false) ("const ".toList ++ t) v = seemsMutable u (fun _ => false) (fun _ => false) t v

/-- C88, qualifiers, fails: with `const int n = kCount` the parameter seems mutable, with `int n = kCount` it does not. -/
theorem C88_const_fails : ¬ C88_const_statement := by
  intro h
  have h1 := h nou "int".toList "kCount".toList
  revert h1
  decide +kernel

/-- C88, qualifiers: for a value that is immutable by itself, the type does not count. -/
theorem C88_const_partial {u : Char → Bool} (isType isValue : Str → Bool) {t t' v : Str} (h : Immutable isType isValue (strip v)) :
    seemsMutable u isType isValue t v = seemsMutable u isType isValue t' v :=
  ((C88_param isType isValue t v).2 (.inr (.inr h))).trans ((C88_param isType isValue t' v).2 (.inr (.inr h))).symm

example : Immutable no no (strip "0x1Fu".toList) :=
  .integer ⟨[], "0x1F".toList, ['u'], .inl rfl, .hex 'x' "1F".toList (.inl rfl) ⟨by decide, by
    decide +kernel⟩, by decide, by decide +kernel⟩

/-! ### Enumerations -/

theorem prefix_flat : ∀ p : List Str, Scope.strCppPrefix p = p.flatMap (fun x => x ++ [':', ':'])
  | [] => rfl
  | [x] => by simp [Scope.strCppPrefix, join, Scope.colons]
  | x :: y :: p => by
    have ih := prefix_flat (y :: p)
    rw [List.flatMap_cons, ← ih]
    simp [Scope.strCppPrefix, join, Scope.colons]

/-- C88, enumerations: an enumeration is reached by a name exactly when a scope around, followed by the name, is its whole name. -/
theorem C88_enum (scope : List Str) {t e : Str} (ht : t.head? ≠ some ':') : canAccess scope t e = true ↔ Reaches scope t e := by
  have hd : t.dropWhile (fun c => c == ':') = t := by
    cases t with
    | nil => rfl
    | cons c t =>
      have hc : (c == ':') = false := by
        cases h : c == ':' with
        | false => rfl
        | true => exact absurd (by rw [beq_iff_eq.1 h]; rfl) ht
      simp [List.dropWhile, hc]
  unfold canAccess
  simp only
  rw [hd, Scope.C21_hierarchy, List.any_eq_true]
  constructor
  · rintro ⟨p, hp, h⟩
    refine ⟨p, (Scope.mem_ancestors _ _).1 hp, ?_⟩
    rw [← beq_iff_eq.1 h, ← prefix_flat]
    rfl
  · rintro ⟨p, hp, h⟩
    refine ⟨p, (Scope.mem_ancestors _ _).2 hp, beq_iff_eq.2 ?_⟩
    rw [h, ← prefix_flat]
    rfl

/-- C88, enumerations: the parameter of a function of a scope does not seem mutable when its type names a known enumeration from there. -/
theorem C88_enum_param {u : Char → Bool} (enums : List Str) (scope : List Str) (isType isValue : Str → Bool) {t e : Str} (v : Str)
    (ht : t.head? ≠ some ':') (he : e ∈ enums) (h : Reaches scope t e) : seemsMutable u (immutableType enums scope isType) isValue t v = false := by
  rw [C88_param]
  refine .inr (.inl ?_)
  unfold immutableType
  rw [Bool.or_eq_true, List.any_eq_true]
  exact .inl ⟨e, he, (C88_enum scope ht).2 h⟩

example : seemsMutable nou (immutableType ["Ui::Color".toList] ["Ui".toList, "Window".toList] no) no "Color".toList "Color::Red".toList = false :=
  C88_enum_param _ _ no no _ (by decide) (List.mem_singleton.2 rfl) ⟨["Ui".toList], ⟨["Window".toList], rfl⟩, by decide +kernel⟩

/-- C88, global names: a name that begins with two colons reaches only the enumeration of the global scope. -/
def C88_global_statement : Prop := ∀ (scope : List Str) (t e : Str), canAccess scope (':' :: ':' :: t) e = true → e = t

/-- C88, global names, fails: in `Ui`, `::Color` reaches `Ui::Color`. -/
theorem C88_global_fails : ¬ C88_global_statement := by
  intro h
  have h1 := h ["Ui".toList] "Color".toList "Ui::Color".toList (by decide +kernel)
  revert h1
  decide +kernel

/-- C88, hidden names: when a class of a scope hides an enumeration of the scopes around, its name is not the one of the enumeration; `classes` are the whole
names of the classes. -/
def C88_hidden_statement : Prop := ∀ (u : Char → Bool) (enums classes : List Str) (scope : List Str) (t v : Str),
  (∃ c ∈ classes, c = scope.flatMap (fun x => x ++ [':', ':']) ++ t) → (∀ e ∈ enums, e ≠ scope.flatMap (fun x => x ++ [':', ':']) ++ t) →
  t ∉ valueTypes → ¬ Immutable (immutableType enums scope (fun _ => false)) (fun _ => false) (strip v) →
  seemsMutable u (immutableType enums scope (fun _ => false)) (fun _ => false) t v = true

/-- C88, hidden names, fails: in `Ui`, a parameter `Style s = kDefault` of the class `Ui::Style` is left shared when there is an enumeration `::Style`. -/
theorem C88_hidden_fails : ¬ C88_hidden_statement := by
  intro h
  have h1 := h nou ["Style".toList] ["Ui::Style".toList] ["Ui".toList] "Style".toList "kDefault".toList ⟨_, List.mem_singleton.2 rfl, by decide +kernel⟩
    (by decide +kernel) (by decide +kernel) (fun hi => by
      have := (C88_value (u := nou) _ _ "kDefault".toList).2 hi
      revert this
      decide +kernel)
  revert h1
  decide +kernel

end Verif.Mut.Props
