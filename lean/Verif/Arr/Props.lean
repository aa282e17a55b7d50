import Verif.Arr.Lemmas

/-! C40: numeric types of arrays. -/

namespace Verif.Arr.Props
open Verif.Py Spec
open scoped List

theorem toCpp_mem {code t : Str} (h : toCpp code = some t) : (code, t) ∈ table := by
  unfold toCpp at h
  split at h
  · simp only [Option.map_eq_some_iff] at h
    obtain ⟨⟨k, v⟩, hx, rfl⟩ := h
    have := List.find?_some hx
    simp only [decide_eq_true_eq] at this
    subst this
    exact List.mem_of_find?_eq_some hx
  · simp at h

theorem toCode_mem {s code : Str} (h : toCode s = some code) : (code, dropConst (dropStar (strip s))) ∈ table := by
  unfold toCode at h
  simp only [Option.map_eq_some_iff] at h
  obtain ⟨⟨k, v⟩, hx, rfl⟩ := h
  have := List.find?_some hx
  simp only [decide_eq_true_eq] at this
  rw [← this]
  exact List.mem_of_find?_eq_some hx

theorem table_toCpp : ∀ x ∈ table, toCpp x.1 = some x.2 := by decide +kernel
theorem table_find : ∀ x ∈ table, (table.find? (fun y => y.2 = x.2)).map (·.1) = some x.1 := by decide +kernel

/-- C40: the code of a type is found whatever `const`, `*` and blanks decorate the type; in particular the two directions
of the table are inverse of each other. -/
theorem C40_decorated (code t s : Str) (h : toCpp code = some t) (hs : Decorated t s) : toCode s = some code := by
  have hm := toCpp_mem h
  unfold toCode
  rw [bare (table_base _ hm) hs]
  exact table_find _ hm

example : Decorated "long double".toList "  const  long double  *".toList ∧ toCpp "g".toList = some "long double".toList := by
  refine ⟨⟨"  ".toList, "const  ".toList, "  ".toList, ['*'], [], rfl, ?_, ?_, ?_, .inr ⟨" ".toList, ?_, rfl⟩, .inr rfl⟩, by decide +kernel⟩ <;>
    (intro c hc; revert c; decide +kernel)

/-- C40: converse. A code is found only for a text which contains the characters of the C++ type of that code, in order;
the types are distinct and the codes are distinct. -/
theorem C40_code_partial (s code : Str) (h : toCode s = some code) :
    ∃ t, toCpp code = some t ∧ t <+ s ∧ ∀ code', toCpp code' = some t → code' = code := by
  have hm := toCode_mem h
  refine ⟨_, table_toCpp _ hm, bare_sublist s, fun code' h' => ?_⟩
  have h1 := table_find _ (toCpp_mem h')
  have h2 := table_find _ hm
  rw [h2] at h1
  simpa using h1.symm

/-- C40, full statement for unsupported types: they are errors. -/
def C40_unsupported_statement : Prop := ∀ s code, toCode s = some code → ∃ t, toCpp code = some t ∧ Decorated t s

/-- It fails: every `const ` is removed, even inside a word. -/
theorem C40_unsupported_fails : ¬ C40_unsupported_statement := by
  intro h
  obtain ⟨t, ht, w₁, c, w₂, star, w₃, hs, h1, h2, h3, hc, hst⟩ := h "const flconst oat".toList "f".toList (by decide +kernel)
  have ht' : t = "float".toList := by
    have : toCpp "f".toList = some "float".toList := by decide +kernel
    rw [this] at ht
    simpa using ht.symm
  subst ht'
  have : contains "const flconst oat".toList "float".toList = true := by
    rw [contains_iff]
    exact ⟨w₁ ++ c, w₂ ++ star ++ w₃, by rw [hs]; simp⟩
  revert this
  decide +kernel

/-- C40: the codes mean the same types as in Python's documentation. -/
theorem C40_meaning (c : Char) : toCpp [c] = (meaning c).map String.toList := by
  unfold meaning
  split
  all_goals first | rfl | (decide +kernel) | skip
  unfold toCpp
  have : table.find? (fun x => x.1 = [c]) = none := by
    rw [List.find?_eq_none]
    intro x hx
    simp only [decide_eq_true_eq]
    intro hxc
    have hall : ∀ x ∈ table, x.1 ∈ ["B", "b", "H", "h", "I", "i", "L", "l", "f", "d", "g", "q"].map String.toList := by decide +kernel
    have := hall x hx
    rw [hxc] at this
    simp at this
    rcases this with h | h | h | h | h | h | h | h | h | h | h | h <;> contradiction
  rw [this]; rfl

/-- C40: every default buffer type has a code. -/
theorem C40_defaults : ∀ t ∈ defaultBufferTypes, ∃ code, toCode t = some code ∧ toCpp code = some t := by
  have h : ∀ t ∈ defaultBufferTypes, (toCode t).isSome = true ∧ (toCode t).bind toCpp = some t := by decide +kernel
  intro t ht
  obtain ⟨h1, h2⟩ := h t ht
  obtain ⟨code, hc⟩ := Option.isSome_iff_exists.1 h1
  exact ⟨code, hc, by simpa [hc] using h2⟩

/-- C40, full statement for the options: the types that the options accept have a code. -/
def C40_options_statement : Prop := ∀ t ∈ authorizedTypes, ∃ code, toCode t = some code

/-- It fails for `byte`. -/
theorem C40_options_fails : ¬ C40_options_statement := by
  intro h
  obtain ⟨code, hc⟩ := h "byte".toList (by decide +kernel)
  have : toCode "byte".toList = none := by decide +kernel
  rw [this] at hc
  simp at hc

/-- C40: `byte` is the only exception. -/
theorem C40_options_partial : ∀ t ∈ authorizedTypes, t ≠ "byte".toList → ∃ code, toCode t = some code := by
  have h : ∀ t ∈ authorizedTypes, t ≠ "byte".toList → (toCode t).isSome = true := by decide +kernel
  intro t ht hb
  exact Option.isSome_iff_exists.1 (h t ht hb)

/-- C40 for nanobind: the kind given to a type is `Float` for floating point types, `UInt` for unsigned types and `Int` for
the others. -/
theorem C40_nanobind (t code : Str) (h : nanobindCode t = some code) :
    (t ∈ floats → code = "Float".toList) ∧ (t ∉ floats → Unsigned t → code = "UInt".toList) ∧
    (t ∉ floats → ¬ Unsigned t → code = "Int".toList) ∧
    nanobindCodeText t = some ("static_cast<uint8_t>(nb::dlpack::dtype_code::".toList ++ code ++ ")".toList) := by
  have hm : (t, code) ∈ nanobindTable := by
    unfold nanobindCode at h
    simp only [Option.map_eq_some_iff] at h
    obtain ⟨⟨k, v⟩, hx, rfl⟩ := h
    have := List.find?_some hx
    simp only [decide_eq_true_eq] at this
    subst this
    exact List.mem_of_find?_eq_some hx
  have hall : ∀ x ∈ nanobindTable, (x.1 ∈ floats → x.2 = "Float".toList) ∧
      (x.1 ∉ floats → ("uint".toList.isPrefixOf x.1 = true ∨ "unsigned ".toList.isPrefixOf x.1 = true) → x.2 = "UInt".toList) ∧
      (x.1 ∉ floats → ¬ ("uint".toList.isPrefixOf x.1 = true ∨ "unsigned ".toList.isPrefixOf x.1 = true) → x.2 = "Int".toList) := by
    decide +kernel
  obtain ⟨h1, h2, h3⟩ := hall _ hm
  exact ⟨h1, h2, h3, by simp [nanobindCodeText, h]⟩

example : nanobindCode "unsigned long".toList = some "UInt".toList := by decide +kernel

/-- C40, full statement for nanobind: the default buffer types are known. -/
def C40_nanobind_defaults_statement : Prop := ∀ t ∈ defaultBufferTypes, ∃ code, nanobindCode t = some code

/-- It fails for `np_uint_l` and `np_int_l`: a buffer of this type raises an exception. -/
theorem C40_nanobind_defaults_fails : ¬ C40_nanobind_defaults_statement := by
  intro h
  obtain ⟨code, hc⟩ := h "np_uint_l".toList (by decide +kernel)
  have : nanobindCode "np_uint_l".toList = none := by decide +kernel
  rw [this] at hc
  simp at hc

/-- C40: these are the only exceptions. -/
theorem C40_nanobind_defaults_partial : ∀ t ∈ defaultBufferTypes, t ≠ "np_uint_l".toList → t ≠ "np_int_l".toList →
    ∃ code, nanobindCode t = some code := by
  have h : ∀ t ∈ defaultBufferTypes, t ≠ "np_uint_l".toList → t ≠ "np_int_l".toList → (nanobindCode t).isSome = true := by
    decide +kernel
  intro t ht h1 h2
  exact Option.isSome_iff_exists.1 (h t ht h1 h2)

end Verif.Arr.Props
