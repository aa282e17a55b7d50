import Verif.Arr.Props
import Verif.Py.StrLemmas

/-! C40: what `check_options_consistency` accepts. -/

namespace Verif.Arr
open Verif.Py

/-- `/repo/src/codemanip/code_utils.py:803-806` `split_string_by_pipe_char` -/
def bufferTypes (option : Str) : List Str := (splitOn '|' option).filter (fun x => decide (x.length > 0))

/-- `/repo/src/litgen/options.py:685-710` `check_options_consistency`: the type in the message of the `ValueError`, if it is raised. The text of
the message is not modelled. -/
def checkOptions (option : Str) : Option Str := (bufferTypes option).find? (fun t => decide (t ∉ authorizedTypes))

/-- `/repo/src/litgen/options.py:288-303`: the default value of `fn_params_buffer_types`. -/
def defaultOption : Str := join ['|'] defaultBufferTypes

end Verif.Arr

namespace Verif.Arr.Props
open Verif.Py Verif.Arr

/-- C40: types written with bars between them are the types of the option, in their order. -/
theorem C40_bars (types : List Str) (hb : ∀ t ∈ types, '|' ∉ t) (hn : ∀ t ∈ types, t ≠ []) : bufferTypes (join ['|'] types) = types := by
  unfold bufferTypes
  cases types with
  | nil => rfl
  | cons t ts =>
    rw [splitOn_join (by simp) hb]
    apply List.filter_eq_self.2
    intro x hx
    have := hn x hx
    simpa [List.length_pos_iff] using this

example : bufferTypes "uint8_t|float||double|".toList = ["uint8_t".toList, "float".toList, "double".toList] := by decide +kernel

/-- C40: options are accepted exactly when all their buffer types are authorised; else the first other type is named. -/
theorem C40_check (option : Str) :
    (checkOptions option = none ↔ ∀ t ∈ bufferTypes option, t ∈ authorizedTypes) ∧
    ∀ t, checkOptions option = some t ↔ ∃ before after, bufferTypes option = before ++ t :: after ∧ t ∉ authorizedTypes ∧
      ∀ x ∈ before, x ∈ authorizedTypes := by
  constructor
  · unfold checkOptions
    rw [List.find?_eq_none]
    simp only [decide_eq_true_eq, Classical.not_not]
  · intro t
    unfold checkOptions
    rw [List.find?_eq_some_iff_append]
    simp only [decide_eq_true_eq, Bool.not_eq_true', decide_eq_false_iff_not, Classical.not_not]
    constructor
    · rintro ⟨h, a, b, e, ha⟩
      exact ⟨a, b, e, h, ha⟩
    · rintro ⟨a, b, e, h, ha⟩
      exact ⟨h, a, b, e, ha⟩

/-- C40: `int` is refused, even after types that are accepted. -/
example : checkOptions "float|int|long".toList = some "int".toList := by decide +kernel

/-- C40: the default options, and every option obtained by removing types from them, are accepted, and all their types are converted. -/
theorem C40_removed (types : List Str) (h : types.Sublist defaultBufferTypes) :
    checkOptions (join ['|'] types) = none ∧ ∀ t ∈ bufferTypes (join ['|'] types), ∃ code, toCode t = some code ∧ toCpp code = some t := by
  have hd : ∀ t ∈ defaultBufferTypes, '|' ∉ t ∧ t ≠ [] ∧ t ∈ authorizedTypes := by decide +kernel
  have e := C40_bars types (fun t ht => (hd t (h.subset ht)).1) (fun t ht => (hd t (h.subset ht)).2.1)
  constructor
  · rw [(C40_check _).1, e]
    exact fun t ht => (hd t (h.subset ht)).2.2
  · rw [e]
    exact fun t ht => C40_defaults t (h.subset ht)

/-- C40: the default options are accepted; their types are the twelve types that have a letter, each once. -/
theorem C40_default_option : checkOptions defaultOption = none ∧ (bufferTypes defaultOption).Nodup ∧
    ∀ t, t ∈ bufferTypes defaultOption ↔ ∃ c, (Spec.meaning c).map String.toList = some t := by
  have hd : ∀ t ∈ defaultBufferTypes, '|' ∉ t ∧ t ≠ [] := by decide +kernel
  have e : bufferTypes defaultOption = defaultBufferTypes := C40_bars defaultBufferTypes (fun t ht => (hd t ht).1) (fun t ht => (hd t ht).2)
  refine ⟨(C40_removed defaultBufferTypes (List.Sublist.refl _)).1, by rw [e]; decide +kernel, fun t => ?_⟩
  rw [e]
  constructor
  · intro ht
    have hs : ∀ t ∈ defaultBufferTypes, ∃ x ∈ table, x.2 = t ∧ x.1.length = 1 := by decide +kernel
    obtain ⟨x, hx, rfl, hl⟩ := hs t ht
    obtain ⟨c, hc⟩ := List.length_eq_one_iff.1 hl
    exact ⟨c, by rw [← C40_meaning, ← hc]; exact table_toCpp x hx⟩
  · rintro ⟨c, hc⟩
    rw [← C40_meaning] at hc
    have hs : ∀ x ∈ table, x.2 ∈ defaultBufferTypes := by decide +kernel
    exact hs _ (toCpp_mem hc)

/-- C40: with options that are accepted, every buffer type has a code, except `byte`. -/
theorem C40_checked_partial (option : Str) (h : checkOptions option = none) (hb : "byte".toList ∉ bufferTypes option) :
    ∀ t ∈ bufferTypes option, ∃ code, toCode t = some code :=
  fun t ht => C40_options_partial t ((C40_check option).1.1 h t ht) (fun e => hb (e ▸ ht))

/-- The full statement. -/
def C40_checked_statement : Prop := ∀ option, checkOptions option = none → ∀ t ∈ bufferTypes option, ∃ code, toCode t = some code

theorem C40_checked_fails : ¬ C40_checked_statement := by
  intro h
  obtain ⟨code, hc⟩ := h "byte".toList (by decide +kernel) "byte".toList (by decide +kernel)
  have : toCode "byte".toList = none := by decide +kernel
  rw [this] at hc
  cases hc

end Verif.Arr.Props
