import Verif.ToPy.Call
import Verif.Re.PropsType

/-! C84: the names of the parameters of callables. -/

namespace Verif.ToPy.Props
open Verif.Py Verif.ToPy Verif.ToPy.Spec
open Verif.Scope (isWordChar)

/-- The brackets of a Python type match. -/
def brackets : Nat → Str → Bool
  | d, [] => d == 0
  | d, c :: s => if c = '[' then brackets (d + 1) s else if c = ']' then d != 0 && brackets (d - 1) s else brackets d s

/-- C84, the full statement: the parameter of a callable, of any Python type, loses its name; the type is kept. -/
def C84_statement : Prop := ∀ u t n r, brackets 0 t = true → ' ' ∉ t → t ≠ [] → Name u n →
  stripCallable u (callable ++ (t ++ ' ' :: n ++ ']' :: r)) = callable ++ (t ++ ']' :: r)

/-- C84 fails: the names after a type with brackets stay, `Callable[[List[int] values], None]`. -/
theorem C84_fails : ¬ C84_statement := by
  intro h
  have h1 := h (fun _ => false) "List[int]".toList "values".toList ", None]".toList (by decide +kernel) (by decide) (by decide)
    ⟨'v', "alues".toList, rfl, .inl ⟨by decide, by decide⟩, by decide⟩
  revert h1
  decide +kernel

/-- C84 (partial: types without commas and brackets, and no unnamed parameter whose type ends with a separate word). In any text, with any number of
callables, every parameter of a callable loses its name; its type, the result types and all the rest of the text are kept. -/
theorem C84_partial {u : Char → Bool} (hu : ∀ c, isSpace c = true → isWordChar u c = false) {s r : Str} (h : Unnamed u s r) : stripCallable u s = r :=
  strip_unnamed hu h

/-- C84, texts without callables: they are kept. -/
theorem C84_kept {u : Char → Bool} {s : Str} (h : ¬ callable <:+: s) : stripCallable u s = s := strip_kept h

/-- C84, types without a name: an unnamed parameter keeps its type. -/
def C84_type_statement : Prop := ∀ u (p : Param) r, p.name = none → p.type ≠ [] → (∀ t ∈ p.type, Token t) →
  stripCallable u (callable ++ (p.text ++ ']' :: r)) = callable ++ (p.text ++ ']' :: r)

/-- C84, types without a name, fails: the type `unsigned char` loses its last word. -/
theorem C84_type_fails : ¬ C84_type_statement := by
  intro h
  have h1 := h (fun _ => false) ⟨["unsigned".toList, "char".toList], none⟩ ", None]".toList rfl (by decide) (by unfold Token; decide +kernel)
  revert h1
  decide +kernel

/-- A type that meets the hypotheses: `Optional[Callable[[int line, Style], None]]`. -/
theorem sample_unnamed : Unnamed (fun _ => false) "Optional[Callable[[int line, Style], None]]".toList "Optional[Callable[[int, Style], None]]".toList :=
  .callable "Optional[".toList [⟨["int".toList], some "line".toList⟩, ⟨["Style".toList], none⟩] ", None]]".toList ", None]]".toList
    (by decide +kernel)
    (by
      intro p hp
      rcases List.mem_cons.1 hp with rfl | hp
      · exact ⟨by decide, fun t ht => by rw [List.mem_singleton.1 ht]; exact ⟨by decide, by decide⟩,
          fun n hn => by cases hn; exact ⟨'l', "ine".toList, rfl, .inl ⟨by decide, by decide⟩, by decide⟩, fun e => (by cases e)⟩
      · rw [List.mem_singleton.1 hp]
        exact ⟨by decide, fun t ht => by rw [List.mem_singleton.1 ht]; exact ⟨by decide, by decide⟩, fun n hn => (by cases hn), fun _ => .inl rfl⟩)
    (.kept _ (by decide +kernel))

example : stripCallable (fun _ => false) "Optional[Callable[[int line, Style], None]]".toList = "Optional[Callable[[int, Style], None]]".toList :=
  C84_partial Re.Props.space_none sample_unnamed

end Verif.ToPy.Props
