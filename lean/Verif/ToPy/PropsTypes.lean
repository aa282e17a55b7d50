import Verif.ToPy.Types
import Verif.ToPy.Call
import Verif.ToPy.PropsNs
import Verif.Re.PropsType

/-! C87: the whole translation of a type to Python. -/

namespace Verif.ToPy.Props
open Verif.Py Verif.Re Verif.Inst Verif.Inst.Spec Verif.ToPy Verif.ToPy.Spec
open Verif.Scope (isWordChar)

/-- The standard replacements, and no specialized template class for this type. -/
structure StandardTypes (u : Char → Bool) (x : Ctx) (s : Str) : Prop where
  types : ∃ rs, Repl.fromString typeText = some rs ∧ x.repl = Repl.apply (engine u) rs
  special : x.special s = none

/-- `v` is what the steps after the replacements must make of `r`: dots instead of `::`, one blank for white space and none after `Optional[`, the names of
the namespaces in Python, no names of the parameters of callables. -/
def Finishes (u : Char → Bool) (x : Ctx) (r v : Str) : Prop :=
  ∃ l, CutOf u (opened (Re.Spec.tidy (dotted r))) l ∧ Apart x.namespaces x.roots (scopeWords l) ∧
    Unnamed u (text (scopesMapped (pyScope x.namespaces x.roots) l)) v

/-- C87, the full statement: a type loses its qualifiers `static` and `constexpr`, is translated with the standard replacements, then finished. -/
def C87_statement : Prop := ∀ u, SpaceApart u → ∀ x s k r v, StandardTypes u x s → CutOf u s k → Re.Spec.Translates u (text (unqualified k)) r →
  Named u x.namespaces x.roots → Finishes u x r v → typeToPython u x s = .ok v

private def nou : Char → Bool := fun _ => false

/-- The standard options. -/
def typeCtx (nss : List (Str × Str)) (roots : List Str) : Ctx := ⟨Repl.apply (engine nou) typeList, fun _ => none, nss, roots⟩

private theorem typeCtx_standard (nss : List (Str × Str)) (roots : List Str) (s : Str) : StandardTypes nou (typeCtx nss roots) s := ⟨⟨_, from_type, rfl⟩, rfl⟩

private theorem electro : typeToPython nou (typeCtx [] []) "Electrostatic &".toList = .ok "Electro".toList := by decide +kernel

/-- C87 fails: a reference to the class `Electrostatic` is `Electro` in Python. -/
theorem C87_fails : ¬ C87_statement := by
  intro h
  have h1 := h nou Re.Props.space_none (typeCtx [] []) "Electrostatic &".toList [.word "Electrostatic".toList, .sep ' ', .sep '&'] "Electrostatic ".toList
    "Electrostatic".toList (typeCtx_standard _ _ _) ⟨⟨by decide, by decide, fun _ _ e => (by cases e), rfl, rfl, trivial⟩, rfl⟩
    (.flat [.word "Electrostatic".toList, .sep ' ', .sep '&'] (Re.Props.lexed_of (by decide +kernel)) (Re.Props.noHead_of (by decide +kernel)))
    ⟨fun _ hq => (by cases hq), fun _ hq => (by cases hq), fun _ hq => (by cases hq)⟩
    ⟨[.word "Electrostatic".toList], ⟨⟨by decide, by decide, fun _ _ e => (by cases e), trivial⟩, by decide +kernel⟩,
      ⟨fun _ hq => (by cases hq), fun _ hq => (by cases hq), fun _ hq => (by cases hq)⟩, .kept _ (by decide +kernel)⟩
  rw [electro] at h1
  revert h1
  decide

/-- C87 (partial: no word of the type ends with `static` or `constexpr`, but these words). A type loses its qualifiers `static` and `constexpr`, is
translated with the standard replacements (templates nested to any depth), then its scopes have dots, its white space is one blank, its namespaces have
their Python names, its callables have no names of parameters. -/
theorem C87_partial {u : Char → Bool} (hu : SpaceApart u) {x : Ctx} {s : Str} {k : List Piece} {r v : Str} (hx : StandardTypes u x s) (hk : CutOf u s k)
    (hw : ∀ q ∈ ["static".toList, "constexpr".toList], ∀ w, .word w ∈ k → q <:+ w → w = q) (ht : Re.Spec.Translates u (text (unqualified k)) r)
    (hn : Named u x.namespaces x.roots) (hf : Finishes u x r v) : typeToPython u x s = .ok v := by
  obtain ⟨l, hl, ha, hv⟩ := hf
  obtain ⟨rs, hrs, hr⟩ := hx.types
  rw [from_type] at hrs
  cases hrs
  have hb : isWordChar u ' ' = false := hu ' ' (by decide)
  have i1 : Ident u "static".toList := ⟨by decide, fun c hc => ascii_word (by revert c; decide)⟩
  have i2 : Ident u "constexpr".toList := ⟨by decide, fun c hc => ascii_word (by revert c; decide)⟩
  have e1 : replace s "static ".toList [] = text (without "static".toList k) := by
    rw [← hk.2]
    exact replace_without hb i1 hk.1 (hw _ List.mem_cons_self)
  have e2 : replace (text (without "static".toList k)) "constexpr ".toList [] = text (unqualified k) :=
    replace_without hb i2 (without_cut hk.1) (fun w h => hw _ (List.mem_cons_of_mem _ List.mem_cons_self) w (without_words h))
  unfold typeToPython
  simp only [hx.special, Option.getD_none]
  rw [e1, e2, hr, (translate_translates hu ht).1]
  have e3 : replace r "::".toList ".".toList = dotted r := replace_dots r
  show Except.ok _ = _
  rw [e3, TArgs.strip_squeeze]
  congr 1
  have e4 := C85_partial hn hl ha
  unfold nsOf opened Re.Spec.tidy at e4
  rw [e4]
  exact strip_unnamed hu hv

/-- `static const App::Widgets::Button &` -/
def sampleStatic : List Piece :=
  [.word "static".toList, .sep ' ', .word "const".toList, .sep ' ', .word "App".toList, .sep ':', .sep ':', .word "Widgets".toList, .sep ':', .sep ':',
   .word "Button".toList, .sep ' ', .sep '&']

def sampleFlat : List Re.Spec.TTok :=
  [.word "const".toList, .sep ' ', .word "App".toList, .sep ':', .sep ':', .word "Widgets".toList, .sep ':', .sep ':', .word "Button".toList, .sep ' ',
   .sep '&']

def sampleEnd : List Piece := [.word "App".toList, .sep '.', .word "Widgets".toList, .sep '.', .word "Button".toList]

def sampleNss : List (Str × Str) := [("Widgets".toList, "widgets".toList), ("Io".toList, "io".toList)]

/-- A type that meets the hypotheses: `static const App::Widgets::Button &` is `widgets.Button`. -/
example : typeToPython nou (typeCtx sampleNss ["App".toList]) (text sampleStatic) = .ok "widgets.Button".toList :=
  C87_partial Re.Props.space_none (typeCtx_standard _ _ _) (k := sampleStatic) (r := Re.Spec.pyFlat sampleFlat)
    ⟨⟨by decide, by decide, fun _ _ e => (by cases e), rfl, by decide, by decide, fun _ _ e => (by cases e), rfl, by decide, by decide,
      fun _ _ e => (by cases e), rfl, rfl, by decide, by decide, fun _ _ e => (by cases e), rfl, rfl, by decide, by decide, fun _ _ e => (by cases e), rfl, rfl,
      trivial⟩, rfl⟩
    (by
      intro q hq w hw
      simp only [sampleStatic, List.mem_cons, Piece.word.injEq, reduceCtorEq, List.not_mem_nil, or_false, false_or] at hw
      rcases List.mem_cons.1 hq with rfl | hq
      · rcases hw with rfl | rfl | rfl | rfl | rfl <;> decide +kernel
      · rw [List.mem_singleton.1 hq]
        rcases hw with rfl | rfl | rfl | rfl | rfl <;> decide +kernel)
    (by
      have e : text (unqualified sampleStatic) = Re.Spec.ttext sampleFlat := by decide +kernel
      rw [e]
      exact .flat sampleFlat (Re.Props.lexed_of (by decide +kernel)) (Re.Props.noHead_of (by decide +kernel)))
    sample_named
    ⟨sampleEnd, ⟨⟨by decide, by decide, fun _ _ e => (by cases e), rfl, by decide, by decide, fun _ _ e => (by cases e), rfl, by decide, by decide,
      fun _ _ e => (by cases e), trivial⟩, by decide +kernel⟩, ⟨by decide +kernel, by decide +kernel, by decide +kernel⟩,
      (by
        have e : text (scopesMapped (pyScope sampleNss ["App".toList]) sampleEnd) = "widgets.Button".toList := by decide +kernel
        show Unnamed nou (text (scopesMapped (pyScope sampleNss ["App".toList]) sampleEnd)) _
        rw [e]
        exact .kept _ (by decide +kernel))⟩

end Verif.ToPy.Props
