import Verif.ToPy.Macro
import Verif.ToPy.PropsNs
import Verif.Re.PropsType

/-! C86: the values in Python. -/

namespace Verif.ToPy.Props
open Verif.Py Verif.Re Verif.Inst Verif.Inst.Spec Verif.ToPy Verif.ToPy.Spec
open Verif.Scope (isWordChar)

/-- The standard replacements. -/
structure Standard (u : Char → Bool) (x : ValueCtx) : Prop where
  types : ∃ rs, Repl.fromString typeText = some rs ∧ x.typeRepl = Repl.apply (engine u) rs
  values : ∃ rs, Repl.fromString valueText = some rs ∧ x.valueRepl = Repl.apply (engine u) rs

/-- Nothing but the standard replacements, namespaces and macros. -/
structure Bare (x : ValueCtx) : Prop where
  scopes : x.scopes = []
  special : ∀ s, x.special s = none

/-- C86, the full statement: with the standard replacements alone, a value is translated piece by piece. -/
def C86_statement : Prop := ∀ u, SpaceApart u → ∀ x l, Standard u x → Bare x → x.macros = [] → x.namespaces = [] → x.roots = [] →
  Re.Spec.Lexed u l → Re.Spec.Calm l → valueToPython x (Re.Spec.vtext l) = Re.Spec.vtext (Re.Spec.pyValue l)

private def nou : Char → Bool := fun _ => false

/-- The standard options. -/
def plainCtx (macros : List (Str × Str)) (special : Str → Option Str) : ValueCtx :=
  ⟨Repl.apply (engine nou) typeList, Repl.apply (engine nou) valueList, macros, [], special, [], []⟩

private theorem plain_standard (macros : List (Str × Str)) (special : Str → Option Str) : Standard nou (plainCtx macros special) :=
  ⟨⟨_, from_type, rfl⟩, ⟨_, from_value, rfl⟩⟩

/-- `4 * 1024` -/
def product : List Re.Spec.VTok := [.num "4".toList [], .sep ' ', .sep '*', .sep ' ', .num "1024".toList []]

/-- C86 fails: a product loses its `*`, `4 * 1024` becomes `4  1024`. -/
theorem C86_fails : ¬ C86_statement := by
  intro h
  have h1 := h nou Re.Props.space_none (plainCtx [] (fun _ => none)) product (plain_standard _ _) ⟨rfl, fun _ => rfl⟩ rfl rfl rfl
    ⟨⟨"4".toList, [], [], by decide, (by unfold Re.Spec.Digits; decide), .inl rfl, .inl rfl, rfl⟩, by decide, ⟨fun _ _ e => (by cases e), fun _ _ _ e => (by cases e)⟩,
      fun _ e => (by cases e), fun _ e => (by cases e), rfl, fun e => absurd e (by decide), rfl, fun e => absurd e (by decide), rfl,
      fun e => absurd e (by decide),
      ⟨"1024".toList, [], [], by decide, (by unfold Re.Spec.Digits; decide), .inl rfl, .inl rfl, rfl⟩, by decide, ⟨fun _ _ e => (by cases e), fun _ _ _ e => (by cases e)⟩,
      fun _ e => (by cases e), fun _ e => (by cases e), trivial⟩
    ⟨by decide, by decide, by decide, trivial⟩
  revert h1
  decide +kernel

theorem still_of {u : Char → Bool} {s : Str} (h : NoType u s) : Still u [] s := by
  have hc := cut_spec u s
  have hw : ∀ w, .word w ∈ cut u s → w ∉ typeWords := fun w hm => h.words w ⟨_, hc, hm⟩
  refine ⟨fun w hm hb => hw w hm (List.mem_cons_of_mem _ hb), fun X v Y e => ?_, h.amp, h.star⟩
  exact absurd (List.mem_cons_self) (hw "std".toList (by rw [e]; exact List.mem_append_right _ (List.mem_append_left _ List.mem_cons_self)))

/-- The value is between braces. -/
def Braced (s : Str) : Prop := s.head? = some '{' ∧ s.getLast? = some '}'

theorem braces_not {s : Str} (h : ¬ Braced s) : braces s = s := by
  unfold braces
  rw [if_neg]
  intro e
  rw [Bool.and_eq_true] at e
  apply h
  constructor
  · unfold startsWith at e
    obtain ⟨t, ht⟩ := List.isPrefixOf_iff_prefix.1 e.1
    rw [← ht]; rfl
  · unfold endsWith at e
    obtain ⟨t, ht⟩ := List.isSuffixOf_iff_suffix.1 e.2
    rw [← ht, List.getLast?_concat]

/-- C86 (partial: values without words of types, `&` and `*`, not between braces, and without specialised templates). With the standard replacements, a
value is translated piece by piece, and then its namespaces. -/
theorem C86_partial {u : Char → Bool} (hu : SpaceApart u) {x : ValueCtx} {l : List Re.Spec.VTok} (hs : Standard u x) (hb : Bare x) (hm : x.macros = [])
    (hl : Re.Spec.Lexed u l) (hc : Re.Spec.Calm l) (ht : NoType u (Re.Spec.vtext l)) (hbr : ¬ Braced (Re.Spec.vtext (Re.Spec.pyValue l))) :
    valueToPython x (Re.Spec.vtext l) = nsOf x.namespaces x.roots (Re.Spec.vtext (Re.Spec.pyValue l)) := by
  obtain ⟨⟨rt, h1, h2⟩, ⟨rv, h3, h4⟩⟩ := hs
  rw [from_type] at h1
  rw [from_value] at h3
  cases h1
  cases h3
  have hsp : specialDefault x.special (Re.Spec.vtext l) = none := by
    unfold specialDefault
    split
    · rfl
    · dsimp only
      split
      · rfl
      · rw [hb.special]; rfl
  unfold valueToPython
  rw [hsp, h2, h4, hm, hb.scopes, apply_calm hu (still_of ht), apply_value hu ⟨hl, hc⟩]
  show nsOf _ _ (braces (Re.Spec.vtext (Re.Spec.pyValue l))) = _
  rw [braces_not hbr]

/-- The first value of C80, `ImRect(-1.5f, Cfg::MaxX, FLT_MAX)`. -/
theorem sample_noType : NoType nou (Re.Spec.vtext Re.Props.sample) := by
  refine ⟨fun w hw => ?_, by decide +kernel, by decide +kernel⟩
  obtain ⟨l, hl, hm⟩ := hw
  rw [cutOf_eq hl] at hm
  have : ∀ p ∈ cut nou (Re.Spec.vtext Re.Props.sample), (match p with | .word w => decide (w ∉ typeWords) | .sep _ => true) = true := by decide +kernel
  exact of_decide_eq_true (this _ hm)

theorem sample_braced : ¬ Braced (Re.Spec.vtext (Re.Spec.pyValue Re.Props.sample)) := fun h => absurd h.1 (by decide +kernel)

theorem sample_result : nsOf [] [] (Re.Spec.vtext (Re.Spec.pyValue Re.Props.sample)) = "ImRect(-1.5, Cfg.MaxX, sys.float_info.max)".toList := by
  decide +kernel

theorem sample_value : valueToPython (plainCtx [] (fun _ => none)) (Re.Spec.vtext Re.Props.sample) = "ImRect(-1.5, Cfg.MaxX, sys.float_info.max)".toList :=
  (C86_partial Re.Props.space_none (plain_standard _ _) ⟨rfl, fun _ => rfl⟩ rfl Re.Props.sample_lexed Re.Props.sample_calm sample_noType
    sample_braced).trans sample_result

/-! ### Macros -/

/-- C86, macros, the full statement: every word that is the name of a macro has its value, the other words are kept. -/
def C86_macro_statement : Prop := ∀ u ms s l, (∀ q ∈ ms, Ident u q.1 ∧ Cut u q.2) → CutOf u s l →
  putMacros (ms.map (fun q => (q.1, text q.2))) s = text (valued ms l)

/-- C86, macros, fails: with the macro `N` the name `MAX_N` becomes `MAX_3`. -/
theorem C86_macro_fails : ¬ C86_macro_statement := by
  intro h
  have h1 := h nou [("N".toList, [.word "3".toList])] "MAX_N".toList [.word "MAX_N".toList]
    (fun q hq => by
      rw [List.mem_singleton.1 hq]
      exact ⟨⟨by decide, by decide⟩, by decide, by decide, fun _ _ e => (by cases e), trivial⟩)
    ⟨⟨by decide, by decide, fun _ _ e => (by cases e), trivial⟩, rfl⟩
  revert h1
  decide +kernel

/-- C86, macros (partial: no name of a macro is inside a longer word of the text or of a value). Every word that is the name of a macro has its value,
all the rest is kept. -/
theorem C86_macro_partial {u : Char → Bool} {ms : List (Str × List Piece)} {s : Str} {l : List Piece} (hi : ∀ q ∈ ms, Ident u q.1 ∧ Cut u q.2) (hl : CutOf u s l)
    (hv : ∀ q ∈ ms, ∀ w, .word w ∈ q.2 → ∀ q' ∈ ms, ¬ q'.1 <:+: w) (hw : ∀ w, .word w ∈ l → ∀ q ∈ ms, q.1 <:+: w → w = q.1) :
    putMacros (ms.map (fun q => (q.1, text q.2))) s = text (valued ms l) := by
  rw [← hl.2]
  exact macros_all hl.1 hi hv hw

example : putMacros [("N".toList, "3".toList), ("EPS".toList, "0.5".toList)] "(N, EPS)".toList = "(3, 0.5)".toList :=
  C86_macro_partial (u := nou) (ms := [("N".toList, [.word "3".toList]), ("EPS".toList, [.word "0".toList, .sep '.', .word "5".toList])])
    (l := [.sep '(', .word "N".toList, .sep ',', .sep ' ', .word "EPS".toList, .sep ')'])
    (fun q hq => by
      rcases List.mem_cons.1 hq with rfl | hq
      · exact ⟨⟨by decide, by decide⟩, by decide, by decide, fun _ _ e => (by cases e), trivial⟩
      · rw [List.mem_singleton.1 hq]
        exact ⟨⟨by decide, by decide⟩, by decide, by decide, fun _ _ e => (by cases e), rfl, by decide, by decide, fun _ _ e => (by cases e), trivial⟩)
    ⟨⟨rfl, by decide, by decide, fun _ _ e => (by cases e), rfl, rfl, by decide, by decide, fun _ _ e => (by cases e), rfl, trivial⟩, rfl⟩
    (by
      intro q hq w hw q' hq'
      simp only [List.mem_cons, List.not_mem_nil, or_false] at hq hq'
      rcases hq with rfl | rfl <;> rcases hq' with rfl | rfl <;> simp only [List.mem_cons, List.not_mem_nil, or_false] at hw
      · rw [Piece.word.inj hw]; decide
      · rw [Piece.word.inj hw]; decide
      · rcases hw with hw | hw | hw
        · rw [Piece.word.inj hw]; decide
        · cases hw
        · rw [Piece.word.inj hw]; decide
      · rcases hw with hw | hw | hw
        · rw [Piece.word.inj hw]; decide
        · cases hw
        · rw [Piece.word.inj hw]; decide)
    (by
      intro w hw q hq
      simp only [List.mem_cons, List.not_mem_nil, or_false] at hq hw
      rcases hq with rfl | rfl <;> rcases hw with hw | hw | hw | hw | hw | hw <;> first | cases hw; done | (rw [Piece.word.inj hw]; decide))

/-! ### Braces and templates -/

/-- C86, braces: a value between braces tells what is between them. -/
theorem C86_braces (a : Str) : braces ('{' :: (a ++ ['}'])) =
    if strip a = [] then "initialized with default value".toList else "initialized with ".toList ++ a := by
  unfold braces
  have h1 : startsWith ('{' :: (a ++ ['}'])) ['{'] = true := rfl
  have h2 : endsWith ('{' :: (a ++ ['}'])) ['}'] = true := List.isSuffixOf_iff_suffix.2 ⟨'{' :: a, rfl⟩
  rw [h1, h2, if_pos (by decide)]
  simp only [List.drop_succ_cons, List.drop_zero, List.dropLast_concat]

/-- C86, templates: the parameters of a specialised template are translated, as those of a class. -/
def C86_template_statement : Prop := ∀ u, SpaceApart u → ∀ x, Standard u x → ∀ t n p, '<' ∈ t → '(' ∉ t → '{' ∉ t ++ p → '(' ∉ p → x.special t = some n →
  valueToPython x (t ++ '(' :: p ++ [')']) = n ++ '(' :: valueToPython x p ++ [')']

/-- C86, templates, fails: `Vec<float>(FLT_MAX)` becomes `Vec_float(FLT_MAX)`. -/
theorem C86_template_fails : ¬ C86_template_statement := by
  intro h
  have h1 := h nou Re.Props.space_none (plainCtx [] (fun s => if s = "Vec<float>".toList then some "Vec_float".toList else none)) (plain_standard _ _)
    "Vec<float>".toList "Vec_float".toList "FLT_MAX".toList (by decide) (by decide) (by decide) (by decide) (by decide +kernel)
  revert h1
  decide +kernel

end Verif.ToPy.Props
