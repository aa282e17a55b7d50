import Verif.Sig.Props
import Verif.Overload.Props

/-! C123: which overloads are dropped from a stub. -/

namespace Verif.Sig.Props
open Verif.Py Verif.Sig Verif.Sig.Spec

/-- An overloaded function with its lines in the stub, as `/repo/src/litgen/internal/stub_overload_dedup.py:10-62` sees it. -/
def element (o : Options) (x : Fn × List Str) : Overload.Elem :=
  ⟨some ⟨true, (signature o x.1).getD [], (pythonName o x.1).getD []⟩, x.2⟩

/-- A function whose text gives back its name and its parameters. -/
def Readable (o : Options) (f : Fn) : Prop := (∃ n, pythonName o f = some n ∧ '(' ∉ n) ∧ ∀ p ∈ f.params, Closed p

theorem same_of_signature (o : Options) (f g : Fn) (hf : Readable o f) (hg : Readable o g)
    (h : (signature o g).getD [] = (signature o f).getD []) : pythonName o g = pythonName o f ∧ g.params = f.params := by
  obtain ⟨⟨n, hn, h1⟩, hp⟩ := hf
  obtain ⟨⟨m, hm, h2⟩, hq⟩ := hg
  have hF : ∃ s, signature o f = some s := ⟨_, by unfold signature; rw [hn, Option.map_some]⟩
  have hG : ∃ s, signature o g = some s := ⟨_, by unfold signature; rw [hm, Option.map_some]⟩
  obtain ⟨s, hs⟩ := hF
  obtain ⟨t, ht⟩ := hG
  rw [hs, ht, Option.getD_some, Option.getD_some] at h
  subst h
  obtain ⟨e1, e2⟩ := C123_signature_partial o g f _ m n ht hs hm hn h2 h1 hq hp
  exact ⟨by rw [hm, hn, e1], e2⟩

/-- C123: every overload of a stub is represented by an overload that is kept, with the same Python name and the same parameters. -/
theorem C123_represented (o : Options) (l : List (Fn × List Str)) (hl : ∀ x ∈ l, Readable o x.1) (x : Fn × List Str) (hx : x ∈ l) :
    ∃ p ∈ Overload.dedupStubLines (l.map (element o)), ∃ y ∈ l, p.1 = element o y ∧
      pythonName o y.1 = pythonName o x.1 ∧ y.1.params = x.1.params := by
  obtain ⟨p, hp, g, hg, hs⟩ := Overload.Props.C31_represented (l.map (element o)) (element o x) _ (List.mem_map.2 ⟨x, hx, rfl⟩) rfl
  obtain ⟨i, hi, _⟩ := (Overload.Props.C31_kept_iff (l.map (element o)) p.1).1 ⟨p.2, hp⟩
  obtain ⟨y, hy, hye⟩ := List.mem_map.1 (List.mem_of_getElem? hi)
  refine ⟨p, hp, y, hy, hye.symm, ?_⟩
  rw [← hye] at hg
  have hg' : g = ⟨true, (signature o y.1).getD [], (pythonName o y.1).getD []⟩ := (Option.some.inj hg).symm
  rw [hg'] at hs
  exact same_of_signature o x.1 y.1 (hl x hx) (hl y hy) hs

/-- C123: an overload with the Python name and the parameters of an earlier overload is a duplicate (dropped by C31_refines). -/
theorem C123_duplicate (o : Options) (l : List (Fn × List Str)) (i j : Nat) (x y : Fn × List Str)
    (hij : i < j) (hi : l[i]? = some x) (hj : l[j]? = some y)
    (hn : pythonName o x.1 = pythonName o y.1) (hp : x.1.params = y.1.params) :
    Overload.Spec.isDuplicate ((l.map (element o)).take j) (element o y) = true := by
  unfold Overload.Spec.isDuplicate
  have hy : Overload.Spec.overloaded (element o y) = some ⟨true, (signature o y.1).getD [], (pythonName o y.1).getD []⟩ := rfl
  rw [hy, Option.any_some, List.any_eq_true]
  refine ⟨element o x, ?_, ?_⟩
  · apply List.mem_of_getElem? (i := i)
    rw [List.getElem?_take_of_lt hij, List.getElem?_map, hi, Option.map_some]
  · have hx : Overload.Spec.overloaded (element o x) = some ⟨true, (signature o x.1).getD [], (pythonName o x.1).getD []⟩ := rfl
    rw [hx, Option.any_some, C123_same o x.1 y.1 hn hp]
    exact decide_eq_true rfl

/-- The constructors with `int` and with `unsigned int`: one is kept. -/
example : Readable ⟨fun _ _ => none, id⟩ ⟨true, none, ['A'], [], ["self".toList, "x: int".toList]⟩ ∧
    (Overload.dedupStubLines ([(⟨true, none, ['A'], [], ["self".toList, "x: int".toList]⟩, [['a']]),
      (⟨true, none, ['A'], [], ["self".toList, "x: int".toList]⟩, [['b']])].map (element ⟨fun _ _ => none, id⟩))).length = 1 := by
  refine ⟨⟨⟨_, rfl, by decide +kernel⟩, ?_⟩, by decide +kernel⟩
  repeat rw [String.toList_ofList]
  simp [Closed, closedFrom]

end Verif.Sig.Props
