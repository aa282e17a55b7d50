import Verif.Overload.Lemmas

/-! C31: de-duplication of overloads in stubs. C32: grouping of overloads. -/

namespace Verif.Overload.Props
open Verif.Py Spec

/-! ### C31 -/

/-- C31: what is kept is, in order, every element that is not overloaded and the first overloaded function of each
signature; the lines are the lines of the element, without `@overload` if no other declaration of the name is kept. -/
theorem C31_refines (l : List Elem) :
    dedupStubLines l = (kept l).map (fun e => (e, expectedLines (kept l) e)) := dedup_eq l

/-- C31: an element is kept if it is at some place before which no overloaded function has its signature. -/
theorem C31_kept_iff (l : List Elem) (e : Elem) :
    (∃ ls, (e, ls) ∈ dedupStubLines l) ↔
      ∃ i, l[i]? = some e ∧ ∀ f g e', overloaded e = some f → e' ∈ l.take i → overloaded e' = some g → g.signature ≠ f.signature := by
  rw [dedup_eq]
  constructor
  · rintro ⟨ls, h⟩
    obtain ⟨x, hx, heq⟩ := List.mem_map.1 h
    simp only [Prod.mk.injEq] at heq
    rw [← heq.1]
    obtain ⟨i, h1, h2⟩ := kept_mem.1 hx
    refine ⟨i, h1, ?_⟩
    intro f g e' hf he' hg hs
    unfold isDuplicate at h2
    rw [hf] at h2
    simp only [Option.any_some, List.any_eq_false] at h2
    exact h2 e' he' (by rw [hg]; simp [hs])
  · rintro ⟨i, h1, h2⟩
    refine ⟨_, List.mem_map.2 ⟨e, kept_mem.2 ⟨i, h1, ?_⟩, rfl⟩⟩
    unfold isDuplicate
    cases hf : overloaded e with
    | none => rfl
    | some f =>
      rw [Option.any_some, List.any_eq_false]
      intro e' he'
      cases hg : overloaded e' with
      | none => simp
      | some g => simpa using h2 f g e' hf he' hg

/-- C31: the order is preserved. -/
theorem C31_order (l : List Elem) : ((dedupStubLines l).map Prod.fst).Sublist l := by
  rw [dedup_eq, List.map_map]
  have : (Prod.fst ∘ fun e => (e, expectedLines (kept l) e)) = id := rfl
  rw [this, List.map_id]
  exact kept_sublist l

/-- C31: two kept overloaded functions have different signatures. -/
theorem C31_distinct (l : List Elem) : (dedupStubLines l).Pairwise (fun a b =>
    ∀ f g, overloaded a.1 = some f → overloaded b.1 = some g → f.signature ≠ g.signature) := by
  rw [dedup_eq, List.pairwise_map]
  unfold kept
  rw [List.pairwise_map]
  have hp : l.zipIdx.Pairwise (fun a b : Elem × Nat => a.2 < b.2) := by
    rw [List.pairwise_iff_getElem]
    intro i j hi hj hij
    simpa using hij
  have hp' := hp.filter (fun p => ! isDuplicate (l.take p.2) p.1)
  refine List.Pairwise.imp_of_mem ?_ hp'
  rintro ⟨a, i⟩ ⟨b, j⟩ ha hb hij f g hf hg heq
  simp only [] at hf hg hij
  obtain ⟨hb1, hb2⟩ := List.mem_filter.1 hb
  have ha1 := List.mk_mem_zipIdx_iff_getElem?.1 (List.mem_filter.1 ha).1
  simp only [Bool.not_eq_true'] at hb2
  unfold isDuplicate at hb2
  rw [hg, Option.any_some, List.any_eq_false] at hb2
  apply hb2 a
  · rw [List.mem_iff_getElem?]
    exact ⟨i, by rw [List.getElem?_take_of_lt hij]; exact ha1⟩
  · rw [hf]; simp [heq]

/-- C31: if every overloaded function prints at most one declaration, with its decorator, then after de-duplication a
name has as many decorators as it has declarations if it has at least two, and none otherwise. -/
theorem C31_decorators_partial (l : List Elem) (h : ∀ e ∈ l, ∀ f, overloaded e = some f → hasContent e.stubLines = true →
    decorators e.stubLines = 1) (n : Str) :
    (((dedupStubLines l).filter (fun p => (overloaded p.1).any (fun f => f.pyName = n))).map (fun p => decorators p.2)).sum =
      if 2 ≤ declarations n ((dedupStubLines l).map Prod.fst) then declarations n ((dedupStubLines l).map Prod.fst) else 0 := by
  have hk : (dedupStubLines l).map Prod.fst = kept l := by
    rw [dedup_eq, List.map_map]
    have : (Prod.fst ∘ fun e => (e, expectedLines (kept l) e)) = id := rfl
    rw [this, List.map_id]
  rw [hk, dedup_eq]
  have hall : ∀ e ∈ kept l, ∀ f, overloaded e = some f → hasContent e.stubLines = true → decorators e.stubLines = 1 :=
    fun e he => h e ((kept_sublist l).subset he)
  generalize hK : kept l = K at *
  have key : ∀ M : List Elem, (∀ e ∈ M, e ∈ K) →
      (((M.map (fun e => (e, expectedLines K e))).filter (fun p => (overloaded p.1).any (fun f => f.pyName = n))).map
        (fun p => decorators p.2)).sum = if 2 ≤ declarations n K then declarations n M else 0 := by
    intro M
    induction M with
    | nil => intro _; have : declarations n [] = 0 := rfl; rw [this]; split <;> rfl
    | cons e M ih =>
      intro hM
      have ih' := ih (fun x hx => hM x (by simp [hx]))
      rw [List.map_cons]
      cases ho : overloaded e with
      | none =>
        rw [List.filter_cons_of_neg (by simp [ho]), ih']
        have : declarations n (e :: M) = declarations n M := by
          unfold declarations; rw [List.filter_cons_of_neg (by simp [ho])]
        rw [this]
      | some f =>
        by_cases hn : f.pyName = n
        · rw [List.filter_cons_of_pos (by simp [ho, hn]), List.map_cons, List.sum_cons, ih']
          subst hn
          simp only []
          have hx : expectedLines K e = if declarations f.pyName K ≤ 1 then
              e.stubLines.filter (fun l => strip l ≠ overloadLine) else e.stubLines := by
            unfold expectedLines; rw [ho]; simp
          cases hc : hasContent e.stubLines with
          | true =>
            have hd : declarations f.pyName (e :: M) = declarations f.pyName M + 1 := by
              unfold declarations; rw [List.filter_cons_of_pos (by simp [ho, hc])]; rfl
            rw [hx, hd]
            by_cases h2 : 2 ≤ declarations f.pyName K
            · rw [if_neg (by omega), if_pos h2, if_pos h2, hall e (hM e (by simp)) f ho hc]; omega
            · rw [if_pos (by omega), if_neg h2, if_neg h2, decorators_filter]
          | false =>
            have hd : declarations f.pyName (e :: M) = declarations f.pyName M := by
              unfold declarations; rw [List.filter_cons_of_neg (by simp [hc])]
            rw [hd]
            have : decorators (expectedLines K e) = 0 := by
              rw [hx]
              split
              · exact decorators_filter _
              · exact decorators_blank hc
            rw [this, Nat.zero_add]
        · rw [List.filter_cons_of_neg (by simp [ho, hn]), ih']
          have : declarations n (e :: M) = declarations n M := by
            unfold declarations; rw [List.filter_cons_of_neg (by simp [ho, hn])]
          rw [this]
  exact key K (fun _ h => h)

def fInt : Elem := ⟨some ⟨true, "f(x: int)".toList, "f".toList⟩, ["@overload".toList, "def f(x: int):".toList, "    pass".toList]⟩
def fUnsigned : Elem := fInt
def fFloat : Elem := ⟨some ⟨true, "f(x: float)".toList, "f".toList⟩, ["@overload".toList, "def f(x: float):".toList, "    pass".toList]⟩
def gAny : Elem := ⟨some ⟨false, "g()".toList, "g".toList⟩, ["def g():".toList, "    pass".toList]⟩

example : dedupStubLines [fInt, gAny, fUnsigned] =
    [(fInt, ["def f(x: int):".toList, "    pass".toList]), (gAny, gAny.stubLines)] := by decide +kernel

example : (dedupStubLines [fInt, gAny, fUnsigned, fFloat]).map Prod.snd =
    [fInt.stubLines, gAny.stubLines, fFloat.stubLines] := by decide +kernel

example : ∀ e ∈ [fInt, gAny, fUnsigned, fFloat], ∀ f, overloaded e = some f → hasContent e.stubLines = true →
    decorators e.stubLines = 1 := by decide +kernel

/-- A vectorized function prints two declarations (`adapted_function.py:1141-1144`), both with a decorator. -/
def fVectorized : Elem := ⟨some ⟨true, "f(x: int)".toList, "f".toList⟩,
  ["@overload".toList, "def f(x: int) -> int:".toList, "    pass".toList,
   "@overload".toList, "def f(x: np.ndarray) -> np.ndarray:".toList, "    pass".toList]⟩

/-- C31, in full: a name that is declared at least twice in the result keeps its decorators. -/
def C31_decorators_statement : Prop :=
  ∀ (l : List Elem) (e : Elem) (ls : List Str), (e, ls) ∈ dedupStubLines l → 2 ≤ (ls.filter (fun x => startsWith x "def f(".toList)).length →
    decorators ls = decorators e.stubLines

/-- C31 fails for functions that print several declarations: `f(int)` and `f(unsigned)`, both vectorized, leave two
declarations of `f` without a decorator. -/
theorem C31_decorators_fails : ¬ C31_decorators_statement := by
  intro h
  have := h [fVectorized, fVectorized] fVectorized
    ["def f(x: int) -> int:".toList, "    pass".toList, "def f(x: np.ndarray) -> np.ndarray:".toList, "    pass".toList]
    (by decide +kernel) (by decide +kernel)
  revert this
  decide +kernel

/-- C31: every overloaded function of the input is represented by a kept one with its signature. -/
theorem C31_represented (l : List Elem) (e : Elem) (f : Fn) (he : e ∈ l) (ho : overloaded e = some f) :
    ∃ p ∈ dedupStubLines l, ∃ g, overloaded p.1 = some g ∧ g.signature = f.signature := by
  obtain ⟨i, hi⟩ := List.mem_iff_getElem?.1 he
  obtain ⟨e', h1, g, h2, h3⟩ := kept_represents l i e f hi ho
  rw [dedup_eq]
  exact ⟨_, List.mem_map.2 ⟨e', h1, rfl⟩, g, h2, h3⟩

/-- C31: but the representative may print nothing. A function template that is not instantiated prints nothing, and
hides a later function with the same signature: that function is lost. -/
theorem C31_hidden_fails :
    ¬ ∀ (l : List Elem) (e : Elem), e ∈ l → hasContent e.stubLines = true → ∀ f, overloaded e = some f →
      ∃ p ∈ dedupStubLines l, hasContent p.2 = true ∧ ∃ g, overloaded p.1 = some g ∧ g.signature = f.signature := by
  intro h
  have := h [⟨fInt.fn, []⟩, fInt] fInt (by decide +kernel) (by decide +kernel) ⟨true, "f(x: int)".toList, "f".toList⟩ rfl
  revert this
  decide +kernel

/-! ### C32 -/

/-- C32: grouping never fails, and replaces each first occurrence by all the functions of its name. -/
theorem C32_refines {α : Type} (key : α → Option Str) (l : List α) :
    groupOverloaded key l = some (grouped key l) := groupOverloaded_eq key l

/-- C32: the result is a permutation of the elements. -/
theorem C32_permutation {α : Type} (key : α → Option Str) (l r : List α) (h : groupOverloaded key l = some r) :
    r.Perm l := by
  rw [groupOverloaded_eq] at h
  simp only [Option.some.injEq] at h
  rw [← h]
  exact grouped_perm key l.length l (Nat.le_refl _)

/-- C32: all functions of a name are next to each other, in their original order. -/
theorem C32_adjacent {α : Type} (key : α → Option Str) (l r : List α) (h : groupOverloaded key l = some r) (n : Str) :
    l.filter (fun e => key e = some n) <:+: r := by
  rw [groupOverloaded_eq] at h
  simp only [Option.some.injEq] at h
  rw [← h]
  exact grouped_adjacent key l n

/-- C32: the other elements keep their order. -/
theorem C32_others {α : Type} (key : α → Option Str) (l r : List α) (h : groupOverloaded key l = some r) :
    r.filter (fun e => key e = none) = l.filter (fun e => key e = none) := by
  rw [groupOverloaded_eq] at h
  simp only [Option.some.injEq] at h
  rw [← h]
  exact grouped_others key l.length l (Nat.le_refl _)

/-- C32: first occurrences and other elements keep their order relative to each other. -/
theorem C32_firsts {α : Type} (key : α → Option Str) (l r : List α) (h : groupOverloaded key l = some r) :
    (firsts key [] l).Sublist r := by
  rw [groupOverloaded_eq] at h
  simp only [Option.some.injEq] at h
  rw [← h]
  exact firsts_sublist_grouped key l

/-- C32: nothing moves if the functions of each name are already adjacent. -/
theorem C32_unchanged {α : Type} (key : α → Option Str) (l : List α)
    (h : ∀ n, l.filter (fun e => key e = some n) <:+: l) : groupOverloaded key l = some l := by
  rw [groupOverloaded_eq, grouped_of_adjacent key l.length l (Nat.le_refl _) h]

/-- C32: grouping twice is grouping once. -/
theorem C32_idempotent {α : Type} (key : α → Option Str) (l r : List α) (h : groupOverloaded key l = some r) :
    groupOverloaded key r = some r := by
  apply C32_unchanged
  intro n
  have h1 := C32_adjacent key l r h n
  have hp := (C32_permutation key l r h).filter (fun e => decide (key e = some n))
  obtain ⟨a, b, hab⟩ := h1
  -- the functions of the name in `r` are those of the block
  have hlen := hp.length_eq
  have e1 : (l.filter (fun e => decide (key e = some n))).filter (fun e => decide (key e = some n)) =
      l.filter (fun e => decide (key e = some n)) := by rw [List.filter_filter]; simp
  have e2 : r.filter (fun e => decide (key e = some n)) = a.filter (fun e => decide (key e = some n)) ++
      l.filter (fun e => decide (key e = some n)) ++ b.filter (fun e => decide (key e = some n)) := by
    conv => lhs; rw [← hab]
    rw [List.filter_append, List.filter_append, e1]
  rw [e2] at hlen
  simp only [List.length_append] at hlen
  have ha : a.filter (fun e => decide (key e = some n)) = [] := List.length_eq_zero_iff.1 (by omega)
  have hb : b.filter (fun e => decide (key e = some n)) = [] := List.length_eq_zero_iff.1 (by omega)
  rw [e2, ha, hb, List.nil_append, List.append_nil]
  exact ⟨a, b, hab⟩

/-- An interleaving: `*(double)`, a comment, `+(Point)`, `*(Point)`, `f`, `+(int)`. -/
def exampleKey (x : Nat × Str) : Option Str := if x.2 = [] then none else some x.2

example : groupOverloaded exampleKey
    [(0, "*".toList), (1, []), (2, "+".toList), (3, "*".toList), (4, []), (5, "+".toList), (6, "*".toList)] =
    some [(0, "*".toList), (3, "*".toList), (6, "*".toList), (1, []), (2, "+".toList), (5, "+".toList), (4, [])] := by
  decide +kernel

example : ∀ n ∈ ["*".toList, "+".toList, "f".toList],
    [(0, "*".toList), (3, "*".toList), (1, [])].filter (fun e => exampleKey e = some n) <:+:
      [(0, "*".toList), (3, "*".toList), (1, [])] := by
  intro n hn
  rcases List.mem_cons.1 hn with rfl | hn
  · exact ⟨[], [(1, [])], by decide +kernel⟩
  · rcases List.mem_cons.1 hn with rfl | hn
    · exact ⟨[], [(0, "*".toList), (3, "*".toList), (1, [])], by decide +kernel⟩
    · rcases List.mem_cons.1 hn with rfl | hn
      · exact ⟨[], [(0, "*".toList), (3, "*".toList), (1, [])], by decide +kernel⟩
      · simp at hn

end Verif.Overload.Props
