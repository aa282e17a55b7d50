/-! Python dictionaries, as association lists in insertion order. -/

namespace Verif.Py

/-- `d.get(k)` -/
def dictGet {K V : Type} [DecidableEq K] (d : List (K × V)) (k : K) : Option V :=
  match d with
  | [] => none
  | (a, v) :: d => if a = k then some v else dictGet d k

/-- `d[k] = v` -/
def dictSet {K V : Type} [DecidableEq K] (d : List (K × V)) (k : K) (v : V) : List (K × V) :=
  match d with
  | [] => [(k, v)]
  | (a, w) :: d => if a = k then (a, v) :: d else (a, w) :: dictSet d k v

variable {K V : Type} [DecidableEq K]

theorem dictGet_set (d : List (K × V)) (k k' : K) (v : V) :
    dictGet (dictSet d k v) k' = if k = k' then some v else dictGet d k' := by
  induction d with
  | nil => simp [dictSet, dictGet]
  | cons p d ih =>
    obtain ⟨a, w⟩ := p
    unfold dictSet
    by_cases h : a = k
    · subst h
      simp only [if_true]
      unfold dictGet
      by_cases h2 : a = k' <;> simp [h2]
    · rw [if_neg h]
      unfold dictGet
      rw [ih]
      by_cases h2 : a = k'
      · subst h2
        rw [if_pos rfl, if_pos rfl, if_neg (fun e => h e.symm)]
      · rw [if_neg h2, if_neg h2]

theorem dictGet_isSome_iff (d : List (K × V)) (k : K) : (∃ v, dictGet d k = some v) ↔ k ∈ d.map Prod.fst := by
  induction d with
  | nil => simp [dictGet]
  | cons p d ih =>
    obtain ⟨a, w⟩ := p
    unfold dictGet
    by_cases h : a = k
    · subst h; simp
    · rw [if_neg h, ih]; simp [Ne.symm h]

theorem dictSet_keys (d : List (K × V)) (k : K) (v : V) :
    (dictSet d k v).map Prod.fst = if k ∈ d.map Prod.fst then d.map Prod.fst else d.map Prod.fst ++ [k] := by
  induction d with
  | nil => simp [dictSet]
  | cons p d ih =>
    obtain ⟨a, w⟩ := p
    unfold dictSet
    by_cases h : a = k
    · subst h; simp
    · rw [if_neg h, List.map_cons, ih]
      by_cases h2 : k ∈ d.map Prod.fst
      · rw [if_pos h2, if_pos (by simp only [List.map_cons, List.mem_cons]; exact Or.inr h2)]
        rfl
      · rw [if_neg h2, if_neg (by simp only [List.map_cons, List.mem_cons, not_or]; exact ⟨fun e => h e.symm, h2⟩)]
        rfl

theorem dictSet_nodup (d : List (K × V)) (k : K) (v : V) (h : (d.map Prod.fst).Nodup) :
    ((dictSet d k v).map Prod.fst).Nodup := by
  rw [dictSet_keys]
  split
  · exact h
  · rename_i hk
    rw [List.nodup_append]
    refine ⟨h, by simp, ?_⟩
    intro a ha b hb
    simp at hb
    subst hb
    intro e
    exact hk (e ▸ ha)

end Verif.Py
