import Verif.Adapt.Scoping

/-! Names of unnamed parameters, excluded parameters. -/

namespace Verif.Adapt
open Verif.Py Verif.Type Spec

theorem nameParams_get (ps : List Param) (i : Nat) : (nameParams ps)[i]? = (ps[i]?).map (fun p => nameParam p i) := by
  unfold nameParams
  rw [List.getElem?_map, List.getElem?_zipIdx]
  cases ps[i]? <;> simp

theorem digits_inj {i j : Nat} (h : (toString i).toList = (toString j).toList) : i = j :=
  (itemName_inj (x := []) (y := []) (by unfold itemName; rw [h])).2

theorem shallExclude_iff (o : Options) (p : Param) : shallExclude o p = true ↔ Excluded o p := by
  unfold shallExclude Excluded HasDefault
  simp [List.length_pos_iff]

/-- No parameter has the name `n`, and no array will give one. -/
def Gone (n : Str) (ps : List Param) : Prop :=
  ∀ q ∈ ps, q.name ≠ n ∧ (q.arrayCode ≠ [] → ∀ i, n ≠ itemName q.name i)

theorem gone_shape {n : Str} {ps news : List Param} (h : Shape ps news) (hg : Gone n ps) : Gone n news := by
  intro q hq
  obtain ⟨p, hp, l, hok, hql⟩ := shape_mem h q hq
  obtain ⟨h1, h2⟩ := hg p hp
  refine ⟨?_, ?_⟩
  · rcases names_sub hok q hql with h3 | ⟨ha, i, h3⟩
    · rw [h3]; exact h1
    · rw [h3]; exact fun hc => h2 ha i hc.symm
  · intro ha i
    obtain ⟨h3, h4⟩ := hok.arrays q hql ha
    rw [h3]; exact h2 h4 i

theorem bufferNews_default {o : Options} {ps : List Param} {i : Nat} {p q : Param} (h : q ∈ bufferNews o ps i p) :
    q.name = p.name ∧ (HasDefault p → HasDefault q) ∧ q.arrayCode = p.arrayCode := by
  unfold bufferNews at h
  split at h
  · simp only [List.mem_singleton] at h
    subst h
    unfold bufferParam
    split
    · exact ⟨rfl, id, rfl⟩
    · exact ⟨rfl, id, rfl⟩
  · split at h
    · simp only [List.mem_singleton] at h
      subst h
      exact ⟨rfl, fun _ => by simp [HasDefault, strideParam], rfl⟩
    · split at h
      · simp at h
      · simp only [List.mem_singleton] at h
        subst h
        exact ⟨rfl, id, rfl⟩

/-- Every parameter named `n` has a default value, and no array gives a parameter named `n`. -/
def Hidden (n : Str) (ps : List Param) : Prop :=
  ∀ q ∈ ps, (q.name = n → HasDefault q) ∧ (q.arrayCode ≠ [] → ∀ i, n ≠ itemName q.name i)

theorem hidden_buffers {o : Options} {n : Str} {f : Fn} {a : Adapter} (h : adaptBuffers o f = .ok (some a))
    (hh : Hidden n f.params) : Hidden n a.newParams := by
  obtain ⟨_, _, l, hl, rfl⟩ := buffers_inv h
  intro q hq
  simp only [collect] at hq
  obtain ⟨y, hy, hqy⟩ := List.mem_flatMap.1 hq
  have hf := forall2_zipIdx_mem (R := fun p i y => bufferPiece o f.params i p = .ok y) f.params 0 l (bufferPieces_forall _ _ hl)
  obtain ⟨i, p, hp, hpiece⟩ := hf.1 y hy
  obtain ⟨_, _, _, _, rfl⟩ := bufferPiece_inv hpiece
  obtain ⟨h1, h2, h3⟩ := bufferNews_default hqy
  obtain ⟨h4, h5⟩ := hh p (List.mem_of_getElem? hp)
  rw [h1, h3]
  exact ⟨fun hc => h2 (h4 hc), h5⟩

theorem hidden_gone {o : Options} {n : Str} {ps : List Param} (hx : o.excludeName n = true) (hh : Hidden n ps) :
    Gone n (ps.flatMap (fun p => (excludePiece o p).news)) := by
  intro q hq
  obtain ⟨p, hp, hqp⟩ := List.mem_flatMap.1 hq
  unfold excludePiece at hqp
  split at hqp
  · simp at hqp
  · rename_i hns
    simp only [keep, List.mem_singleton] at hqp
    subst hqp
    obtain ⟨h1, h2⟩ := hh q hp
    refine ⟨?_, h2⟩
    intro hc
    apply hns
    rw [shallExclude_iff]
    exact ⟨.inl (hc ▸ hx), h1 hc⟩

theorem exclude_gone {o : Options} {n : Str} {f f1 : Fn} (hx : o.excludeName n = true) (hh : Hidden n f.params)
    (h : applyOne (adaptExclude o) f = .ok f1) : Gone n f1.params := by
  unfold applyOne adaptExclude at h
  by_cases hany : f.params.any (shallExclude o) = true
  · rw [if_pos hany] at h
    simp only [Except.ok.injEq] at h
    subst h
    have := hidden_gone hx hh
    simpa [applyAdapter, collect, List.flatMap_map] using this
  · rw [if_neg hany] at h
    simp only [Except.ok.injEq] at h
    subst h
    intro q hq
    obtain ⟨h1, h2⟩ := hh q hq
    refine ⟨?_, h2⟩
    intro hc
    apply hany
    rw [List.any_eq_true]
    refine ⟨q, hq, ?_⟩
    rw [shallExclude_iff]
    exact ⟨.inl (hc ▸ hx), h1 hc⟩

theorem applyOne_ok {g : Fn → Except Err (Option Adapter)} {f f' : Fn} (h : applyOne g f = .ok f') :
    f' = f ∨ ∃ a, g f = .ok (some a) ∧ f' = applyAdapter f a := by
  unfold applyOne at h
  split at h
  · simp at h
  · simp at h; exact .inl h.symm
  · rename_i a ha; simp at h; exact .inr ⟨a, ha, h.symm⟩

theorem applyAll_gone {o : Options} {n : Str} {f g : Fn} (hx : o.excludeName n = true) (hh : Hidden n f.params)
    (h : applyAll o f = .ok g) : Gone n g.params := by
  unfold applyAll at h
  split at h
  · simp at h
  · rename_i f' h2
    simp at h
    have key : Gone n f'.params := by
      rw [show adapters o = adaptBuffers o :: adaptExclude o :: (adapters o).tail.tail from rfl] at h2
      unfold applyList at h2
      split at h2
      · simp at h2
      · rename_i f1 h3
        have h4 : Hidden n f1.params := by
          rcases applyOne_ok h3 with rfl | ⟨a, ha, rfl⟩
          · exact hh
          · exact hidden_buffers ha hh
        unfold applyList at h2
        split at h2
        · simp at h2
        · rename_i f2 h5
          refine applyList_inv' (fun f => Gone n f.params) _ ?_ f2 f' (exclude_gone hx h4 h5) h2
          intro g hg f a hf ha
          exact gone_shape (adapters_shape (List.mem_of_mem_tail (List.mem_of_mem_tail hg)) ha) hf
    subst h
    unfold maybeForceLambda
    split
    · exact gone_shape (force_shape f') key
    · exact key

end Verif.Adapt
