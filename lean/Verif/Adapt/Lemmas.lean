import Verif.Adapt.Spec
import Mathlib.Data.List.Forall2

namespace Verif.Adapt
open Verif.Py Verif.Type Spec

/-! ### Number of arguments -/

theorem flatMap_len_one {α β : Type} (l : List α) (g : α → List β) (h : ∀ a ∈ l, (g a).length = 1) :
    (l.flatMap g).length = l.length := by
  induction l with
  | nil => rfl
  | cons a r ih =>
    rw [List.flatMap_cons, List.length_append, h a List.mem_cons_self, ih (fun b hb => h b (List.mem_cons_of_mem a hb))]
    simp; omega

theorem collect_len (s : Str) (v : Bool) (ps : List Param) (g : Param → Piece) (h : ∀ p ∈ ps, (g p).args.length = 1) :
    (collect s v (ps.map g)).args.length = ps.length := by
  unfold collect
  simp only
  rw [flatMap_len_one _ _ (by
    intro a ha
    obtain ⟨p, hp, rfl⟩ := List.mem_map.1 ha
    exact h p hp), List.length_map]

theorem keep_len (p : Param) : (keep p).args.length = 1 := rfl

theorem excludePiece_len (o : Options) (p : Param) : (excludePiece o p).args.length = 1 := by
  unfold excludePiece; split <;> rfl

theorem mutablePiece_len (o : Options) (p : Param) : (mutablePiece o p).args.length = 1 := by
  unfold mutablePiece; split <;> rfl

theorem arrayPiece_len (o : Options) (f : Fn) (p : Param) : (arrayPiece o f p).args.length = 1 := by
  unfold arrayPiece
  split
  · rfl
  · split
    · rfl
    · split <;> rfl

theorem constCharPiece_len (p : Param) : (constCharPiece p).args.length = 1 := by
  unfold constCharPiece; split <;> rfl

theorem returnedArrayPiece_len (o : Options) (p : Param) : (returnedArrayPiece o p).args.length = 1 := by
  unfold returnedArrayPiece; split <;> rfl

theorem toReturnPiece_len (o : Options) (p : Param) : (toReturnPiece o p).args.length = 1 := by
  unfold toReturnPiece
  split
  · rfl
  · split
    · exact returnedArrayPiece_len o p
    · rfl

theorem boxedPiece_len (o : Options) (p : Param) : (boxedPiece o p).args.length = 1 := by
  unfold boxedPiece; split <;> rfl

theorem stringListNoCountPiece_len (p : Param) : (stringListNoCountPiece p).args.length = 1 := by
  unfold stringListNoCountPiece; split <;> rfl

/-! ### Inversion of the adapters -/

theorem ok_bind {α β : Type} {x : Except Err α} {g : α → Except Err β} {b : β} (h : (x >>= g) = .ok b) :
    ∃ a, x = .ok a ∧ g a = .ok b := by
  cases x with
  | error e => simp [bind, Except.bind] at h
  | ok a => exact ⟨a, rfl, h⟩

theorem exclude_inv {o : Options} {f : Fn} {a : Adapter} (h : adaptExclude o f = .ok (some a)) :
    a = collect "_adapt_exclude_params".toList f.isVoid (f.params.map (excludePiece o)) := by
  unfold adaptExclude at h
  split at h <;> simp at h
  exact h.symm

theorem mutable_inv {o : Options} {f : Fn} {a : Adapter} (h : adaptMutable o f = .ok (some a)) :
    a = collect "_adapt_mutable_param_with_default_value".toList f.isVoid (f.params.map (mutablePiece o)) := by
  unfold adaptMutable at h
  split at h <;> simp at h
  exact h.symm

theorem arrays_inv {o : Options} {f : Fn} {a : Adapter} (h : adaptArrays o f = .ok (some a)) :
    a = collect "_adapt_fixed_size_c_arrays".toList f.isVoid (f.params.map (arrayPiece o f)) := by
  unfold adaptArrays at h
  split at h <;> simp at h
  exact h.symm

theorem constChar_inv {o : Options} {f : Fn} {a : Adapter} (h : adaptConstChar o f = .ok (some a)) :
    a = collect "_adapt_const_char_pointer_with_default_null".toList f.isVoid (f.params.map constCharPiece) := by
  unfold adaptConstChar at h
  split at h <;> simp at h
  exact h.symm

theorem toReturn_inv {o : Options} {f : Fn} {a : Adapter} (h : adaptToReturn o f = .ok (some a)) :
    a = { collect "_adapt_modifiable_immutable_to_return".toList false (f.params.map (toReturnPiece o)) with
      ret := .values (!f.isVoid) ((f.params.map (toReturnPiece o)).flatMap (·.returned)) } := by
  unfold adaptToReturn at h
  split at h <;> simp at h
  simp [h]

theorem boxed_inv {o : Options} {f : Fn} {a : Adapter} (h : adaptBoxed o f = .ok (some a)) :
    a = collect "_adapt_modifiable_immutable".toList f.isVoid (f.params.map (boxedPiece o)) := by
  unfold adaptBoxed at h
  split at h <;> simp at h
  exact h.symm

theorem noCount_inv {o : Options} {f : Fn} {a : Adapter} (h : adaptStringListNoCount o f = .ok (some a)) :
    a = collect "_adapt_c_string_list_no_count".toList f.isVoid (f.params.map stringListNoCountPiece) := by
  unfold adaptStringListNoCount at h
  split at h <;> simp at h
  exact h.symm

theorem stringList_inv {o : Options} {f : Fn} {a : Adapter} (h : adaptStringList o f = .ok (some a)) :
    ∃ l, stringListPieces o f.params f.params.zipIdx = .ok l ∧ a = collect "_adapt_c_string_list".toList f.isVoid l := by
  unfold adaptStringList at h
  split at h
  · obtain ⟨l, hl, h2⟩ := ok_bind h
    refine ⟨l, hl, ?_⟩
    simp [pure, Except.pure] at h2
    exact h2.symm
  · simp at h

theorem buffers_inv {o : Options} {f : Fn} {a : Adapter} (h : adaptBuffers o f = .ok (some a)) :
    shallAdaptBuffers o f = true ∧ countStrides f.params ≤ 1 ∧
    ∃ l, bufferPieces o f.params f.params.zipIdx = .ok l ∧
      a = { collect "_adapt_c_buffers".toList f.isVoid l with ret := bufferRet o f.params } := by
  unfold adaptBuffers at h
  split at h
  · simp at h
  · rename_i h1
    split at h
    · simp at h
    · rename_i h2
      obtain ⟨l, hl, h3⟩ := ok_bind h
      refine ⟨by simpa using h1, by omega, l, hl, ?_⟩
      simp [pure, Except.pure] at h3
      exact h3.symm

theorem variadic_inv {o : Options} {f : Fn} {a : Adapter} (h : adaptVariadic o f = .ok (some a)) :
    ∃ first fmt last, f.params = first ++ [fmt, last] ∧ isVariadic last = true ∧ isFormat fmt = true ∧
      a = collect "_adapt_variadic_format".toList f.isVoid (variadicPieces first fmt) := by
  unfold adaptVariadic at h
  split at h
  · rename_i last fmt first heq
    split at h
    · rename_i hc
      simp at h hc
      refine ⟨first.reverse, fmt, last, ?_, hc.1, hc.2, h.symm⟩
      have := congrArg List.reverse heq
      simp at this
      simp [this]
    · simp at h
  · simp at h

/-! ### The loops with errors -/

/-- The loops over the parameters that may raise. -/
theorem bufferPieces_forall {o : Options} {ps : List Param} : ∀ (q : List (Param × Nat)) (l : List Piece),
    bufferPieces o ps q = .ok l → List.Forall₂ (fun x y => bufferPiece o ps x.2 x.1 = .ok y) q l := by
  intro q
  induction q with
  | nil => intro l h; simp [bufferPieces] at h; subst h; exact .nil
  | cons x r ih =>
    intro l h
    obtain ⟨p, i⟩ := x
    unfold bufferPieces at h
    obtain ⟨y, hy, h2⟩ := ok_bind h
    obtain ⟨ys, hys, h3⟩ := ok_bind h2
    simp [pure, Except.pure] at h3
    subst h3
    exact .cons hy (ih ys hys)

theorem stringListPieces_forall {o : Options} {ps : List Param} : ∀ (q : List (Param × Nat)) (l : List Piece),
    stringListPieces o ps q = .ok l → List.Forall₂ (fun x y => stringListPiece o ps x.2 x.1 = .ok y) q l := by
  intro q
  induction q with
  | nil => intro l h; simp [stringListPieces] at h; subst h; exact .nil
  | cons x r ih =>
    intro l h
    obtain ⟨p, i⟩ := x
    unfold stringListPieces at h
    obtain ⟨y, hy, h2⟩ := ok_bind h
    obtain ⟨ys, hys, h3⟩ := ok_bind h2
    simp [pure, Except.pure] at h3
    subst h3
    exact .cons hy (ih ys hys)

theorem bufferPiece_inv {o : Options} {ps : List Param} {i : Nat} {p : Param} {y : Piece} (h : bufferPiece o ps i p = .ok y) :
    ∃ input arg, bufferInput o ps i p = .ok input ∧ bufferArgs o ps i p = .ok arg ∧
      y = { news := bufferNews o ps i p, args := [arg], input := input } := by
  unfold bufferPiece at h
  obtain ⟨input, h1, h2⟩ := ok_bind h
  obtain ⟨arg, h3, h4⟩ := ok_bind h2
  simp [pure, Except.pure] at h4
  exact ⟨input, arg, h1, h3, h4.symm⟩

theorem forall2_len {α β : Type} {R : α → β → Prop} {l : List α} {r : List β} (h : List.Forall₂ R l r) : l.length = r.length := by
  induction h with
  | nil => rfl
  | cons _ _ ih => simp [ih]

theorem forall2_mem_right {α β : Type} {R : α → β → Prop} {l : List α} {r : List β} (h : List.Forall₂ R l r) :
    ∀ b ∈ r, ∃ a ∈ l, R a b := by
  induction h with
  | nil => intro b hb; simp at hb
  | cons hab _ ih =>
    intro b hb
    rcases List.mem_cons.1 hb with rfl | hb
    · exact ⟨_, List.mem_cons_self, hab⟩
    · obtain ⟨a, ha, hr⟩ := ih b hb
      exact ⟨a, List.mem_cons_of_mem _ ha, hr⟩

theorem buffers_len {o : Options} {f : Fn} {a : Adapter} (h : adaptBuffers o f = .ok (some a)) :
    a.args.length = f.params.length := by
  obtain ⟨_, _, l, hl, rfl⟩ := buffers_inv h
  have hf := bufferPieces_forall _ _ hl
  simp only [collect]
  rw [flatMap_len_one _ _ (by
    intro y hy
    obtain ⟨x, _, hx⟩ := forall2_mem_right hf y hy
    obtain ⟨_, _, _, _, rfl⟩ := bufferPiece_inv hx
    rfl), ← forall2_len hf, List.length_zipIdx]

theorem variadic_len {o : Options} {f : Fn} {a : Adapter} (h : adaptVariadic o f = .ok (some a)) :
    a.args.length = f.params.length := by
  obtain ⟨first, fmt, last, hp, _, _, rfl⟩ := variadic_inv h
  simp only [collect, variadicPieces, List.flatMap_append, List.length_append]
  rw [flatMap_len_one _ _ (by
    intro y hy
    obtain ⟨x, _, rfl⟩ := List.mem_map.1 hy
    rfl), hp]
  simp

theorem isStringList_iff (p : Param) : isStringList p = true ↔ IsStringList p := by
  unfold isStringList IsStringList isConst isNull const_ star null1 null2
  simp only [Bool.and_eq_true, decide_eq_true_eq, Bool.or_eq_true]
  constructor
  · rintro ⟨⟨⟨h1, h2⟩, h3⟩, h4⟩
    refine ⟨h1, h2, ?_, h4⟩
    split at h3
    · rename_i h; right; exact ⟨by simpa using h3, by intro h5; rw [h5] at h; simp at h⟩
    · rename_i h; left; refine ⟨by simpa using h3, ?_⟩
      cases h5 : p.arrayCode with
      | nil => rfl
      | cons c r => rw [h5] at h; simp at h
  · rintro ⟨h1, h2, h3, h4⟩
    refine ⟨⟨⟨h1, h2⟩, ?_⟩, h4⟩
    rcases h3 with ⟨h, h5⟩ | ⟨h, h5⟩
    · rw [h5]; simpa using h
    · rw [if_pos (List.length_pos_iff.2 h5)]
      simpa using h

theorem stringListAt_some {o : Options} {ps : List Param} {i : Nat} (h : isStringListAt o ps i = true) :
    ∃ p q, ps[i]? = some p ∧ ps[i + 1]? = some q ∧ isStringList p = true ∧ looksLikeSize o q = true := by
  unfold isStringListAt at h
  split at h
  · rename_i p q h1 h2
    simp at h
    exact ⟨p, q, h1, h2, h.1, h.2⟩
  · simp at h

theorem not_both {o : Options} {ps : List Param} (hn : NoListNamedSize o ps) {i : Nat}
    (h : isStringListSizeAt o ps i = true) : isStringListAt o ps i = false := by
  cases i with
  | zero => simp [isStringListSizeAt] at h
  | succ j =>
    simp only [isStringListSizeAt] at h
    obtain ⟨_, q, _, hq, _, hs⟩ := stringListAt_some h
    cases hc : isStringListAt o ps (j + 1) with
    | false => rfl
    | true =>
      obtain ⟨p, _, hp, _, hl, _⟩ := stringListAt_some hc
      rw [hq] at hp
      injection hp with hp
      subst hp
      have := hn q (List.mem_of_getElem? hq) ((isStringList_iff q).1 hl)
      unfold looksLikeSize at hs
      rw [this] at hs
      simp at hs

theorem stringListWithSize_inv {p q : Param} {y : Piece} (h : stringListWithSize p q = .ok y) :
    ∃ ty, q.type.typenames.head? = some ty ∧
      y = { news := [vectorParam p]
            input := [.stringPtrs (ptrsName p.name) p.name, .sizeOf ty q.name p.name]
            args := [.data (ptrsName p.name), .var q.name] } := by
  unfold stringListWithSize at h
  obtain ⟨ty, h1, h2⟩ := ok_bind h
  simp [pure, Except.pure] at h2
  refine ⟨ty, ?_, h2.symm⟩
  unfold orRaise at h1
  split at h1
  · rename_i heq; simp at h1; rw [heq, h1]
  · simp at h1

theorem stringListPiece_inv {o : Options} {ps : List Param} {i : Nat} {p : Param} {y : Piece}
    (h : stringListPiece o ps i p = .ok y) :
    (isStringListAt o ps i = true ∧ ∃ q, ps[i + 1]? = some q ∧ stringListWithSize p q = .ok y) ∨
    (isStringListAt o ps i = false ∧ isStringListSizeAt o ps i = true ∧ y = {}) ∨
    (isStringListAt o ps i = false ∧ isStringListSizeAt o ps i = false ∧ y = keep p) := by
  unfold stringListPiece at h
  split at h
  · rename_i q h1 h2
    left; exact ⟨h1, q, h2, h⟩
  · rename_i h1
    have hf : isStringListAt o ps i = false := by
      cases hc : isStringListAt o ps i with
      | false => rfl
      | true =>
        obtain ⟨_, q, _, hq, _, _⟩ := stringListAt_some hc
        exact absurd hq (h1 q hc)
    right
    split at h
    · rename_i h3; left; simp at h; exact ⟨hf, h3, h.symm⟩
    · rename_i h3; right; simp at h h3; exact ⟨hf, h3, h.symm⟩

theorem stringList_loop_len {o : Options} {ps : List Param} (hn : NoListNamedSize o ps) :
    ∀ (suf : List Param) (i : Nat) (l : List Piece), ps.drop i = suf →
    List.Forall₂ (fun x y => stringListPiece o ps x.2 x.1 = .ok y) (suf.zipIdx i) l →
    (l.flatMap (·.args)).length + (if isStringListSizeAt o ps i = true then 1 else 0) = suf.length := by
  intro suf
  induction suf with
  | nil =>
    intro i l hd h
    cases h
    have hlen : ps.length ≤ i := List.drop_eq_nil_iff.1 hd
    have : isStringListSizeAt o ps i = false := by
      cases i with
      | zero => rfl
      | succ j =>
        cases hc : isStringListSizeAt o ps (j + 1) with
        | false => rfl
        | true =>
          obtain ⟨_, q, _, hq, _, _⟩ := stringListAt_some hc
          rw [List.getElem?_eq_none hlen] at hq
          simp at hq
    simp [this]
  | cons p r ih =>
    intro i l hd h
    rw [List.zipIdx_cons] at h
    cases h with
    | cons hy hr =>
      rename_i y ys
      have hd' : ps.drop (i + 1) = r := by
        rw [← List.drop_drop, hd]; rfl
      have hrec := ih (i + 1) ys hd' hr
      have hs : isStringListSizeAt o ps (i + 1) = isStringListAt o ps i := rfl
      rw [hs] at hrec
      rw [List.flatMap_cons, List.length_append]
      rcases stringListPiece_inv hy with ⟨h1, q, _, h2⟩ | ⟨h1, h2, rfl⟩ | ⟨h1, h2, rfl⟩
      · obtain ⟨ty, _, rfl⟩ := stringListWithSize_inv h2
        have h3 : isStringListSizeAt o ps i = false := by
          cases hc : isStringListSizeAt o ps i with
          | false => rfl
          | true => rw [not_both hn hc] at h1; simp at h1
        simp [h1, h3] at hrec ⊢
        omega
      · simp [h1, h2] at hrec ⊢
        exact hrec
      · simp [h1, h2, keep] at hrec ⊢
        omega

theorem stringList_len {o : Options} {f : Fn} {a : Adapter} (hn : NoListNamedSize o f.params)
    (h : adaptStringList o f = .ok (some a)) : a.args.length = f.params.length := by
  obtain ⟨l, hl, rfl⟩ := stringList_inv h
  have hf := stringListPieces_forall _ _ hl
  have := stringList_loop_len hn f.params 0 l (by simp) hf
  simpa [isStringListSizeAt, collect] using this

end Verif.Adapt
