import Verif.Adapt.Props
import Verif.Adapt.Buffers

/-! C37: C buffers. C38: output parameters become returned values. -/

namespace Verif.Adapt.Props
open Verif.Py Verif.Type Spec

/-! ### C37 -/

/-- C37: which parameters are treated as buffers: those which start a row of one to five buffers followed by a size. -/
theorem C37_recognised (o : Options) (ps : List Param) (i : Nat) : isBuffer o ps i = true ↔ Recognised o ps i :=
  isBuffer_iff o ps i

/-- C37: the adapter is used exactly when the options ask for it and a buffer is recognised; it then fails only if there
are several strides, if a stride comes before any buffer, or if a type has no name. -/
theorem C37_used_iff (o : Options) (f : Fn) :
    (adaptBuffers o f ≠ .ok none) ↔ o.replaceBuffers f.name = true ∧ ∃ i, Recognised o f.params i := by
  have hs : shallAdaptBuffers o f = true ↔ o.replaceBuffers f.name = true ∧ ∃ i, Recognised o f.params i := by
    unfold shallAdaptBuffers
    rw [Bool.and_eq_true, List.any_eq_true]
    refine and_congr Iff.rfl ?_
    constructor
    · rintro ⟨i, _, h⟩
      exact ⟨i, (isBuffer_iff o _ i).1 h⟩
    · rintro ⟨i, h⟩
      refine ⟨i, ?_, (isBuffer_iff o _ i).2 h⟩
      obtain ⟨k, _, h1, _⟩ := h
      obtain ⟨p, hp, _⟩ := h1 0 (by omega)
      rw [List.mem_range]
      exact (List.getElem?_eq_some_iff.1 hp).1
  rw [← hs]
  constructor
  · intro h
    by_contra hc
    exact h (by simp [adaptBuffers, hc])
  · intro h hc
    unfold adaptBuffers at hc
    rw [h] at hc
    simp only [Bool.not_true, Bool.false_eq_true, if_false] at hc
    split at hc
    · simp at hc
    · obtain ⟨l, _, h2⟩ := ok_bind hc
      simp [pure, Except.pure] at h2

theorem bufferSize_iff (o : Options) (ps : List Param) (i : Nat) : isBufferSize o ps i = true ↔ IsSizeAt o ps i := by
  constructor
  · intro h
    obtain ⟨j, p, q, rfl, hp, hq, hl, hs, _⟩ := size_inv h
    exact ⟨j, p, q, rfl, hp, hq, (looksLikeBuffer_iff o p).1 hl, hs⟩
  · rintro ⟨j, p, q, rfl, hp, hq, hl, hs⟩
    simp [isBufferSize, hp, hq, (looksLikeBuffer_iff o p).2 hl, looksLikeSize, hs]

/-- C37: the visible parameters. A buffer becomes an array with the same name and default value; a stride becomes an
`int` with the default value -1; the size after a buffer disappears; every other parameter is kept; the order is kept. -/
theorem C37_visible (o : Options) (f : Fn) (a : Adapter) (h : adaptBuffers o f = .ok (some a)) :
    ∃ shown : List (List Param), a.newParams = shown.flatten ∧ shown.length = f.params.length ∧
      ∀ (i : Nat) (p : Param) (l : List Param), f.params[i]? = some p → shown[i]? = some l →
        (Recognised o f.params i → ∃ q, l = [q] ∧ q.name = p.name ∧ q.default = p.default ∧ IsArrayType o p.type q.type) ∧
        (¬ Recognised o f.params i → LooksLikeStride p →
          ∃ q, l = [q] ∧ q.name = p.name ∧ q.default = "-1".toList ∧ q.type.typenames = ["int".toList]) ∧
        (¬ Recognised o f.params i → ¬ LooksLikeStride p → IsSizeAt o f.params i → l = []) ∧
        (¬ Recognised o f.params i → ¬ LooksLikeStride p → ¬ IsSizeAt o f.params i → l = [p]) := by
  obtain ⟨_, _, ys, hys, rfl⟩ := buffers_inv h
  have hf := bufferPieces_forall _ _ hys
  refine ⟨ys.map (·.news), by simp [collect, List.flatMap_def], by simp [← forall2_len hf], ?_⟩
  intro i p l hp hl
  rw [List.getElem?_map] at hl
  simp only [Option.map_eq_some_iff] at hl
  obtain ⟨y, hy, rfl⟩ := hl
  have hpiece : bufferPiece o f.params i p = .ok y := by
    have hxz : f.params.zipIdx[i]? = some (p, i) := by rw [List.getElem?_zipIdx, hp]; simp
    exact forall2_get hf i (p, i) y hxz hy
  obtain ⟨_, _, _, _, rfl⟩ := bufferPiece_inv hpiece
  simp only [← isBuffer_iff, ← isStride_iff, ← bufferSize_iff]
  unfold bufferNews
  refine ⟨?_, ?_, ?_, ?_⟩
  · intro h1
    rw [if_pos h1]
    refine ⟨_, rfl, bufferParam_name o p, ?_, ?_⟩
    · unfold bufferParam; split <;> rfl
    · exact bufferParam_type o p
  · intro h1 h2
    rw [if_neg h1, if_pos h2]
    exact ⟨_, rfl, rfl, rfl, rfl⟩
  · intro h1 h2 h3
    rw [if_neg h1, if_neg h2, if_pos h3]
  · intro h1 h2 h3
    rw [if_neg h1, if_neg h2, if_neg h3]

/-- C37: the arguments of the call, one per parameter. A buffer is passed as the pointer to its own array, a size as the
length of the array just before it, a stride as the stride variable of the last buffer before it; every other parameter
is passed unchanged. -/
theorem C37_arguments (o : Options) (f : Fn) (a : Adapter) (hc : ClearBuffers o f.params)
    (h : adaptBuffers o f = .ok (some a)) :
    a.args.length = f.params.length ∧
    ∀ (i : Nat) (p : Param) (e : Arg), f.params[i]? = some p → a.args[i]? = some e →
      (Recognised o f.params i → argReads e = [p.name ++ "_from_pyarray".toList] ∧
        ∃ s ∈ a.input, s = .bufferData (decide ("const".toList ∈ p.type.specifiers)) (p.name ++ "_from_pyarray".toList)
          (p.name ++ "_count".toList) p.name) ∧
      (∀ j b, i = j + 1 → f.params[j]? = some b → LooksLikeBuffer o b → o.bufferSizeName p.name = true →
        ∃ type, e = .cast type (b.name ++ "_count".toList) ∧ p.type.typenames.head? = some type ∧
        ∃ s ∈ a.input, s = .bufferData (decide ("const".toList ∈ b.type.specifiers)) (b.name ++ "_from_pyarray".toList)
          (b.name ++ "_count".toList) b.name) ∧
      (¬ IsSizeAt o f.params i → LooksLikeStride p → ∃ b, LastBuffer o f.params i b ∧
        argReads e = [b.name ++ "_stride".toList] ∧ .stride (b.name ++ "_stride".toList) p.name b.name ∈ a.input) ∧
      (¬ Recognised o f.params i → ¬ IsSizeAt o f.params i → ¬ LooksLikeStride p → e = .var p.name) := by
  refine ⟨buffers_len h, ?_⟩
  obtain ⟨_, _, ys, hys, rfl⟩ := buffers_inv h
  have hf := bufferPieces_forall _ _ hys
  have hget : ∀ i p, f.params[i]? = some p → ∃ y ∈ ys, ys[i]? = some y ∧ bufferPiece o f.params i p = .ok y := by
    intro i p hp
    have hi : i < ys.length := by
      rw [← forall2_len hf, List.length_zipIdx]; exact (List.getElem?_eq_some_iff.1 hp).1
    refine ⟨ys[i], List.getElem_mem hi, List.getElem?_eq_getElem hi, ?_⟩
    exact forall2_get hf i (p, i) _ (by rw [List.getElem?_zipIdx, hp]; simp) (List.getElem?_eq_getElem hi)
  have hinput : ∀ i p, f.params[i]? = some p → ∃ input, bufferInput o f.params i p = .ok input ∧
      ∀ s ∈ input, s ∈ ys.flatMap (·.input) := by
    intro i p hp
    obtain ⟨y, hy, _, hpiece⟩ := hget i p hp
    obtain ⟨input, _, hin, _, rfl⟩ := bufferPiece_inv hpiece
    exact ⟨input, hin, fun s hs => List.mem_flatMap.2 ⟨_, hy, hs⟩⟩
  have hbuf : ∀ i p, f.params[i]? = some p → isBuffer o f.params i = true →
      Stmt.bufferData (decide ("const".toList ∈ p.type.specifiers)) (p.name ++ "_from_pyarray".toList)
          (p.name ++ "_count".toList) p.name ∈ ys.flatMap (·.input) := by
    intro i p hp hb
    obtain ⟨input, hin, hsub⟩ := hinput i p hp
    obtain ⟨p', hp', hl⟩ := isBufferLoop_looks hb
    rw [hp] at hp'
    simp only [Option.some.injEq] at hp'
    subst hp'
    have hlast := lastBufferBefore_self hp hl
    have hns := (hc.clear' p (List.mem_of_getElem? hp) hl).2
    rcases bufferInput_inv hin with ⟨_, _, b, ty, h1, _, rfl⟩ | ⟨_, h2, _⟩ | ⟨_, _, _, b, h1, rfl⟩ | ⟨h2, _⟩
    · rw [hlast] at h1; simp only [Option.some.injEq] at h1; subst h1
      exact hsub _ (by rw [isConst_dec]; exact List.mem_cons_self)
    · rw [hns] at h2; simp at h2
    · rw [hlast] at h1; simp only [Option.some.injEq] at h1; subst h1
      exact hsub _ (by rw [isConst_dec]; exact List.mem_cons_self)
    · rw [hb] at h2; simp at h2
  intro i p e hp he
  obtain ⟨y, hy, hyi, hpiece⟩ := hget i p hp
  obtain ⟨input, arg, hin, harg, hyeq⟩ := bufferPiece_inv hpiece
  have hearg : e = arg := by
    simp only [collect] at he
    rw [flatMap_get_one ys (·.args) (by
      intro z hz
      obtain ⟨x, _, hx⟩ := forall2_mem_right hf z hz
      obtain ⟨_, ar, _, _, rfl⟩ := bufferPiece_inv hx
      exact ⟨ar, rfl⟩) i y arg hyi (by rw [hyeq])] at he
    simpa using he.symm
  subst hearg
  simp only [← isBuffer_iff, ← isStride_iff, ← bufferSize_iff]
  refine ⟨?_, ?_, ?_, ?_⟩
  · intro hb
    refine ⟨?_, _, hbuf i p hp hb, rfl⟩
    rcases bufferArgs_inv harg with ⟨_, rfl⟩ | ⟨_, _, ty, _, rfl⟩ | ⟨_, h2, _⟩ | ⟨_, h2, _⟩ | ⟨_, h2, _⟩
    · rfl
    · rfl
    all_goals (rw [hb] at h2; simp at h2)
  · intro j b hij hb hl hs
    subst hij
    have hl' := (looksLikeBuffer_iff o b).2 hl
    have hsz : isBufferSize o f.params (j + 1) = true := by simp [isBufferSize, hp, hb, hl', looksLikeSize, hs]
    have hnl : looksLikeBuffer o p = false := by
      by_contra hcon
      simp only [Bool.not_eq_false] at hcon
      have := (hc.clear' p (List.mem_of_getElem? hp) hcon).1
      rw [looksLikeSize, hs] at this; simp at this
    have hnb : isBuffer o f.params (j + 1) = false := by
      by_contra hcon
      simp only [Bool.not_eq_false] at hcon
      obtain ⟨p', hp', hl2⟩ := isBufferLoop_looks hcon
      rw [hp] at hp'
      simp only [Option.some.injEq] at hp'
      subst hp'
      rw [hnl] at hl2; simp at hl2
    have hlast : lastBufferBefore o f.params (j + 1) = some b.name := by
      rw [lastBufferBefore_skip hp hnl, lastBufferBefore_self hb hl']
    have hbj : isBuffer o f.params j = true := by simp [isBuffer, isBufferLoop, hb, hp, hl', looksLikeSize, hs]
    rcases bufferArgs_inv harg with ⟨ht, _⟩ | ⟨_, h2, _⟩ | ⟨_, _, _, b', ty, h2, h3, rfl⟩ | ⟨_, _, h2, _⟩ | ⟨_, _, h2, _⟩
    · rw [looksLikeBuffer, ht] at hnl; simp at hnl
    · rw [hnb] at h2; simp at h2
    · rw [hlast] at h2
      simp only [Option.some.injEq] at h2
      subst h2
      exact ⟨ty, rfl, h3, _, hbuf j b hb hbj, rfl⟩
    · rw [hsz] at h2; simp at h2
    · rw [hsz] at h2; simp at h2
  · intro hns hst
    have hnl : looksLikeBuffer o p = false := by
      by_contra hcon
      simp only [Bool.not_eq_false] at hcon
      have := (hc.clear' p (List.mem_of_getElem? hp) hcon).2
      rw [hst] at this; simp at this
    have hnb : isBuffer o f.params i = false := by
      by_contra hcon
      simp only [Bool.not_eq_false] at hcon
      obtain ⟨p', hp', hl2⟩ := isBufferLoop_looks hcon
      rw [hp] at hp'
      simp only [Option.some.injEq] at hp'
      subst hp'
      rw [hnl] at hl2; simp at hl2
    rcases bufferArgs_inv harg with ⟨ht, _⟩ | ⟨_, h2, _⟩ | ⟨_, _, h2, _⟩ | ⟨_, _, _, _, b', ty, h2, h3, rfl⟩ | ⟨_, _, _, h2, _⟩
    · rw [looksLikeBuffer, ht] at hnl; simp at hnl
    · rw [hnb] at h2; simp at h2
    · exact absurd h2 hns
    · obtain ⟨b, hb, hbn⟩ := lastBuffer_spec h2
      subst hbn
      refine ⟨b, hb, ?_, ?_⟩
      · split <;> rfl
      · rcases bufferInput_inv hin with ⟨h5, _⟩ | ⟨_, _, b2, h4, h5⟩ | ⟨h5, _⟩ | ⟨_, h5, _⟩
        · rw [hnb] at h5; simp at h5
        · rw [h2] at h4
          simp only [Option.some.injEq] at h4
          subst h4
          refine List.mem_flatMap.2 ⟨y, hy, ?_⟩
          rw [hyeq, h5]
          simp [strideOf]
        · rw [hnb] at h5; simp at h5
        · rw [hst] at h5; simp at h5
    · rw [hst] at h2; simp at h2
  · intro h1 h2 h3
    rcases bufferArgs_inv harg with ⟨ht, _⟩ | ⟨_, h4, _⟩ | ⟨_, _, h4, _⟩ | ⟨_, _, _, h4, _⟩ | ⟨_, _, _, _, h4⟩
    · exact absurd (hc.template' i p hp ht) h1
    · exact absurd h4 h1
    · exact absurd h4 h2
    · exact absurd h4 h3
    · exact h4

/-- C37: every recognised buffer whose element type is not a template type is checked against its C++ type before the
call, and a call with template buffers goes through a selection of the element type by the last of them, which the
others must match. -/
theorem C37_checked (o : Options) (f : Fn) (a : Adapter) (h : adaptBuffers o f = .ok (some a)) :
    (∀ (i : Nat) (p : Param), f.params[i]? = some p → Recognised o f.params i → o.templateBuffer p.type = false →
      ∃ t, p.type.typenames.head? = some t ∧ .checkType p.name t ∈ a.input) ∧
    ((∀ p ∈ f.params, o.templateBuffer p.type = false) → a.ret = .forward) ∧
    (∀ p ∈ f.params, o.templateBuffer p.type = true →
      ∃ x others, a.ret = .dispatch x others ∧ (p.name = x ∨ p.name ∈ others)) := by
  obtain ⟨_, _, ys, hys, rfl⟩ := buffers_inv h
  have hf := bufferPieces_forall _ _ hys
  refine ⟨?_, ?_, ?_⟩
  · intro i p hp hb ht
    rw [← isBuffer_iff] at hb
    have hi : i < ys.length := by
      rw [← forall2_len hf, List.length_zipIdx]; exact (List.getElem?_eq_some_iff.1 hp).1
    have hpiece := forall2_get hf i (p, i) _ (by rw [List.getElem?_zipIdx, hp]; simp) (List.getElem?_eq_getElem hi)
    obtain ⟨input, _, hin, _, hy⟩ := bufferPiece_inv hpiece
    rcases bufferInput_inv hin with ⟨_, _, b, ty, _, h1, h2⟩ | ⟨h1, _⟩ | ⟨_, h1, _⟩ | ⟨h1, _⟩
    · refine ⟨ty, h1, List.mem_flatMap.2 ⟨_, List.getElem_mem hi, ?_⟩⟩
      rw [hy, h2]; simp
    · rw [hb, ht] at h1; simp at h1
    · rw [ht] at h1; simp at h1
    · rw [hb] at h1; simp at h1
  · intro hn
    have : f.params.filter (fun p => o.templateBuffer p.type) = [] := by
      rw [List.filter_eq_nil_iff]; intro p hp; simp [hn p hp]
    simp [bufferRet, this]
  · intro p hp ht
    have hmem : p ∈ f.params.filter (fun p => o.templateBuffer p.type) := List.mem_filter.2 ⟨hp, ht⟩
    simp only [bufferRet]
    cases hl : (f.params.filter (fun p => o.templateBuffer p.type)).getLast? with
    | none => rw [List.getLast?_eq_none_iff] at hl; rw [hl] at hmem; simp at hmem
    | some q =>
      refine ⟨q.name, _, rfl, ?_⟩
      by_cases hpq : p.name = q.name
      · exact .inl hpq
      · exact .inr (List.mem_filter.2 ⟨List.mem_map_of_mem hmem, by simpa using hpq⟩)

/-- `void f(const float* a, const float* b, int n, int stride = sizeof(float))` -/
def twoBuffers : List Param :=
  [par "a" tFloats, par "b" tFloats, par "n" tInt, par "stride" tInt "" "sizeof(float)"]

/-- The length that C++ receives is the one of the last array of a row: nothing in the lambda reads the length of the
first one, so nothing compares them. -/
theorem C37_lengths_unchecked : ∃ a, adaptBuffers demo (fn twoBuffers) = .ok (some a) ∧ Recognised demo (fn twoBuffers).params 0 ∧
    a.args = [.cast "const float *".toList "a_from_pyarray".toList, .cast "const float *".toList "b_from_pyarray".toList,
      .cast "int".toList "b_count".toList, .var "b_stride".toList] ∧
    (∀ e ∈ a.args, "a_count".toList ∉ argReads e) ∧ (∀ s ∈ a.input, "a_count".toList ∉ reads s) ∧ a.output = [] ∧ a.ret = .forward := by
  rw [← isBuffer_iff]
  cases h : adaptBuffers demo (fn twoBuffers) with
  | error e =>
    have : (match adaptBuffers demo (fn twoBuffers) with | .ok _ => true | .error _ => false) = true := by decide +kernel
    rw [h] at this; simp at this
  | ok x =>
    cases x with
    | none =>
      have : adaptBuffers demo (fn twoBuffers) ≠ .ok none := by decide +kernel
      exact absurd h this
    | some a =>
      refine ⟨a, rfl, by decide +kernel, ?_⟩
      have : (match adaptBuffers demo (fn twoBuffers) with
        | .ok (some a) => decide (a.args = [.cast "const float *".toList "a_from_pyarray".toList,
            .cast "const float *".toList "b_from_pyarray".toList, .cast "int".toList "b_count".toList, .var "b_stride".toList] ∧
            (∀ e ∈ a.args, "a_count".toList ∉ argReads e) ∧ (∀ s ∈ a.input, "a_count".toList ∉ reads s) ∧ a.output = [] ∧ a.ret = .forward)
        | _ => false) = true := by decide +kernel
      rw [h] at this
      exact of_decide_eq_true this

/-! ### C38 -/

/-- C38: each parameter that the caller could not see modified becomes a returned value; the returned values are the
result, if there is one, and these parameters in order. Every parameter stays visible, in order and under the same name;
the others are not changed. -/
theorem C38_returned (o : Options) (f : Fn) (a : Adapter) (h : adaptToReturn o f = .ok (some a)) :
    (∃ modified : Param → Bool, (∀ p, modified p = true ↔ HiddenOutput o p) ∧
      a.ret = .values (!f.isVoid) ((f.params.filter modified).map (·.name))) ∧
    a.newVoid = false ∧
    a.newParams.map (·.name) = f.params.map (·.name) ∧
    (∀ (i : Nat) (p q : Param), f.params[i]? = some p → a.newParams[i]? = some q → ¬ HiddenOutput o p → q = p) ∧
    (∀ (i : Nat) (p : Param), f.params[i]? = some p →
      (¬ HiddenOutput o p → a.args[i]? = some (.var p.name)) ∧
      (HiddenOutput o p → a.args[i]? = some (.var (p.name ++ "_adapt_modifiable".toList)) ∧
        ∃ s ∈ a.input, declares s = [p.name ++ "_adapt_modifiable".toList] ∧ reads s = [p.name])) := by
  rw [toReturn_inv h]
  have hm := hiddenOutput_iff o
  have hret : ∀ ps : List Param, (ps.map (toReturnPiece o)).flatMap (·.returned) =
      (ps.filter (fun p => modifiableRef o p || modifiableArray o p)).map (·.name) := by
    intro ps
    induction ps with
    | nil => rfl
    | cons p r ih =>
      rw [List.map_cons, List.flatMap_cons, ih, toReturn_returned]
      by_cases hp : (modifiableRef o p || modifiableArray o p) = true
      · rw [if_pos hp, List.filter_cons, if_pos hp]; rfl
      · rw [if_neg hp, List.filter_cons, if_neg hp]; rfl
  have hargs : ∀ ps : List Param, (ps.map (toReturnPiece o)).flatMap (·.args) = ps.map (fun p =>
      if modifiableRef o p || modifiableArray o p then Arg.var (modifiableName p.name) else .var p.name) := by
    intro ps
    induction ps with
    | nil => rfl
    | cons p r ih =>
      rw [List.map_cons, List.flatMap_cons, ih, toReturn_args]; rfl
  have hnews : ∀ ps : List Param, ∃ g : Param → Param, (∀ p, (toReturnPiece o p).news = [g p] ∧ (g p).name = p.name ∧
      ((modifiableRef o p || modifiableArray o p) = false → g p = p)) ∧
      (ps.map (toReturnPiece o)).flatMap (·.news) = ps.map g := by
    intro ps
    have hg : ∀ p, ∃ q, (toReturnPiece o p).news = [q] ∧ q.name = p.name ∧
        ((modifiableRef o p || modifiableArray o p) = false → q = p) := toReturn_news o
    refine ⟨fun p => (hg p).choose, fun p => (hg p).choose_spec, ?_⟩
    induction ps with
    | nil => rfl
    | cons p r ih => rw [List.map_cons, List.flatMap_cons, ih, (hg p).choose_spec.1]; rfl
  obtain ⟨g, hg, hgm⟩ := hnews f.params
  refine ⟨⟨fun p => modifiableRef o p || modifiableArray o p, hm, by rw [← hret]⟩, rfl, ?_, ?_, ?_⟩
  · simp only [collect, hgm, List.map_map]
    apply List.map_congr_left
    intro p _
    exact (hg p).2.1
  · intro i p q hp hq hno
    simp only [collect, hgm, List.getElem?_map, hp, Option.map_some, Option.some.injEq] at hq
    rw [← hm] at hno
    rw [← hq]
    exact (hg p).2.2 (by simpa using hno)
  · intro i p hp
    simp only [collect, hargs, List.getElem?_map, hp, Option.map_some]
    rw [← hm]
    refine ⟨fun hno => by rw [if_neg hno], fun hyes => ?_⟩
    rw [if_pos hyes]
    refine ⟨rfl, ?_⟩
    obtain ⟨s, hs, h1, h2⟩ := toReturn_input o p hyes
    exact ⟨s, List.mem_flatMap.2 ⟨_, List.mem_map_of_mem (List.mem_of_getElem? hp), hs⟩, h1, h2⟩

/-- C38: the adapter is used exactly when the options ask for it and there is such a parameter. -/
theorem C38_used_iff (o : Options) (f : Fn) :
    (∃ a, adaptToReturn o f = .ok (some a)) ↔ o.toReturn f.name = true ∧ ∃ p ∈ f.params, HiddenOutput o p := by
  have : (f.params.any (fun p => modifiableRef o p || modifiableArray o p) = true) ↔ ∃ p ∈ f.params, HiddenOutput o p := by
    rw [List.any_eq_true]
    simp only [hiddenOutput_iff]
  rw [← this]
  unfold adaptToReturn
  by_cases h : (o.toReturn f.name && f.params.any (fun p => modifiableRef o p || modifiableArray o p)) = true
  · rw [if_pos h]; simpa using h
  · rw [if_neg h]; simpa using h

/-- C38: the text of the `return` statement lists the result `r` (if there is one) and the returned parameters, as a tuple
exactly when there is more than one value; the return type lists the types of the same values in the same order. -/
theorem C38_text (withResult : Bool) (resultType : Str) (outs : List (Str × Str)) :
    let values := (if withResult then [(resultType, ['r'])] else []) ++ outs
    (values.length = 1 → ∀ v ∈ values, returnText withResult resultType outs = some (v.1, v.2)) ∧
    (values.length > 1 → returnText withResult resultType outs =
      some ("std::tuple<".toList ++ listText (values.map (·.1)) ++ ">".toList,
        "std::make_tuple(".toList ++ listText (values.map (·.2)) ++ ")".toList)) ∧
    (values.length = 0 → returnText withResult resultType outs = none) := by
  intro values
  have hj : ∀ l : List Str, join ", ".toList l = listText l := join_listText
  have hlen : (if withResult then 1 else 0) + outs.length = values.length := by
    cases withResult <;> simp [values]; omega
  have ht : (if withResult then [resultType] else []) ++ outs.map (·.1) = values.map (·.1) := by
    cases withResult <;> simp [values]
  have hn : (if withResult then [['r']] else []) ++ outs.map (·.2) = values.map (·.2) := by
    cases withResult <;> simp [values]
  unfold returnText
  rw [hlen, ht, hn]
  refine ⟨?_, ?_, ?_⟩
  · intro h1 v hv
    rw [if_neg (by omega), if_neg (by omega)]
    match values, h1, hv with
    | [w], _, hv => simp only [List.mem_singleton] at hv; subst hv; simp
  · intro h1
    rw [if_neg (by omega), if_pos h1, hj, hj]
  · intro h1
    rw [if_pos h1]

/-- `int f(int* a, float x, bool& b, int v[2])` with output parameters returned. -/
def outputs : List Param := [par "a" tIntPtr "" "nullptr", par "x" (ty [] ["float"] []), par "b" (ty [] ["bool"] ["&"]), par "v" tInt "[2]"]

example : (match adaptToReturn { demo with toReturn := fun _ => true } { fn outputs with isVoid := false } with
    | .ok (some a) => some (a.ret, a.args.length, a.newParams.map (fun p => String.ofList (print p.type)))
    | _ => none) = some (.values true ["a".toList, "b".toList, "v".toList], 4,
      ["std::optional<int>", "float", "bool", "std::array<int, 2>"]) := by decide +kernel

example : returnText true "int".toList [("bool".toList, "b".toList), ("float".toList, "x".toList)] =
    some ("std::tuple<int, bool, float>".toList, "std::make_tuple(r, b, x)".toList) := by decide +kernel

end Verif.Adapt.Props
