import Verif.Adapt.SpecInterface
import Verif.Adapt.RunStage

/-! The parameters that Python sees. -/

namespace Verif.Adapt
open Verif.Py Verif.Type Spec

theorem each_of {R : Param → List Param → Prop} {g : Param → Piece} (h : ∀ p, R p (g p).news) (ps : List Param) :
    Each R ps ((ps.map g).flatMap (·.news)) := by
  refine ⟨ps.map fun p => (g p).news, ?_, ?_⟩
  · induction ps with
    | nil => exact .nil
    | cons p r ih => exact .cons (h p) ih
  · rw [List.flatMap_def, List.map_map]; rfl

theorem constNoRef_eq (t : CppType) : constNoRef t = constValue t := by
  unfold constNoRef constValue amp const_
  by_cases h : "const".toList ∈ t.specifiers
  · rw [if_pos h, if_pos ((isConst_iff t).2 h)]; rfl
  · rw [if_neg h, if_neg fun hc => h ((isConst_iff t).1 hc)]; rfl

theorem mutable_seen (o : Options) (p : Param) : MutableSeen o p (mutablePiece o p).news := by
  unfold mutablePiece
  by_cases h : seemsMutable o p = true
  · rw [if_pos h]
    have := MutableSeen.optional ((seemsMutable_iff o p).1 h)
    rw [← constNoRef_eq] at this
    exact this
  · rw [if_neg h]
    exact .kept fun hc => h ((seemsMutable_iff o p).2 hc)

theorem nullText_seen (p : Param) : NullTextSeen p (constCharPiece p).news := by
  unfold constCharPiece
  by_cases h : constCharNull p = true
  · rw [if_pos h]
    exact .optional ((constCharNull_iff p).1 h)
  · rw [if_neg h]
    exact .kept fun hc => h ((constCharNull_iff p).2 hc)

theorem strings_seen (p : Param) : StringsSeen p (stringListNoCountPiece p).news := by
  unfold stringListNoCountPiece
  by_cases h : isStringList p = true
  · rw [if_pos h]
    exact .strings ((isStringList_iff p).1 h)
  · rw [if_neg h]
    exact .kept fun hc => h ((isStringList_iff p).2 hc)

theorem boxed_seen (o : Options) (p : Param) : BoxedSeen o p (boxedPiece o p).news := by
  unfold boxedPiece
  by_cases h : modifiableRef o p = true
  · rw [if_pos h]
    have hv := modifiableRef_via h
    show BoxedSeen o p [boxedParam o p]
    unfold boxedParam
    by_cases hn : isOptional p = true
    · rw [if_pos hn]
      simp only [isOptional, Bool.and_eq_true] at hn
      have hd := (isNull_iff p).1 hn.2
      rcases hv with hv | hv
      · exact .pointer hv hd
      · exfalso
        have := hn.1
        unfold isPointer at this
        rw [hv.1] at this
        exact absurd this (by decide +kernel)
    · rw [if_neg hn]
      refine .ref ?_
      rcases hv with hv | hv
      · exact .inr ⟨hv, fun hd => hn (isOptional_true hv hd)⟩
      · exact .inl hv
  · rw [if_neg h]
    exact .kept (fun hc => h (outputVia_ref (.inr rfl) hc)) (fun hc => h (outputVia_ref (.inl rfl) hc))

theorem return_seen (o : Options) (p : Param) : ReturnSeen o p (toReturnPiece o p).news := by
  unfold toReturnPiece
  have hio := hiddenOutput_iff o p
  by_cases h : modifiableRef o p = true
  · rw [if_pos h]
    have hv := modifiableRef_via h
    show ReturnSeen o p [returnedParam p]
    unfold returnedParam
    by_cases hn : isOptional p = true
    · rw [if_pos hn]
      simp only [isOptional, Bool.and_eq_true] at hn
      have hd := (isNull_iff p).1 hn.2
      rcases hv with hv | hv
      · exact .optional hv hd
      · exfalso
        have := hn.1
        unfold isPointer at this
        rw [hv.1] at this
        exact absurd this (by decide +kernel)
    · rw [if_neg hn]
      refine .ref ?_
      rcases hv with hv | hv
      · exact .inr ⟨hv, fun hd => hn (isOptional_true hv hd)⟩
      · exact .inl hv
  · rw [if_neg h]
    by_cases ha : modifiableArray o p = true
    · rw [if_pos ha]
      have hh : HiddenOutput o p := hio.1 (by rw [ha, Bool.or_true])
      unfold modifiableArray at ha
      simp only [Bool.and_eq_true, decide_eq_true_eq] at ha
      unfold returnedArrayPiece
      cases hs : arraySize o p with
      | none => rw [hs] at ha; simp at ha
      | some n => exact .array n hh ha.1.1.1 ((isArrayOf_iff o p n).1 hs)
    · rw [if_neg ha]
      refine .kept fun hc => ?_
      have := hio.2 hc
      rw [Bool.or_eq_true] at this
      exact this.elim h ha

theorem array_seen (o : Options) (f : Fn) (p : Param) : ArraySeen o f.name p (arrayPiece o f p).news := by
  unfold arrayPiece
  cases hs : arraySize o p with
  | none =>
    refine .kept fun n => ⟨fun hc => ?_, fun hc => ?_⟩
    · rw [(isArrayOf_iff o p n).2 hc.2.1] at hs; simp at hs
    · rw [(isArrayOf_iff o p n).2 hc.2.1] at hs; simp at hs
  | some n =>
    have hn := (isArrayOf_iff o p n).1 hs
    simp only
    by_cases h : shallStdArray o f p = true
    · rw [if_pos h]
      unfold shallStdArray at h
      simp only [Bool.and_eq_true] at h
      have := ArraySeen.std n (o := o) (fname := f.name) (p := p) ⟨(isConst_iff _).1 h.1.1, hn, h.2⟩
      have heq : arrayOf (typeText { p.type with specifiers := p.type.specifiers.erase "const".toList }) n ++ "&".toList =
          "std::array<".toList ++ print { p.type with specifiers := p.type.specifiers.erase const_ } ++ ", ".toList ++
            (toString n).toList ++ ">&".toList := by
        unfold arrayOf print const_ typeText
        rw [List.append_assoc _ ">".toList, show ">".toList ++ "&".toList = ">&".toList by decide +kernel]
      rw [heq] at this
      exact this
    · rw [if_neg h]
      by_cases hb : (shallBoxArray o f p && decide (n ≤ o.boxedArrayMaxSize)) = true
      · rw [if_pos hb]
        unfold shallBoxArray at hb
        simp only [Bool.and_eq_true, Bool.not_eq_true', decide_eq_true_eq] at hb
        exact .items n ⟨fun hc => by rw [(isConst_iff _).2 hc] at hb; simp at hb, hn, hb.1.2, hb.2⟩
      · rw [if_neg hb]
        refine .kept fun m => ⟨fun hc => h ?_, fun hc => hb ?_⟩
        · unfold shallStdArray
          rw [(isConst_iff _).2 hc.1, hs, hc.2.2]; rfl
        · have hm := (isArrayOf_iff o p m).2 hc.2.1
          rw [hs] at hm
          simp only [Option.some.injEq] at hm
          subst hm
          unfold shallBoxArray
          rw [not_const hc.1, hs, hc.2.2.1]
          simpa using hc.2.2.2

theorem sized_seen {o : Options} {ps : List Param} (hn : NoListNamedSize o ps) : ∀ (m : Nat) (suf : List Param), suf.length ≤ m →
    ∀ (i : Nat) (ys : List Piece), ps.drop i = suf → isStringListSizeAt o ps i = false →
    List.Forall₂ (fun x y => stringListPiece o ps x.2 x.1 = .ok y) (suf.zipIdx i) ys →
    SizedStringsSeen o suf (ys.flatMap (·.news)) := by
  intro m
  induction m with
  | zero =>
    intro suf hm i ys _ _ hf
    have : suf = [] := List.length_eq_zero_iff.1 (by omega)
    subst this
    cases hf
    exact .nil
  | succ m ih =>
    intro suf hm i ys hd hs hf
    match suf, hf with
    | [], .nil => exact .nil
    | p :: r, hf =>
      have hd1 : ps.drop (i + 1) = r := by rw [← List.drop_drop, hd]; rfl
      rw [List.zipIdx_cons] at hf
      cases hf with
      | cons hy hf =>
        rename_i y ys
        by_cases hat : isStringListAt o ps i = true
        · obtain ⟨hp, q, r', rfl, hq⟩ := (stringListAt_iff hd).1 hat
          have hd2 : ps.drop (i + 1 + 1) = r' := by rw [← List.drop_drop, hd1]; rfl
          have hsz : isStringListSizeAt o ps (i + 1) = true := hat
          have hat1 : isStringListAt o ps (i + 1) = false := not_both hn hsz
          rw [List.zipIdx_cons] at hf
          cases hf with
          | cons hy2 hf =>
            rename_i y2 ys
            have h1 := ih r' (by simp at hm; omega) (i + 1 + 1) ys hd2 hat1 hf
            have hy2' : y2 = {} := by
              rcases stringListPiece_inv hy2 with ⟨h, _⟩ | ⟨_, _, h⟩ | ⟨_, h, _⟩
              · rw [hat1] at h; simp at h
              · exact h
              · rw [hsz] at h; simp at h
            subst hy2'
            rcases stringListPiece_inv hy with ⟨_, q', _, hw⟩ | ⟨h, _⟩ | ⟨h, _⟩
            · unfold stringListWithSize at hw
              obtain ⟨ty, _, hw2⟩ := ok_bind hw
              simp only [pure, Except.pure, Except.ok.injEq] at hw2
              subst hw2
              exact .strings hp hq h1
            · rw [hat] at h; simp at h
            · rw [hat] at h; simp at h
        · have hat' : isStringListAt o ps i = false := Bool.eq_false_iff.2 hat
          have h1 := ih r (by simp at hm; omega) (i + 1) ys hd1 hat' hf
          have hy' : y = keep p := by
            rcases stringListPiece_inv hy with ⟨h, _⟩ | ⟨_, h, _⟩ | ⟨_, _, h⟩
            · exact absurd h hat
            · rw [hs] at h; simp at h
            · exact h
          subst hy'
          exact .kept (fun hc => hat ((stringListAt_iff hd).2 hc)) h1

theorem stage_seen {o : Options} {f : Fn} {ps : List Param} {l : Lambda} (h : From o f ps l) :
    ∃ suffix, l.name = f.name ++ suffix ∧ StageSeen o f.name ps l.params suffix := by
  obtain ⟨f1, a, rfl, hfn, h1, hl, ha, hv, hbuf⟩ := h
  refine ⟨a.suffix, h1, ?_⟩
  rw [hl.1]
  rcases adapter_of ha with ⟨k, h⟩ | ⟨k, h⟩ | ⟨k, h⟩ | ⟨k, h⟩ | ⟨k, h⟩ | ⟨k, h⟩ | ⟨k, h⟩ | ⟨k, h⟩ | ⟨k, h⟩ | ⟨k, h⟩ | ⟨k, h⟩ <;> rw [k]
  · exact .buffers
  · refine .exclude ⟨shallExclude o, shallExclude_iff o, ?_⟩
    rw [exclude_inv h]
    show (f1.params.map (excludePiece o)).flatMap (·.news) = _
    induction f1.params with
    | nil => rfl
    | cons p r ih =>
      rw [List.map_cons, List.flatMap_cons, ih, List.filter_cons]
      unfold excludePiece
      cases shallExclude o p <;> rfl
  · rw [mutable_inv h]; exact .mutable_ (each_of (mutable_seen o) _)
  · rw [arrays_inv h, ← hfn]; exact .arrays (each_of (array_seen o f1) _)
  · rw [constChar_inv h]; exact .nullText (each_of nullText_seen _)
  · rw [toReturn_inv h]; exact .return_ (each_of (return_seen o) _)
  · rw [boxed_inv h]; exact .boxed (each_of (boxed_seen o) _)
  · obtain ⟨ys, hys, rfl⟩ := stringList_inv h
    exact .sizedStrings fun hn => sized_seen hn _ f1.params (Nat.le_refl _) 0 ys rfl rfl (stringListPieces_forall _ _ hys)
  · rw [noCount_inv h]; exact .strings (each_of strings_seen _)
  · obtain ⟨first, fmt, last, hp, _, _, rfl⟩ := variadic_inv h
    refine .format last ?_
    rw [hp]
    simp [collect, variadicPieces, keep, List.flatMap_append, List.flatMap_map]
  · rw [h]
    refine .force ?_
    simp [forceLambda, collect, keep, List.flatMap_map]

end Verif.Adapt
