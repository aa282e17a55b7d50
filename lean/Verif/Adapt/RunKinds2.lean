import Verif.Adapt.RunKinds

/-! What each kind of piece does during a call, continued. -/

namespace Verif.Adapt
open Verif.Py Verif.Type Spec

theorem join_last (sep : Str) (m : Str) (hm : m ≠ []) : ∀ (xs : List Str), (join sep (xs ++ [m])).getLast? = m.getLast?
  | [] => by simp [join]
  | [x] => by
    show (join sep [x, m]).getLast? = _
    rw [join_cons_cons, List.getLast?_append]
    simp only [join]
    cases h : m.getLast? with
    | none => exact absurd (List.getLast?_eq_none_iff.1 h) hm
    | some c => simp [List.getLast?_append, h]
  | x :: y :: r => by
    have ih := join_last sep m hm (y :: r)
    rw [List.cons_append, List.cons_append, join_cons_cons, ← List.cons_append, List.getLast?_append, ih]
    cases h : m.getLast? with
    | none => exact absurd (List.getLast?_eq_none_iff.1 h) hm
    | some c => simp

theorem print_refers {t : CppType} {m : Str} (hm : t.modifiers = [m]) (h : m = "*".toList ∨ m = "&".toList)
    (hc : t.specifiers.count "const".toList ≤ 1) : refersTo (print t) = true := by
  have hm0 : m ≠ [] := by rcases h with rfl | rfl <;> decide +kernel
  have hcc : t.specifiers.count const_ ≤ 1 := hc
  have hl : (print t).getLast? = m.getLast? := by
    unfold print strCode
    rw [if_neg (by omega)]
    simp only [Option.getD_some]
    have hf : finalConst t.specifiers = [] := by
      unfold finalConst; rw [if_neg (by omega)]
    rw [hf, List.append_nil, hm]
    have hj : joinRemoveEmpty blank [m] = m := by
      unfold joinRemoveEmpty
      have : 0 < m.length := List.length_pos_iff.2 hm0
      simp [this, join]
    rw [hj]
    have hfil : ∀ a b : Str, [a, b, m].filter (fun s => decide (s.length > 0)) = [a, b].filter (fun s => decide (s.length > 0)) ++ [m] := by
      intro a b
      have : 0 < m.length := List.length_pos_iff.2 hm0
      rw [show [a, b, m] = [a, b] ++ [m] from rfl, List.filter_append]
      simp [this]
    unfold joinRemoveEmpty
    rw [hfil]
    exact join_last _ _ hm0 _
  unfold refersTo
  rw [hl]
  rcases h with rfl | rfl <;> decide +kernel

theorem refers_append_star (s : Str) : refersTo (s ++ " *".toList) = true := by
  unfold refersTo
  have : (s ++ " *".toList).getLast? = some '*' := by
    rw [show " *".toList = [' '] ++ ['*'] from rfl, ← List.append_assoc, List.getLast?_append]; rfl
  rw [this]; decide

variable {code : Code} {sizes : Str → Option Nat}

theorem exec_null {env : Env} {x type l : Str} {acc : Access} {v : Val} (he : env x = some (.val v)) (hv : v = .null ∨ v = .none_)
    (ht : refersTo type = true) : exec code sizes env (.bindOrNull type l x acc) = .ok (env.set l (.val .null)) := by
  simp only [exec, contents_val he, ok_bind', ht, Bool.not_true, Bool.false_eq_true, if_false]
  rcases hv with rfl | rfl <;> rfl

theorem constCharNull_iff (p : Param) : constCharNull p = true ↔ NullText p := by
  unfold constCharNull NullText isNull null1 null2 isConst const_ star
  generalize "const".toList = a
  generalize "char".toList = b
  generalize "NULL".toList = c
  generalize "nullptr".toList = d
  simp only [Bool.and_eq_true, decide_eq_true_eq, Bool.or_eq_true, and_assoc]
  exact Iff.rfl

theorem nullText_run {p : Param} {x : Passing} (hc : p.type.specifiers.count "const".toList ≤ 1) (h : NullTextCall p x) :
    PieceRun code sizes (constCharPiece p) x := by
  have ho := constCharPiece_own p
  cases h with
  | kept _ hx hk =>
    have : constCharNull p = false := Bool.eq_false_iff.2 fun h => hx ((constCharNull_iff p).1 h)
    unfold constCharPiece
    rw [this]
    exact keep_run hk
  | none_ hx =>
    have : constCharNull p = true := (constCharNull_iff p).2 hx
    have ht := print_refers hx.1 (.inl rfl) hc
    unfold constCharPiece at ho ⊢
    rw [this] at ho ⊢
    refine local_run (p := p) (b := .null) ho rfl rfl rfl rfl rfl rfl
      (fun env he => exec_null he (by simp) ht) (.inl ⟨rfl, rfl⟩) (.inl ⟨rfl, rfl⟩)
  | some_ v hx =>
    have : constCharNull p = true := (constCharNull_iff p).2 hx
    have ht := print_refers hx.1 (.inl rfl) hc
    unfold constCharPiece at ho ⊢
    rw [this] at ho ⊢
    have := refers_run (code := code) (sizes := sizes) (p := p) (acc := .cStr) (v := .some_ v) (w := .ptr v) (w' := .ptr v)
      (v' := .some_ v) ho rfl rfl rfl rfl rfl (.inr ⟨rfl, by simp, by simp⟩) ht rfl rfl (.inl ⟨rfl, rfl⟩)
    rw [ite_self] at this
    exact this

/-! ### Modifiable parameters -/

theorem outputVia_ref {o : Options} {m : Str} {p : Param} (hm : m = "*".toList ∨ m = "&".toList) (h : OutputVia o m p) :
    modifiableRef o p = true := by
  obtain ⟨h1, h2, h3⟩ := h
  unfold modifiableRef
  rw [h1]
  have hi : o.immutable (nameOnly p.type) = true := h3
  have hc : isConst p.type = false := Bool.eq_false_iff.2 fun h => h2 ((isConst_iff _).1 h)
  rw [hi, hc]
  rcases hm with rfl | rfl <;> decide +kernel

theorem modifiableRef_via {o : Options} {p : Param} (h : modifiableRef o p = true) :
    OutputVia o "*".toList p ∨ OutputVia o "&".toList p := by
  unfold modifiableRef at h
  simp only [Bool.and_eq_true, Bool.or_eq_true, decide_eq_true_eq] at h
  obtain ⟨⟨h1, h2⟩, h3⟩ := h
  have h2' : "const".toList ∉ p.type.specifiers := fun hc => by
    rw [(isConst_iff _).2 hc] at h2; exact absurd h2 (by decide)
  rcases h1 with h1 | h1
  · exact .inl ⟨h1, h2', h3⟩
  · exact .inr ⟨h1, h2', h3⟩

theorem isNull_iff (p : Param) : isNull p.default = true ↔ NullDefault p := by
  unfold isNull NullDefault null1 null2
  simp only [Bool.or_eq_true, decide_eq_true_eq]

theorem isOptional_true {o : Options} {p : Param} (h : OutputVia o "*".toList p) (hn : NullDefault p) : isOptional p = true := by
  unfold isOptional isPointer
  rw [h.1, (isNull_iff p).2 hn]; decide +kernel

theorem isOptional_false {p : Param} (hn : ¬ NullDefault p) : isOptional p = false := by
  unfold isOptional
  rw [Bool.eq_false_iff.2 fun h => hn ((isNull_iff p).1 h), Bool.and_false]

theorem isPointer_true {o : Options} {p : Param} (h : OutputVia o "*".toList p) : isPointer p = true := by
  unfold isPointer; rw [h.1]; decide +kernel

theorem isPointer_false {o : Options} {p : Param} (h : OutputVia o "&".toList p) : isPointer p = false := by
  unfold isPointer; rw [h.1]; decide +kernel

theorem no_const_count {l : List Str} (h : "const".toList ∉ l) : l.count "const".toList ≤ 1 := by
  rw [List.count_eq_zero_of_not_mem h]; omega

theorem byReference_amp {p : Param} (h : p.type.modifiers = [amp]) : ByReference p := .inl (by rw [h]; decide +kernel)
theorem byReference_star {p : Param} (h : p.type.modifiers = [star]) : ByReference p := .inr (.inl (by rw [h]; decide +kernel))

theorem boxed_run {o : Options} {p : Param} {x : Passing} (h : BoxedCall o p x) : PieceRun code sizes (boxedPiece o p) x := by
  have ho := boxedPiece_own o p
  cases h with
  | kept _ h1 h2 hk =>
    have : modifiableRef o p = false := Bool.eq_false_iff.2 fun h => (modifiableRef_via h).elim h2 h1
    unfold boxedPiece
    rw [this]
    exact keep_run hk
  | ref v v' h1 =>
    have hm := outputVia_ref (.inr rfl) h1
    have hp := isPointer_false h1
    have hopt : isOptional p = false := by unfold isOptional; rw [hp]; rfl
    unfold boxedPiece boxedStmt boxedParam at ho ⊢
    rw [hm, hopt, hp] at ho ⊢
    simp only [if_true, Bool.false_eq_true, if_false] at ho ⊢
    have := refers_run (code := code) (sizes := sizes) (p := p) (acc := .value) (v := .box v) (w := v) (w' := v')
      (v' := .box v') ho rfl rfl rfl rfl rfl (.inl rfl) (print_refers h1.1 (.inr rfl) (no_const_count h1.2.1)) rfl rfl (.inl ⟨rfl, rfl⟩)
    rw [if_pos (byReference_amp rfl)] at this
    exact this
  | pointer v v' h1 hn =>
    have hm := outputVia_ref (.inl rfl) h1
    have hp := isPointer_true h1
    have hopt : isOptional p = false := isOptional_false hn
    unfold boxedPiece boxedStmt boxedParam at ho ⊢
    rw [hm, hopt, hp] at ho ⊢
    simp only [if_true, Bool.false_eq_true, if_false] at ho ⊢
    have := refers_run (code := code) (sizes := sizes) (p := p) (acc := .addrValue) (v := .box v) (w := .ptr v) (w' := .ptr v')
      (v' := .box v') ho rfl rfl rfl rfl rfl (.inl rfl) (print_refers h1.1 (.inl rfl) (no_const_count h1.2.1)) rfl rfl (.inl ⟨rfl, rfl⟩)
    rw [if_pos (byReference_amp rfl)] at this
    exact this
  | some_ v v' h1 hn =>
    have hm := outputVia_ref (.inl rfl) h1
    have hopt : isOptional p = true := isOptional_true h1 hn
    unfold boxedPiece boxedStmt boxedParam at ho ⊢
    rw [hm, hopt] at ho ⊢
    simp only [if_true] at ho ⊢
    have := refers_run (code := code) (sizes := sizes) (p := p) (acc := .addrArrowValue) (v := .ptr (.box v)) (w := .ptr v) (w' := .ptr v')
      (v' := .ptr (.box v')) ho rfl rfl rfl rfl rfl (.inr ⟨rfl, by simp, by simp⟩)
      (print_refers h1.1 (.inl rfl) (no_const_count h1.2.1)) rfl rfl (.inl ⟨rfl, rfl⟩)
    rw [if_pos (byReference_star rfl)] at this
    exact this
  | none_ h1 hn =>
    have hm := outputVia_ref (.inl rfl) h1
    have hopt : isOptional p = true := isOptional_true h1 hn
    have ht := print_refers h1.1 (.inl rfl) (no_const_count h1.2.1)
    unfold boxedPiece boxedStmt boxedParam at ho ⊢
    rw [hm, hopt] at ho ⊢
    simp only [if_true] at ho ⊢
    refine local_run (p := p) (b := .null) ho rfl rfl rfl rfl rfl rfl
      (fun env he => exec_null he (by simp) ht) (.inl ⟨rfl, rfl⟩) (.inl ⟨rfl, rfl⟩)

theorem byValue {p : Param} (h : p.type.modifiers = []) (ha : p.arrayCode = []) : ¬ ByReference p := by
  unfold ByReference; rw [h, ha]; simp

theorem byValue_mk {n d a : Str} {s ts : List Str} (ha : a = []) :
    ¬ ByReference { name := n, type := { specifiers := s, typenames := ts, modifiers := [] }, arrayCode := a, default := d } :=
  byValue rfl ha

theorem return_run {o : Options} {p : Param} {x : Passing} (h : ReturnCall o p x) : PieceRun code sizes (toReturnPiece o p) x := by
  have ho := toReturnPiece_own o p
  cases h with
  | kept _ h1 hk =>
    have h2 : (modifiableRef o p || modifiableArray o p) = false := Bool.eq_false_iff.2 fun h => h1 ((hiddenOutput_iff o p).1 h)
    rw [Bool.or_eq_false_iff] at h2
    unfold toReturnPiece
    rw [h2.1, h2.2]
    exact keep_run hk
  | ref v v' h1 ha =>
    have hm := outputVia_ref (.inr rfl) h1
    have hp := isPointer_false h1
    have hopt : isOptional p = false := by unfold isOptional; rw [hp]; rfl
    unfold toReturnPiece returnedStmt returnedParam at ho ⊢
    rw [hm, hopt, hp] at ho ⊢
    simp only [if_true, Bool.false_eq_true, if_false] at ho ⊢
    have := refers_run (code := code) (sizes := sizes) (p := p) (acc := .self) (v := v) (w := v) (w' := v')
      (v' := v') ho rfl rfl rfl rfl rfl (.inl rfl) (print_refers h1.1 (.inr rfl) (no_const_count h1.2.1)) rfl rfl (.inr ⟨rfl, rfl⟩)
    rw [if_neg (byValue_mk ha)] at this
    exact this
  | pointer v v' h1 ha hn =>
    have hm := outputVia_ref (.inl rfl) h1
    have hp := isPointer_true h1
    have hopt : isOptional p = false := isOptional_false hn
    unfold toReturnPiece returnedStmt returnedParam at ho ⊢
    rw [hm, hopt, hp] at ho ⊢
    simp only [if_true, Bool.false_eq_true, if_false] at ho ⊢
    have := refers_run (code := code) (sizes := sizes) (p := p) (acc := .addr) (v := v) (w := .ptr v) (w' := .ptr v')
      (v' := v') ho rfl rfl rfl rfl rfl (.inl rfl) (print_refers h1.1 (.inl rfl) (no_const_count h1.2.1)) rfl rfl (.inr ⟨rfl, rfl⟩)
    rw [if_neg (byValue_mk ha)] at this
    exact this
  | some_ v v' h1 ha hn =>
    have hm := outputVia_ref (.inl rfl) h1
    have hopt : isOptional p = true := isOptional_true h1 hn
    unfold toReturnPiece returnedStmt returnedParam at ho ⊢
    rw [hm, hopt] at ho ⊢
    simp only [if_true] at ho ⊢
    have := refers_run (code := code) (sizes := sizes) (p := p) (acc := .addrDeref) (v := .some_ v) (w := .ptr v) (w' := .ptr v')
      (v' := .some_ v') ho rfl rfl rfl rfl rfl (.inr ⟨rfl, by simp, by simp⟩)
      (print_refers h1.1 (.inl rfl) (no_const_count h1.2.1)) rfl rfl (.inr ⟨rfl, rfl⟩)
    rw [if_neg (byValue_mk ha)] at this
    exact this
  | none_ h1 ha hn =>
    have hm := outputVia_ref (.inl rfl) h1
    have hopt : isOptional p = true := isOptional_true h1 hn
    have ht := print_refers h1.1 (.inl rfl) (no_const_count h1.2.1)
    unfold toReturnPiece returnedStmt returnedParam at ho ⊢
    rw [hm, hopt] at ho ⊢
    simp only [if_true] at ho ⊢
    refine local_run (p := p) (b := .null) ho rfl rfl rfl rfl rfl rfl
      (fun env he => exec_null he (by simp) ht) (.inl ⟨rfl, rfl⟩) (.inr ⟨rfl, rfl⟩)
  | array l l' h1 hmod hsz hl =>
    have hr : modifiableRef o p = false := Bool.eq_false_iff.2 fun h => by
      rcases modifiableRef_via h with h | h <;> rw [h.1] at hmod <;> exact absurd hmod (by simp)
    have h2 := (hiddenOutput_iff o p).2 h1
    rw [hr, Bool.false_or] at h2
    have hs : arraySize o p = some l.length := by unfold arraySize; rw [if_neg hsz.1]; exact hsz.2
    unfold toReturnPiece returnedArrayPiece at ho ⊢
    rw [hr, h2, hs] at ho ⊢
    have := refers_run (code := code) (sizes := sizes) (p := p) (acc := .data) (v := .list l) (w := .ptr (.list l)) (w' := .ptr (.list l'))
      (v' := .list l') ho rfl rfl rfl rfl rfl (.inl rfl) (refers_append_star _) rfl rfl (.inr ⟨rfl, rfl⟩)
    rw [if_neg (byValue rfl rfl)] at this
    exact this

/-! ### Lists of strings -/

theorem strings_run {p : Param} {x : Passing} (h : StringsCall p x) : PieceRun code sizes (stringListNoCountPiece p) x := by
  have ho := noCountPiece_own p
  cases h with
  | kept _ h1 hk =>
    have : isStringList p = false := Bool.eq_false_iff.2 fun h => h1 ((isStringList_iff p).1 h)
    unfold stringListNoCountPiece
    rw [this]
    exact keep_run hk
  | strings l h1 =>
    have : isStringList p = true := (isStringList_iff p).2 h1
    unfold stringListNoCountPiece at ho ⊢
    rw [this] at ho ⊢
    exact local_run (p := p) (b := .list (l.map .ptr)) ho rfl rfl rfl rfl rfl rfl
      (fun env he => by simp only [exec, contents_val he, ok_bind']; rfl)
      (.inr ⟨rfl, rfl, _, rfl⟩) (.inl ⟨rfl, rfl⟩)

theorem format_run {fmt : Param} {v v' c : Val} (h : MayBecome fmt v v') :
    PieceRun code sizes { news := [fmt], args := [.code percentS, .var fmt.name] }
      { python := [v], cpp := [code "\"%s\"".toList, v], cppAfter := [c, v'], pythonAfter := [v'] } := by
  refine ⟨by constructor <;> simp [names, Scoped, argReads], by simp, rfl, rfl, ?_⟩
  intro env _ hb
  obtain ⟨w, hw, hv⟩ := bound_one hb
  simp only [List.cons.injEq, and_true] at hw
  subst hw
  refine ⟨env, env.set fmt.name (.val v'), env.set fmt.name (.val v'), [v'], rfl, ?_, ?_, rfl,
    contentsAll_one (contents_val (set_self _ _ _)), rfl, ?_, rfl⟩
  · show evalAll code env ([.code percentS] ++ [.var fmt.name]) = .ok ([_] ++ [v])
    exact evalAll_append code env _ (vs := []) _ (evalAll_one rfl) (evalAll_one (contents_val hv))
  · simp only [changedAll, changed, ok_bind']
    rw [store_val hv, ok_bind']
  · simp only [seen]
    split
    · rfl
    · rename_i hr
      rw [h.1 (.inr hr)]

theorem sizedStrings_run {p q : Param} {y : Piece} (hy : stringListWithSize p q = .ok y) (ho : Own y) (l : List Val) :
    PieceRun code sizes y { python := [.list l], cpp := [cStrings l, .data l.length], cppAfter := [cStrings l, .data l.length],
                            pythonAfter := [.list l] } := by
  have hy' : ∃ ty, y = { news := [vectorParam p]
                         input := [.stringPtrs (ptrsName p.name) p.name, .sizeOf ty q.name p.name]
                         args := [.data (ptrsName p.name), .var q.name] } := by
    unfold stringListWithSize at hy
    cases h : q.type.typenames.head? with
    | none => rw [h] at hy; simp [orRaise, bind, Except.bind] at hy
    | some ty =>
      rw [h] at hy
      simp only [orRaise, bind, Except.bind, pure, Except.pure, Except.ok.injEq] at hy
      exact ⟨ty, hy.symm⟩
  obtain ⟨ty, rfl⟩ := hy'
  refine ⟨ho, by simp, rfl, rfl, ?_⟩
  intro env hn hb
  obtain ⟨v0, hv0, he⟩ := bound_one hb
  simp only [List.cons.injEq, and_true] at hv0
  subst hv0
  change env p.name = _ at he
  have hn' : (p.name :: [ptrsName p.name, q.name]).Nodup := hn
  simp only [List.nodup_cons, List.mem_cons, List.not_mem_nil, or_false, not_or] at hn'
  obtain ⟨⟨n1, n2⟩, n3, _⟩ := hn'
  let e1 : Env := (env.set (ptrsName p.name) (.val (.list (l.map .ptr)))).set q.name (.val (.data l.length))
  have a1 : e1 (ptrsName p.name) = some (.val (.list (l.map .ptr))) := (set_ne _ _ n3).trans (set_self _ _ _)
  have a2 : e1 q.name = some (.val (.data l.length)) := set_self _ _ _
  have a3 : e1 p.name = some (.val (.list l)) := (set_ne _ _ n2).trans ((set_ne _ _ n1).trans he)
  let e2 : Env := (e1.set (ptrsName p.name) (.val (.list (l.map .ptr)))).set q.name (.val (.data l.length))
  have b3 : e2 p.name = some (.val (.list l)) := (set_ne _ _ n2).trans ((set_ne _ _ n1).trans a3)
  refine ⟨e1, e2, e2, [.list l], ?_, ?_, ?_, rfl, contentsAll_one (contents_val b3), rfl, ?_, rfl⟩
  · simp only [execAll, exec]
    rw [contents_val he]
    simp only [ok_bind', asList]
    show (contents (env.set (ptrsName p.name) (.val (.list (l.map .ptr)))) p.name >>= _) >>= _ = _
    rw [contents_val ((set_ne _ _ n1).trans he)]
    rfl
  · simp only [evalAll, eval, reading]
    rw [contents_val a1]
    simp only [ok_bind', access, valid]
    rw [contents_val a2]
    rfl
  · simp only [changedAll, changed, writing]
    rw [contents_val a1]
    simp only [ok_bind', update, valid, cStrings]
    rw [store_val a1]
    simp only [ok_bind']
    rw [store_val ((set_ne _ _ (Ne.symm n3)).trans a2)]
    rfl
  · simp [seen]

end Verif.Adapt
