import Verif.Adapt.RunKinds2

/-! What the glue code of the C arrays does during a call. -/

namespace Verif.Adapt
open Verif.Py Verif.Type Spec

variable {code : Code} {sizes : Str → Option Nat}

/-- The items are wrapped (in boxes, or not at all) in a way that the accessor sees through. -/
structure Wraps (acc : Access) (wrap : Val → Val) : Prop where
  access : ∀ v, access acc (wrap v) = some v
  update : ∀ v v', update acc (wrap v) v' = some (wrap v')

theorem set_set (e : Env) (x : Str) (v w : Var) : (e.set x v).set x w = e.set x w := by
  funext y; unfold Env.set; split <;> rfl

theorem set_items {acc : Access} {wrap : Val → Val} (hw : Wraps acc wrap) {raw : Str} {item : Nat → Str} {env : Env} {l : List Val}
    (hi : ∀ i (h : i < l.length), env (item i) = some (.val (wrap l[i]))) (hne : ∀ i < l.length, item i ≠ raw)
    (hr : env raw = some (.raw (List.replicate l.length .undef))) : ∀ k ≤ l.length,
    execAll code sizes env ((List.range k).map (fun i => .setItem raw i (item i) acc)) =
      .ok (env.set raw (.raw (l.take k ++ List.replicate (l.length - k) .undef)))
  | 0, _ => by
    simp only [List.range_zero, List.map_nil, execAll, List.take_zero, List.nil_append, Nat.sub_zero, Except.ok.injEq]
    funext y
    unfold Env.set
    split
    · rename_i h; rw [h, hr]
    · rfl
  | k + 1, hk => by
    rw [List.range_succ, List.map_append, execAll_append, set_items hw hi hne hr k (by omega), ok_bind']
    simp only [List.map_cons, List.map_nil]
    refine execAll_one ?_
    simp only [exec, reading]
    rw [contents_val ((set_ne _ _ (hne k (by omega))).trans (hi k (by omega))), ok_bind', hw.access]
    simp only [valid, ok_bind', set_self]
    rw [if_pos (by simp; omega), set_set]
    have h1 : (l.take k ++ List.replicate (l.length - k) Val.undef).set k l[k] =
        l.take (k + 1) ++ List.replicate (l.length - (k + 1)) .undef := by
      have hlen : (l.take k).length = k := by simp; omega
      rw [List.set_append_right _ _ (by omega), hlen, Nat.sub_self]
      have h2 : List.replicate (l.length - k) Val.undef = .undef :: List.replicate (l.length - (k + 1)) .undef := by
        rw [← List.replicate_succ]; congr 1; omega
      rw [h2, List.set_cons_zero, List.take_succ_eq_append_getElem (by omega), List.append_assoc]
      rfl
    rw [h1]
    rfl

theorem get_items {acc : Access} {wrap : Val → Val} (hw : Wraps acc wrap) {raw : Str} {item : Nat → Str} {env : Env} {l l' : List Val}
    (hl : l'.length = l.length) (hi : ∀ i (h : i < l.length), env (item i) = some (.val (wrap l[i])))
    (hne : ∀ i < l.length, item i ≠ raw) (hinj : ∀ i < l.length, ∀ j < l.length, item i = item j → i = j)
    (hr : env raw = some (.raw l')) : ∀ k ≤ l.length, ∃ e',
    execAll code sizes env ((List.range k).map (fun i => .getItem (item i) acc raw i)) = .ok e' ∧ e' raw = some (.raw l') ∧
    ∀ i (h : i < l.length), e' (item i) = some (.val (wrap (if i < k then l'[i]'(by omega) else l[i])))
  | 0, _ => ⟨env, rfl, hr, fun i h => by rw [if_neg (by omega)]; exact hi i h⟩
  | k + 1, hk => by
    obtain ⟨e', h1, h2, h3⟩ := get_items hw hl hi hne hinj hr k (by omega)
    refine ⟨e'.set (item k) (.val (wrap (l'[k]'(by omega)))), ?_, ?_, ?_⟩
    · rw [List.range_succ, List.map_append, execAll_append, h1, ok_bind']
      simp only [List.map_cons, List.map_nil]
      refine execAll_one ?_
      simp only [exec, h2]
      rw [List.getElem?_eq_getElem (by omega)]
      simp only [valid, ok_bind', writing]
      rw [contents_val (h3 k (by omega)), ok_bind', hw.update]
      exact store_val (h3 k (by omega)) _
    · rw [set_ne _ _ (Ne.symm (hne k (by omega)))]; exact h2
    · intro i h
      by_cases hik : i = k
      · subst hik
        rw [set_self, if_pos (by omega)]
      · rw [set_ne _ _ (fun he => hik (hinj i h k (by omega) he)), h3 i h]
        by_cases h4 : i < k
        · rw [if_pos h4, if_pos (by omega)]
        · rw [if_neg h4, if_neg (by omega)]

theorem bound_get {e : Env} {xs : List Str} {vs : List Val} (h : Bound e xs vs) : ∀ i (h1 : i < xs.length) (h2 : i < vs.length),
    e xs[i] = some (.val vs[i]) := by
  induction h with
  | nil => intro i h; simp at h
  | cons h1 _ ih =>
    intro i g1 g2
    cases i with
    | zero => exact h1
    | succ i => exact ih i (by simpa using g1) (by simpa using g2)

theorem contentsAll_get {e : Env} : ∀ (xs : List Str) (vs : List Val) (_ : xs.length = vs.length),
    (∀ i (h1 : i < xs.length) (h2 : i < vs.length), e xs[i] = some (.val vs[i])) → contentsAll e xs = .ok vs
  | [], [], _, _ => rfl
  | [], _ :: _, h, _ => by simp at h
  | _ :: _, [], h, _ => by simp at h
  | x :: xs, v :: vs, h, hg => by
    simp only [contentsAll]
    have h0 : e x = some (.val v) := hg 0 (by simp) (by simp)
    rw [contents_val h0, ok_bind',
      contentsAll_get xs vs (by simpa using h) (fun i h1 h2 => hg (i + 1) (by simpa using h1) (by simpa using h2))]
    rfl

theorem seen_all : ∀ (ps : List Param) (vs ws : List Val), ps.length = vs.length → ws.length = vs.length →
    (∀ p ∈ ps, ByReference p) → seen ps vs ws = ws
  | [], [], [], _, _, _ => rfl
  | [], [], _ :: _, _, h, _ => by simp at h
  | [], _ :: _, _, h, _, _ => by simp at h
  | _ :: _, [], _, h, _, _ => by simp at h
  | _ :: _, _ :: _, [], _, h, _ => by simp at h
  | p :: ps, v :: vs, w :: ws, h, h', hp => by
    simp only [seen]
    rw [if_pos (hp p List.mem_cons_self), seen_all ps vs ws (by simpa using h) (by simpa using h')
      (fun q hq => hp q (List.mem_cons_of_mem p hq))]

theorem boxedArray_run {o : Options} {p : Param} {l l' : List Val} {wrap : Val → Val} (hw : Wraps (itemAccess o p) wrap)
    (hs : sizes p.arrayCode = some l.length) (hl : l'.length = l.length) :
    PieceRun code sizes (boxedArrayPiece o p l.length)
      { python := l.map wrap, cpp := [.ptr (.list l)], cppAfter := [.ptr (.list l')], pythonAfter := l'.map wrap } := by
  have hnames : names (boxedArrayPiece o p l.length).news = (List.range l.length).map (itemName p.name) := by
    unfold names boxedArrayPiece
    simp only [List.map_map]
    rfl
  have hinj : ∀ i < l.length, ∀ j < l.length, itemName p.name i = itemName p.name j → i = j :=
    fun i _ j _ h => (itemName_inj h).2
  refine ⟨boxedArrayPiece_own o p l.length, ?_, rfl, by simp [boxedArrayPiece], ?_⟩
  · intro s hs'
    simp only [boxedArrayPiece, List.mem_map] at hs'
    obtain ⟨i, _, rfl⟩ := hs'
    rfl
  intro env hn hb
  have hraw : ∀ i < l.length, itemName p.name i ≠ rawName p.name := by
    intro i hi he
    unfold scope at hn
    rw [hnames, List.nodup_append] at hn
    refine hn.2.2 (itemName p.name i) (List.mem_map.2 ⟨i, List.mem_range.2 hi, rfl⟩) (rawName p.name) ?_ he
    simp only [boxedArrayPiece, List.flatMap_cons, declares]
    simp
  rw [hnames] at hb
  have hitems : ∀ i (h : i < l.length), env (itemName p.name i) = some (.val (wrap l[i])) := by
    intro i h
    have := bound_get hb i (by simpa using h) (by simpa using h)
    simpa using this
  let e0 : Env := env.set (rawName p.name) (.raw (List.replicate l.length .undef))
  have h0 : ∀ i (h : i < l.length), e0 (itemName p.name i) = some (.val (wrap l[i])) :=
    fun i h => (set_ne _ _ (hraw i h)).trans (hitems i h)
  have h1 := set_items (code := code) (sizes := sizes) hw h0 hraw (set_self _ _ _) l.length (Nat.le_refl _)
  rw [List.take_length, Nat.sub_self, List.replicate_zero, List.append_nil] at h1
  let e1 : Env := e0.set (rawName p.name) (.raw l)
  have h1i : ∀ i (h : i < l.length), e1 (itemName p.name i) = some (.val (wrap l[i])) :=
    fun i h => (set_ne _ _ (hraw i h)).trans (h0 i h)
  let e2 : Env := e1.set (rawName p.name) (.raw l')
  have h2i : ∀ i (h : i < l.length), e2 (itemName p.name i) = some (.val (wrap l[i])) :=
    fun i h => (set_ne _ _ (hraw i h)).trans (h1i i h)
  obtain ⟨e3, g1, g2, g3⟩ := get_items (code := code) (sizes := sizes) hw hl h2i hraw hinj (set_self _ _ _) l.length (Nat.le_refl _)
  refine ⟨e1, e2, e3, l'.map wrap, ?_, evalAll_one (contents_raw (set_self _ _ _)), changedAll_one ?_, g1, ?_,
    by simp [boxedArrayPiece, hl], ?_, rfl⟩
  · show execAll code sizes env (_ :: _) = _
    simp only [execAll, exec]
    rw [hs]
    simp only [valid, ok_bind']
    exact h1
  · simp only [changed, store]
    rw [show e1 (rawName p.name) = some (.raw l) from set_self _ _ _]
  · rw [hnames]
    refine contentsAll_get _ _ (by simp [hl]) ?_
    intro i hi1 hi2
    have := g3 i (by simpa using hi1)
    rw [if_pos (by simpa using hi1)] at this
    simpa using this
  · refine seen_all _ _ _ (by simp [boxedArrayPiece]) (by simp [hl]) ?_
    intro q hq
    simp only [boxedArrayPiece, List.mem_map] at hq
    obtain ⟨i, _, rfl⟩ := hq
    exact byReference_amp rfl

theorem isArrayOf_iff (o : Options) (p : Param) (n : Nat) : arraySize o p = some n ↔ IsArrayOf o p n := by
  unfold arraySize IsArrayOf
  by_cases h : p.arrayCode = []
  · simp [h]
  · simp [h]

theorem not_const {p : Param} (h : "const".toList ∉ p.type.specifiers) : isConst p.type = false :=
  Bool.eq_false_iff.2 fun hc => h ((isConst_iff _).1 hc)

theorem array_run {o : Options} {f : Fn} {p : Param} {x : Passing}
    (hagree : p.arrayCode ≠ [] → o.immutable (join [' '] p.type.typenames) = o.immutable ((strCode p.type).getD []))
    (h : ArrayCall o f.name p x) : PieceRun code o.arraySize (arrayPiece o f p) x := by
  cases h with
  | std l h1 =>
    obtain ⟨hc, hn, ho⟩ := h1
    have hs := (isArrayOf_iff o p l.length).2 hn
    have hstd : shallStdArray o f p = true := by
      unfold shallStdArray; rw [(isConst_iff _).2 hc, hs, ho]; rfl
    have hown := arrayPiece_own o f p
    unfold arrayPiece at hown ⊢
    rw [hs] at hown ⊢
    simp only [hstd, if_true] at hown ⊢
    refine ⟨hown, by simp, rfl, rfl, ?_⟩
    intro env _ hb
    obtain ⟨w, hw, hv⟩ := bound_one hb
    simp only [List.cons.injEq, and_true] at hw
    subst hw
    change env p.name = _ at hv
    refine ⟨env, env.set p.name (.val (.list l)), env.set p.name (.val (.list l)), [.list l], rfl, evalAll_one ?_, changedAll_one ?_, rfl,
      contentsAll_one (contents_val (set_self _ _ _)), rfl, by simp [seen], rfl⟩
    · simp only [eval, reading]; rw [contents_val hv]; rfl
    · simp only [changed, writing]; rw [contents_val hv]
      simp only [ok_bind', update, valid]
      exact store_val hv _
  | boxes l l' h1 hl hi =>
    obtain ⟨hc, hn, ho, hmax⟩ := h1
    have hs := (isArrayOf_iff o p l.length).2 hn
    have hbox : shallBoxArray o f p = true := by
      unfold shallBoxArray; rw [not_const hc, hs, ho]; rfl
    have hstd : shallStdArray o f p = false := by
      unfold shallStdArray; rw [not_const hc]; rfl
    have hacc : itemAccess o p = .value := by
      unfold itemAccess
      rw [if_pos (show o.immutable (nameOnly p.type) = true from (hagree hn.1).trans hi)]
    have := boxedArray_run (code := code) (sizes := o.arraySize) (o := o) (p := p) (wrap := .box) (l := l) (l' := l')
      (by rw [hacc]; exact ⟨fun _ => rfl, fun _ _ => rfl⟩) hn.2 hl
    unfold arrayPiece
    rw [hs]
    simp only [hstd, hbox, hmax, Bool.false_eq_true, if_false, decide_true, Bool.and_self, if_true]
    exact this
  | objects l l' h1 hl hi =>
    obtain ⟨hc, hn, ho, hmax⟩ := h1
    have hs := (isArrayOf_iff o p l.length).2 hn
    have hbox : shallBoxArray o f p = true := by
      unfold shallBoxArray; rw [not_const hc, hs, ho]; rfl
    have hstd : shallStdArray o f p = false := by
      unfold shallStdArray; rw [not_const hc]; rfl
    have hacc : itemAccess o p = .self := by
      unfold itemAccess
      rw [if_neg (show ¬ o.immutable (nameOnly p.type) = true by
        rw [show o.immutable (nameOnly p.type) = false from (hagree hn.1).trans hi]; decide)]
    have := boxedArray_run (code := code) (sizes := o.arraySize) (o := o) (p := p) (wrap := id) (l := l) (l' := l')
      (by rw [hacc]; exact ⟨fun _ => rfl, fun _ _ => rfl⟩) hn.2 hl
    rw [List.map_id, List.map_id] at this
    unfold arrayPiece
    rw [hs]
    simp only [hstd, hbox, hmax, Bool.false_eq_true, if_false, decide_true, Bool.and_self, if_true]
    exact this
  | kept _ h1 hk =>
    have : arrayPiece o f p = keep p := by
      unfold arrayPiece
      cases hs : arraySize o p with
      | none => rfl
      | some n =>
        have hn := (isArrayOf_iff o p n).1 hs
        have g := h1 n
        have hstd : shallStdArray o f p = false := Bool.eq_false_iff.2 fun h => by
          unfold shallStdArray at h
          simp only [Bool.and_eq_true] at h
          exact g.1 ⟨(isConst_iff _).1 h.1.1, hn, h.2⟩
        have hbox : (shallBoxArray o f p && decide (n ≤ o.boxedArrayMaxSize)) = false := Bool.eq_false_iff.2 fun h => by
          unfold shallBoxArray at h
          simp only [Bool.and_eq_true, decide_eq_true_eq] at h
          refine g.2 ⟨fun hc => ?_, hn, h.1.2, h.2⟩
          have h3 := h.1.1.1
          rw [(isConst_iff _).2 hc] at h3
          exact absurd h3 (by decide)
        simp only [hstd, Bool.false_eq_true, if_false]
        simp only [hbox, Bool.false_eq_true, if_false]
    rw [this]
    exact keep_run hk

end Verif.Adapt
