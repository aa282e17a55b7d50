import Verif.Adapt.RunStage

/-! Calls that the buffers lambda rejects. -/

namespace Verif.Adapt
open Verif.Py Verif.Type Spec

theorem run_input_error {code : Code} {sizes : Str → Option Nat} {known : List Str} {l : Lambda} {vs : List Val} {e : Fault}
    (h : execAll code sizes (params (l.params.map (·.name)) vs) l.input = .error e) (callee : Callee) :
    run code sizes known callee l vs = .error e := by
  unfold run
  rw [h]; rfl

theorem run_check_error {code : Code} {sizes : Str → Option Nat} {known : List Str} {l : Lambda} {vs : List Val} {e1 : Env} {e : Fault}
    (h : execAll code sizes (params (l.params.map (·.name)) vs) l.input = .ok e1) (h2 : checkElements known e1 l.ret = .error e)
    (callee : Callee) : run code sizes known callee l vs = .error e := by
  unfold run
  rw [h]
  show (do checkElements known e1 l.ret; _) = _
  rw [h2]; rfl

/-- The statements of the buffers lambda. -/
def BufStmt : Stmt → Prop
  | .bufferData .. => True
  | .checkType .. => True
  | .stride .. => True
  | _ => False

theorem exec_frame {code : Code} {sizes : Str → Option Nat} {s : Stmt} (hs : BufStmt s) {e e1 : Env}
    (h : exec code sizes e s = .ok e1) (y : Str) (hy : y ∉ declares s) : e1 y = e y := by
  cases s with
  | bufferData c l count x =>
    simp [declares] at hy
    simp only [exec] at h
    cases hv : contents e x with
    | error _ => rw [hv] at h; simp [bind, Except.bind] at h
    | ok v =>
      rw [hv] at h
      simp only [bind, Except.bind] at h
      split at h
      · simp only [pure, Except.pure, Except.ok.injEq] at h
        subst h
        simp [Env.set, hy.1, hy.2]
      · simp [throw, throwThe, MonadExceptOf.throw] at h
      · simp [throw, throwThe, MonadExceptOf.throw] at h
  | checkType x t =>
    simp only [exec] at h
    cases hv : contents e x with
    | error _ => rw [hv] at h; simp [bind, Except.bind] at h
    | ok v =>
      rw [hv] at h
      simp only [bind, Except.bind] at h
      split at h
      · split at h
        · simp only [pure, Except.pure, Except.ok.injEq] at h
          subst h; rfl
        · simp [throw, throwThe, MonadExceptOf.throw] at h
      · simp [throw, throwThe, MonadExceptOf.throw] at h
  | stride l x b =>
    simp [declares] at hy
    simp only [exec] at h
    cases hv : contents e x with
    | error _ => rw [hv] at h; simp [bind, Except.bind] at h
    | ok v =>
      cases hb : contents e b with
      | error _ => rw [hv, hb] at h; simp [bind, Except.bind] at h
      | ok w =>
        rw [hv, hb] at h
        simp only [bind, Except.bind] at h
        split at h
        · simp only [pure, Except.pure, Except.ok.injEq] at h
          subst h
          simp [Env.set, hy]
        · simp [throw, throwThe, MonadExceptOf.throw] at h
  | _ => exact hs.elim

theorem execAll_frame {code : Code} {sizes : Str → Option Nat} : ∀ (ss : List Stmt), (∀ s ∈ ss, BufStmt s) → ∀ (e e1 : Env),
    execAll code sizes e ss = .ok e1 → ∀ y ∉ ss.flatMap declares, e1 y = e y
  | [], _, e, e1, h, y, _ => by simp [execAll] at h; rw [h]
  | s :: r, hs, e, e1, h, y, hy => by
    unfold execAll at h
    simp only [List.flatMap_cons, List.mem_append, not_or] at hy
    cases h1 : exec code sizes e s with
    | error _ => rw [h1] at h; simp [bind, Except.bind] at h
    | ok e' =>
      rw [h1] at h
      rw [execAll_frame r (fun t ht => hs t (List.mem_cons_of_mem _ ht)) e' e1 h y hy.2,
        exec_frame (hs s (List.mem_cons_self ..)) h1 y hy.1]

theorem execAll_mem {code : Code} {sizes : Str → Option Nat} : ∀ (ss : List Stmt), (∀ s ∈ ss, BufStmt s) → ∀ (e e1 : Env),
    execAll code sizes e ss = .ok e1 → ∀ s ∈ ss, ∃ e' e'', (∀ y ∉ ss.flatMap declares, e' y = e y) ∧ exec code sizes e' s = .ok e''
  | [], _, e, e1, h, s, hs => by simp at hs
  | t :: r, hs, e, e1, h, s, hm => by
    unfold execAll at h
    cases h1 : exec code sizes e t with
    | error _ => rw [h1] at h; simp [bind, Except.bind] at h
    | ok e' =>
      rw [h1] at h
      rcases List.mem_cons.1 hm with rfl | hm'
      · exact ⟨e, e', fun _ _ => rfl, h1⟩
      · obtain ⟨d, d', h2, h3⟩ := execAll_mem r (fun t ht => hs t (List.mem_cons_of_mem _ ht)) e' e1 h s hm'
        refine ⟨d, d', fun y hy => ?_, h3⟩
        simp only [List.flatMap_cons, List.mem_append, not_or] at hy
        rw [h2 y hy.2, exec_frame (hs t (List.mem_cons_self ..)) h1 y hy.1]

theorem buffers_stmts {o : Options} {f : Fn} {a : Adapter} (h : adaptBuffers o f = .ok (some a)) : ∀ s ∈ a.input, BufStmt s := by
  obtain ⟨_, _, ys, hys, rfl⟩ := buffers_inv h
  have hf := bufferPieces_forall _ _ hys
  intro s hs
  obtain ⟨y, hy, hsy⟩ := List.mem_flatMap.1 hs
  obtain ⟨i, hi, rfl⟩ := List.getElem_of_mem hy
  have hi' : i < f.params.length := by
    have := forall2_len hf; rw [List.length_zipIdx] at this; omega
  have hpiece := forall2_get hf i (f.params[i], i) _ (by rw [List.getElem?_zipIdx, List.getElem?_eq_getElem hi']; simp)
    (List.getElem?_eq_getElem hi)
  obtain ⟨input, _, hin, _, hy2⟩ := bufferPiece_inv hpiece
  rw [hy2] at hsy
  simp only at hsy
  rcases bufferInput_inv hin with ⟨_, _, b, ty, _, _, h2⟩ | ⟨_, _, b, _, h2⟩ | ⟨_, _, _, b, _, h2⟩ | ⟨_, _, h2⟩ <;> rw [h2] at hsy
  · simp at hsy; rcases hsy with rfl | rfl <;> trivial
  · simp at hsy; subst hsy; trivial
  · simp at hsy; subst hsy; trivial
  · simp at hsy

theorem buffers_data {o : Options} {f : Fn} {a : Adapter} (h : adaptBuffers o f = .ok (some a)) (hc : ClearBuffers o f.params)
    {k : Nat} {p : Param} (hp : f.params[k]? = some p) (hr : Recognised o f.params k) :
    ∃ c x count, .bufferData c x count p.name ∈ a.input := by
  obtain ⟨_, _, ys, hys, rfl⟩ := buffers_inv h
  have hf := bufferPieces_forall _ _ hys
  rw [← isBuffer_iff] at hr
  have hi : k < ys.length := by
    rw [← forall2_len hf, List.length_zipIdx]; exact (List.getElem?_eq_some_iff.1 hp).1
  have hpiece := forall2_get hf k (p, k) _ (by rw [List.getElem?_zipIdx, hp]; simp) (List.getElem?_eq_getElem hi)
  obtain ⟨input, _, hin, _, hy⟩ := bufferPiece_inv hpiece
  rcases bufferInput_inv hin with ⟨_, _, b, ty, _, _, h2⟩ | ⟨h0, h1, b, _, h2⟩ | ⟨_, _, _, b, _, h2⟩ | ⟨h1, _, h2⟩
  · exact ⟨isConst p.type, fromPyarray p.name, countOf b, List.mem_flatMap.2 ⟨_, List.getElem_mem hi, by rw [hy, h2]; simp⟩⟩
  · exfalso
    rw [hr] at h0
    simp at h0
    exact (hc.clear p (List.mem_of_getElem? hp) (.inr h0)).2 ((isStride_iff p).1 h1)
  · exact ⟨isConst p.type, fromPyarray p.name, countOf b, List.mem_flatMap.2 ⟨_, List.getElem_mem hi, by rw [hy, h2]; simp⟩⟩
  · rw [hr] at h1; simp at h1

/-- What is known of a call that reaches the C++ function. -/
theorem buffers_reached {code : Code} {o : Options} {f : Fn} {a : Adapter} {l : Lambda}
    (h : adaptBuffers o f = .ok (some a)) (hl : LambdaOf a l) (hn : NoClash l) (hc : ClearBuffers o f.params)
    {vs : List Val} {e1 : Env} (hx : execAll code o.arraySize (params (l.params.map (·.name)) vs) l.input = .ok e1)
    {k : Nat} {p : Param} (hp : f.params[k]? = some p) (hr : Recognised o f.params k)
    {v : Val} (hv : params (l.params.map (·.name)) vs p.name = some (.val v)) (hm : p.name ∈ l.params.map (·.name)) :
    e1 p.name = some (.val v) ∧ (∃ t z items, v = .array t z true items ∧
      (o.templateBuffer p.type = false → p.type.typenames.head? = some t)) := by
  have hstm : ∀ s ∈ l.input, BufStmt s := by rw [hl.2.2.1]; exact buffers_stmts h
  have hnot : p.name ∉ l.input.flatMap declares := fun hd =>
    (List.nodup_append.1 hn).2.2 p.name hm p.name hd rfl
  refine ⟨(execAll_frame _ hstm _ _ hx p.name hnot).trans hv, ?_⟩
  obtain ⟨c, x, count, hd⟩ := buffers_data h hc hp hr
  rw [← hl.2.2.1] at hd
  obtain ⟨e', e'', he', hex⟩ := execAll_mem _ hstm _ _ hx _ hd
  have hcont : contents e' p.name = .ok v := by
    unfold contents
    rw [he' p.name hnot, hv]
  have harr : ∃ t z items, v = .array t z true items := by
    simp only [exec] at hex
    rw [hcont] at hex
    simp only [bind, Except.bind] at hex
    split at hex
    · exact ⟨_, _, _, rfl⟩
    · simp [throw, throwThe, MonadExceptOf.throw] at hex
    · simp [throw, throwThe, MonadExceptOf.throw] at hex
  obtain ⟨t, z, items, rfl⟩ := harr
  refine ⟨t, z, items, rfl, fun ht => ?_⟩
  obtain ⟨t', ht', hck⟩ := (Props.C37_checked o f a h).1 k p hp hr ht
  rw [← hl.2.2.1] at hck
  obtain ⟨d', d'', hd', hex'⟩ := execAll_mem _ hstm _ _ hx _ hck
  have hcont' : contents d' p.name = .ok (.array t z true items) := by
    unfold contents
    rw [hd' p.name hnot, hv]
  simp only [exec] at hex'
  rw [hcont'] at hex'
  simp only [bind, Except.bind] at hex'
  split at hex'
  · rename_i htt
    rw [ht', htt]
  · simp [throw, throwThe, MonadExceptOf.throw] at hex'

theorem given_params {l : Lambda} (hn : NoClash l) {vs : List Val} {x : Str} {v : Val} (h : Given l vs x v) :
    params (l.params.map (·.name)) vs x = some (.val v) ∧ x ∈ l.params.map (·.name) := by
  obtain ⟨hlen, m, q, hq, rfl, hv⟩ := h
  have hb := params_bound (l.params.map (·.name)) vs (by simp [hlen]) (List.nodup_append.1 hn).1
  exact ⟨forall2_get hb m _ _ (by rw [List.getElem?_map, hq]; rfl) hv, List.mem_map_of_mem (List.mem_of_getElem? hq)⟩

theorem elementType_array {e : Env} {x : Str} {t : Str} {z : Int} {c : Bool} {items : List Val}
    (h : e x = some (.val (.array t z c items))) : elementType e x = .ok t := by
  have : contents e x = .ok (.array t z c items) := by unfold contents; rw [h]
  simp only [elementType, this]
  rfl

theorem forM_error {g : Str → Except Fault Unit} : ∀ (l : List Str) (y : Str), y ∈ l → (∀ e, g y ≠ .ok e) → ∃ e, l.forM g = .error e
  | [], y, h, _ => by simp at h
  | x :: r, y, h, hg => by
    show ∃ e, (g x >>= fun _ => r.forM g) = .error e
    cases hx : g x with
    | error e => exact ⟨e, rfl⟩
    | ok u =>
      rcases List.mem_cons.1 h with rfl | h'
      · exact absurd hx (hg u)
      · exact forM_error r y h' hg

theorem others_error {e : Env} {t : Str} {others : List Str} {y t' : Str} (hy : y ∈ others) (ht : elementType e y = .ok t')
    (hne : t' ≠ t) : ∃ er, (others.forM fun y => do
      let t' ← elementType e y
      if t' = t then return () else throw .thrown : Except Fault Unit) = .error er := by
  refine forM_error others y hy (fun u => ?_)
  rw [ht]
  show (if t' = t then _ else _) ≠ _
  rw [if_neg hne]
  simp [throw, throwThe, MonadExceptOf.throw]

theorem dispatch_error {known : List Str} {e : Env} {x : Str} {others : List Str}
    (h : ∀ t, elementType e x = .ok t → t ∈ known → ∃ y ∈ others, ∃ t', elementType e y = .ok t' ∧ t' ≠ t) :
    ∃ er, checkElements known e (.dispatch x others) = .error er := by
  simp only [checkElements]
  cases ht : elementType e x with
  | error er => exact ⟨er, rfl⟩
  | ok t =>
    simp only [bind, Except.bind]
    by_cases hk : t ∈ known
    · obtain ⟨y, hy, t', ht', hne⟩ := h t ht hk
      rw [if_neg (by simpa using hk)]
      exact others_error hy ht' hne
    · rw [if_pos (by simpa using hk)]
      exact ⟨_, rfl⟩

theorem dispatch_unknown {known : List Str} {e : Env} {x : Str} {others : List Str} {y t : Str} {z : Int} {c : Bool} {items : List Val}
    (h : e y = some (.val (.array t z c items))) (hy : y = x ∨ y ∈ others) (ht : t ∉ known) :
    ∃ er, checkElements known e (.dispatch x others) = .error er := by
  refine dispatch_error (fun t' h1 h2 => ?_)
  rcases hy with rfl | hy
  · rw [elementType_array h] at h1
    simp at h1
    exact absurd (h1 ▸ h2) ht
  · refine ⟨y, hy, t, elementType_array h, ?_⟩
    rintro rfl
    exact ht h2

theorem dispatch_mixed {known : List Str} {e : Env} {x : Str} {others : List Str} {y t y' t' : Str} {z z' : Int} {c c' : Bool}
    {items items' : List Val} (h : e y = some (.val (.array t z c items))) (hy : y = x ∨ y ∈ others)
    (h' : e y' = some (.val (.array t' z' c' items'))) (hy' : y' = x ∨ y' ∈ others) (hne : t ≠ t') :
    ∃ er, checkElements known e (.dispatch x others) = .error er := by
  refine dispatch_error (fun u h1 h2 => ?_)
  by_cases hu : t = u
  · subst hu
    rcases hy' with rfl | hy'
    · rw [elementType_array h'] at h1
      simp at h1
      exact absurd h1.symm hne
    · exact ⟨y', hy', t', elementType_array h', fun h => hne h.symm⟩
  · rcases hy with rfl | hy
    · rw [elementType_array h] at h1
      simp at h1
      exact absurd h1 hu
    · exact ⟨y, hy, t, elementType_array h, hu⟩

theorem buffers_lambda {o : Options} {f : Fn} {ps : List Param} {l : Lambda} (h : From o f ps l)
    (hname : l.name = f.name ++ "_adapt_c_buffers".toList) :
    ∃ a f1, f1.params = f.params ∧ LambdaOf a l ∧ adaptBuffers o f1 = .ok (some a) := by
  obtain ⟨f1, a, h1, h2, h3, h4, h5, h6, h7⟩ := h
  have hs : a.suffix = "_adapt_c_buffers".toList := by
    rw [hname] at h3
    exact (List.append_cancel_left h3).symm
  refine ⟨a, f1, h7 hs, h4, ?_⟩
  rcases adapter_of h5 with k | k | k | k | k | k | k | k | k | k | k
  · exact k.2
  all_goals
    exfalso
    have k1 := k.1
    rw [hs] at k1
    revert k1
    decide +kernel

end Verif.Adapt
