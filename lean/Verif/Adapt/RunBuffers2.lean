import Verif.Adapt.RunBuffers

namespace Verif.Adapt
open Verif.Py Verif.Type Spec

theorem forall2_of_map {α β γ : Type} {R : β → γ → Prop} {f : α → β} {g : α → γ} : ∀ {zs : List α}, (∀ z ∈ zs, R (f z) (g z)) →
    List.Forall₂ R (zs.map f) (zs.map g)
  | [], _ => .nil
  | z :: r, h => .cons (h z List.mem_cons_self) (forall2_of_map fun z' hz => h z' (List.mem_cons_of_mem z hz))

theorem forall2_to_map {α β γ : Type} {R : β → γ → Prop} {f : α → β} {g : α → γ} : ∀ {zs : List α},
    List.Forall₂ R (zs.map f) (zs.map g) → ∀ z ∈ zs, R (f z) (g z)
  | [], _, z, hz => by simp at hz
  | z :: r, h, z', hz => by
    cases h with
    | cons h1 h2 =>
      rcases List.mem_cons.1 hz with rfl | hz
      · exact h1
      · exact forall2_to_map h2 z' hz

theorem looks_news {o : Options} {ps : List Param} (hc : ClearBuffers o ps) {i : Nat} {p : Param} (hp : ps[i]? = some p)
    (hl : looksLikeBuffer o p = true) : names (bufferNews o ps i p) = [p.name] := by
  obtain ⟨h1, h2⟩ := hc.clear' p (List.mem_of_getElem? hp) hl
  have hs : isBufferSize o ps i = false := Bool.eq_false_iff.2 fun h => by
    rw [(size_input hc hp h).1] at hl; simp at hl
  unfold bufferNews
  rw [h2, hs]
  split
  · simp [names, bufferParam_name]
  · simp [names]

theorem call_plen {o : Options} {ps : List Param} {xs : List Passing} (hc : ClearBuffers o ps) {i : Nat} {p : Param} {x : Passing}
    (hp : ps[i]? = some p) (h : BufferCall o ps xs i p x) : (bufferNews o ps i p).length = x.python.length := by
  cases h with
  | standard t z l l' hr _ _ _ =>
    have hb := (isBuffer_iff o ps i).2 hr
    unfold bufferNews; rw [hb]; rfl
  | template t z l l' ht _ =>
    have hb := hc.template' i p hp ht
    unfold bufferNews; rw [hb]; rfl
  | size t z l w hs hst _ =>
    have hs' := (Props.bufferSize_iff o ps i).2 hs
    unfold bufferNews; rw [(size_input hc hp hs').2.1, not_stride hst, hs']; rfl
  | stride k t z l w hst hs _ =>
    unfold bufferNews; rw [(isStride_iff p).2 hst]; split <;> rfl
  | kept x hr ht hs hst hk =>
    unfold bufferNews; rw [not_recognised hr, not_stride hst, not_size hs]
    cases hk; rfl

theorem facts_all {code : Code} {sizes : Str → Option Nat} {o : Options} {ps : List Param} {xs : List Passing} {E0 : Env} {N D : List Str}
    {All : List (Str × Var)} {z : BRec} (hc : ClearBuffers o ps) (hp : ps[z.i]? = some z.p)
    (hpiece : bufferPiece o ps z.i z.p = .ok z.y) (hcall : BufferCall o ps xs z.i z.p z.x)
    (hbound : Bound E0 (names z.y.news) z.x.python) (hN : ∀ x ∈ names z.y.news, x ∈ N)
    (hD : ∀ x ∈ z.y.input.flatMap declares, x ∉ N) (hAll : ∀ kv ∈ effsOf o ps z, kv ∈ All) (hbb : BufBound o ps xs E0 N All) :
    BFacts code sizes o ps E0 N D All z := by
  obtain ⟨i, p, y, x⟩ := z
  simp only at *
  cases hcall with
  | standard t s l l' hr ht hty _ => exact facts_buffer hc hp hpiece ((isBuffer_iff o ps i).2 hr) (.inr hty) hbound hN hD hAll
  | template t s l l' ht _ => exact facts_buffer hc hp hpiece (hc.template' i p hp ht) (.inl ht) hbound hN hD hAll
  | size t s l w hs hst hb => exact facts_size hc hp hpiece ((Props.bufferSize_iff o ps i).2 hs) (not_stride hst) hb hbb
  | stride k t s l w hst hs hb =>
    exact facts_stride hc hp hpiece (not_size hs) ((isStride_iff p).2 hst) hb hbb hbound hN hD hAll
  | kept x hr ht hs hst hk => exact facts_kept hpiece (not_recognised hr) ht (not_size hs) (not_stride hst) hk hbound hN

theorem contentsAll_seen {e : Env} : ∀ (zs : List BRec),
    (∀ z ∈ zs, z.y.news.length = z.x.python.length ∧ ∃ ws, contentsAll e (names z.y.news) = .ok ws ∧
      ws.length = z.y.news.length ∧ seen z.y.news z.x.python ws = z.x.pythonAfter) →
    ∃ ws, contentsAll e (zs.flatMap fun z => names z.y.news) = .ok ws ∧
      seen (zs.flatMap fun z => z.y.news) (zs.flatMap fun z => z.x.python) ws = zs.flatMap fun z => z.x.pythonAfter
  | [], _ => ⟨[], rfl, rfl⟩
  | z :: zs, h => by
    obtain ⟨h0, ws, h1, h2, h3⟩ := h z List.mem_cons_self
    obtain ⟨ws', h4, h5⟩ := contentsAll_seen zs fun z' hz => h z' (List.mem_cons_of_mem z hz)
    refine ⟨ws ++ ws', contentsAll_append e _ _ h1 h4, ?_⟩
    simp only [List.flatMap_cons]
    rw [seen_append _ _ _ _ _ _ h0 h2, h3, h5]

theorem nodup_key_unique {α β : Type} : ∀ {l : List (α × β)}, (l.map (·.1)).Nodup → ∀ a ∈ l, ∀ b ∈ l, a.1 = b.1 → a = b
  | [], _, a, ha, _, _, _ => by simp at ha
  | c :: r, h, a, ha, b, hb, hab => by
    rw [List.map_cons, List.nodup_cons] at h
    rcases List.mem_cons.1 ha with rfl | ha1 <;> rcases List.mem_cons.1 hb with rfl | hb1
    · rfl
    · exact absurd (hab ▸ List.mem_map_of_mem hb1) h.1
    · exact absurd (hab ▸ List.mem_map_of_mem ha1) h.1
    · exact nodup_key_unique h.2 a ha1 b hb1 hab

theorem nodup_pairwise {α β : Type} {g : α → List β} : ∀ {zs : List α}, (zs.flatMap g).Nodup →
    zs.Pairwise (fun z z' => ∀ x ∈ g z, x ∉ g z')
  | [], _ => .nil
  | z :: r, h => by
    rw [List.flatMap_cons] at h
    obtain ⟨_, h2, h3⟩ := List.nodup_append.1 h
    refine .cons (fun z' hz x hx hx' => ?_) (nodup_pairwise h2)
    exact h3 x hx x (List.mem_flatMap.2 ⟨z', hz, hx'⟩) rfl

theorem pairwise_rel {α : Type} {R : α → α → Prop} (hs : ∀ a b, R a b → R b a) : ∀ {l : List α}, l.Pairwise R → ∀ a ∈ l, ∀ b ∈ l, a = b ∨ R a b
  | [], _, a, ha, _, _ => by simp at ha
  | c :: r, h, a, ha, b, hb => by
    cases h with
    | cons h1 h2 =>
      rcases List.mem_cons.1 ha with rfl | ha1 <;> rcases List.mem_cons.1 hb with rfl | hb1
      · exact .inl rfl
      · exact .inr (h1 b hb1)
      · exact .inr (hs _ _ (h1 a ha1))
      · exact pairwise_rel hs h2 a ha1 b hb1

theorem forM_ok {g : Str → Except Fault Unit} : ∀ {l : List Str}, (∀ x ∈ l, g x = .ok ()) → l.forM g = .ok ()
  | [], _ => rfl
  | x :: r, h => by
    show (g x >>= fun _ => r.forM g) = _
    rw [h x List.mem_cons_self, ok_bind']
    exact forM_ok fun y hy => h y (List.mem_cons_of_mem x hy)

theorem getLast?_mem {α : Type} {l : List α} {a : α} (h : l.getLast? = some a) : a ∈ l := List.mem_of_getLast? h

theorem buffers_run {code : Code} {known : List Str} {o : Options} {f : Fn} {a : Adapter} {l : Lambda}
    (h : adaptBuffers o f = .ok (some a)) (hl : LambdaOf a l) (hn : NoClash l) (hc : ClearBuffers o f.params) {xs : List Passing}
    (hx : BuffersCall o known f.params xs) (r : Val) (callee : Callee)
    (hf : callee (xs.flatMap (·.cpp)) = .ok (r, xs.flatMap (·.cppAfter))) :
    run code o.arraySize known callee l (xs.flatMap (·.python)) = .ok (r, xs.flatMap (·.pythonAfter)) := by
  obtain ⟨_, _, ys, hys, rfl⟩ := buffers_inv h
  obtain ⟨zs, zp, zy, zx, z3, z4⟩ := brecs (o := o) (all := xs) f.params 0 ys xs (bufferPieces_forall _ _ hys) hx.length rfl rfl
  obtain ⟨l1, l2, l3, l4, l5⟩ := hl
  simp only [collect] at l1 l2 l3 l4 l5
  -- the pieces
  have hnews : ∀ z ∈ zs, z.y.news = bufferNews o f.params z.i z.p ∧ z.y.output = [] := by
    intro z hz
    obtain ⟨_, _, h3⟩ := z3 z hz
    obtain ⟨_, _, _, _, h4⟩ := bufferPiece_inv h3
    rw [h4]; exact ⟨rfl, rfl⟩
  have hparams : l.params.map (·.name) = zs.flatMap fun z => names z.y.news := by
    rw [l1, ← zy]
    show names (((zs.map (·.y)).flatMap (·.news))) = _
    rw [names_flatMap, List.flatMap_map]
  have hparams' : l.params = zs.flatMap fun z => z.y.news := by rw [l1, ← zy, List.flatMap_map]
  have hargs : l.args = zs.flatMap fun z => z.y.args := by rw [l2, ← zy, List.flatMap_map]
  have hinput : l.input = zs.flatMap fun z => z.y.input := by rw [l3, ← zy, List.flatMap_map]
  have houtput : l.output = [] := by
    rw [l4, ← zy, List.flatMap_map, List.flatMap_eq_nil_iff]
    exact fun z hz => (hnews z hz).2
  have hpy : xs.flatMap (·.python) = zs.flatMap fun z => z.x.python := by rw [← zx, List.flatMap_map]
  have hcpp : xs.flatMap (·.cpp) = zs.flatMap fun z => z.x.cpp := by rw [← zx, List.flatMap_map]
  have hafter : xs.flatMap (·.cppAfter) = zs.flatMap fun z => z.x.cppAfter := by rw [← zx, List.flatMap_map]
  have hpya : xs.flatMap (·.pythonAfter) = zs.flatMap fun z => z.x.pythonAfter := by rw [← zx, List.flatMap_map]
  have hcall : ∀ z ∈ zs, BufferCall o f.params xs z.i z.p z.x := fun z hz => hx.each _ _ _ (z3 z hz).1 (z3 z hz).2.1
  have hplen : ∀ z ∈ zs, z.y.news.length = z.x.python.length := fun z hz => by
    rw [(hnews z hz).1]; exact call_plen hc (z3 z hz).1 (hcall z hz)
  unfold NoClash at hn
  rw [hparams, hinput, List.flatMap_assoc] at hn
  obtain ⟨hn1, hn2, hn3⟩ := List.nodup_append.1 hn
  generalize hND : (zs.flatMap fun z => names z.y.news) = N at *
  generalize hDD : (zs.flatMap fun z => z.y.input.flatMap declares) = D at *
  have hNm : ∀ z ∈ zs, ∀ x ∈ names z.y.news, x ∈ N := fun z hz x hx => by
    rw [← hND]; exact List.mem_flatMap.2 ⟨z, hz, hx⟩
  have hDm : ∀ z ∈ zs, ∀ x ∈ z.y.input.flatMap declares, x ∈ D := fun z hz x hx => by
    rw [← hDD]; exact List.mem_flatMap.2 ⟨z, hz, hx⟩
  have hDN : ∀ x ∈ D, x ∉ N := fun x hx hx' => hn3 x hx' x hx rfl
  -- the beginning
  have hNlen : N.length = (zs.flatMap fun z => z.x.python).length := by
    rw [← hND]
    clear hnews hparams hparams' hargs hinput hpy hcpp hafter hpya hcall hNm hDm hn hn1 hn2 hn3 hND hDD z3 z4 zx zy zp hDN
    induction zs with
    | nil => rfl
    | cons z r ih =>
      simp only [List.flatMap_cons, List.length_append]
      rw [ih fun z' hz => hplen z' (List.mem_cons_of_mem z hz)]
      have := hplen z List.mem_cons_self
      simp [names, this]
  have hbound0 := params_bound N _ hNlen hn1
  generalize hE0 : params N (zs.flatMap fun z => z.x.python) = E0 at hbound0
  have hbound : ∀ z ∈ zs, Bound E0 (names z.y.news) z.x.python := by
    refine forall2_to_map (R := fun (y : Piece) (x : Passing) => Bound E0 (names y.news) x.python) (bound_split E0 (forall2_of_map hplen) ?_)
    rw [names_flatMap, List.flatMap_map, List.flatMap_map, hND]
    exact hbound0
  generalize hA : zs.flatMap (effsOf o f.params) = All
  have hAm : ∀ z ∈ zs, ∀ kv ∈ effsOf o f.params z, kv ∈ All := fun z hz kv hk => by
    rw [← hA]; exact List.mem_flatMap.2 ⟨z, hz, hk⟩
  have hbb : BufBound o f.params xs E0 N All := by
    intro j b x t s l hj hxj hlb hpyx
    obtain ⟨z, hz, rfl, rfl⟩ := z4 j b (Nat.zero_le _) hj
    have hxz := (z3 z hz).2.1
    rw [hxj] at hxz
    simp only [Option.some.injEq] at hxz
    subst hxz
    have hnm : names z.y.news = [z.p.name] := by rw [(hnews z hz).1]; exact looks_news hc hj hlb
    have hb := hbound z hz
    rw [hnm, hpyx] at hb
    refine ⟨?_, hNm z hz _ (by rw [hnm]; simp), ?_⟩
    · cases hb with
      | cons h _ => exact h
    · intro hib
      refine hAm z hz _ ?_
      unfold effsOf
      rw [hib]
      have : lenOf z.x = l.length := by unfold lenOf; rw [hpyx]
      rw [this]
      simp
  have facts : ∀ z ∈ zs, BFacts code o.arraySize o f.params E0 N D All z := fun z hz =>
    facts_all hc (z3 z hz).1 (z3 z hz).2.2 (hcall z hz) (hbound z hz) (hNm z hz) (fun x hx => hDN x (hDm z hz x hx)) (hAm z hz) hbb
  have hAk : All.map (·.1) = D := by
    rw [← hA, ← hDD, List.map_flatMap]
    exact List.flatMap_congr fun z hz => (facts z hz).keys
  have hkN : ∀ kv ∈ All, kv.1 ∉ N := fun kv hk => hDN _ (by rw [← hAk]; exact List.mem_map_of_mem hk)
  -- the statements before the call
  obtain ⟨hex, hagree⟩ := execAll_setAll code o.arraySize (fun e => Agree N E0 e) (fun z : BRec => z.y.input) (effsOf o f.params) zs
    (fun z hz e he => ⟨(facts z hz).input e he, fun x hx => by
      rw [setAll_other _ _ fun kv hk hkx => hkN kv (hAm z hz kv hk) (hkx ▸ hx)]
      exact he x hx⟩) E0 (fun _ _ => rfl)
  rw [hA] at hex hagree
  have hlook : ∀ kv ∈ All, setAll E0 All kv.1 = some kv.2 := fun kv hk =>
    setAll_get E0 All (x := kv.1) (v := kv.2) hk fun kv' hk' hkk => by
      rw [nodup_key_unique (by rw [hAk]; exact hn2) kv' hk' kv hk hkk]
  generalize hE1 : setAll E0 All = E1 at *
  -- the checks of the types
  have hcheck : checkElements known E1 l.ret = .ok () := by
    have hel : ∀ q ∈ f.params, o.templateBuffer q.type = true → ∃ (j : Nat) (x : Passing) (t : Str) (s : Int) (l : List Val), f.params[j]? = some q ∧ xs[j]? = some x ∧
        x.python = [.array t s true l] ∧ elementType E1 q.name = .ok t := by
      intro q hq hqt
      obtain ⟨j, hj, rfl⟩ := List.mem_iff_getElem.1 hq
      have hj' := List.getElem?_eq_getElem hj
      obtain ⟨z, hz, hzi, hzp⟩ := z4 j _ (Nat.zero_le _) hj'
      have hxz := (z3 z hz).2.1
      rw [hzi] at hxz
      have hlq : looksLikeBuffer o f.params[j] = true := by simp [looksLikeBuffer, hqt]
      have hcz := hx.each j _ _ hj' hxz
      have : ∃ t s l, z.x.python = [.array t s true l] := by
        generalize z.x = x at hcz
        cases hcz with
        | standard t s l l' _ _ _ _ => exact ⟨t, s, l, rfl⟩
        | template t s l l' _ _ => exact ⟨t, s, l, rfl⟩
        | size t s l w hs _ _ =>
          have := (size_input hc hj' ((Props.bufferSize_iff o f.params j).2 hs)).1
          rw [hlq] at this; simp at this
        | stride k t s l w hst _ _ =>
          have := (hc.clear' _ (List.getElem_mem hj) hlq).2
          rw [(isStride_iff _).2 hst] at this; simp at this
        | kept x _ ht _ _ _ => rw [hqt] at ht; simp at ht
      obtain ⟨t, s, l, hpyz⟩ := this
      obtain ⟨hEb, hNb, _⟩ := hbb j _ _ t s l hj' hxz hlq hpyz
      refine ⟨j, z.x, t, s, l, hj', hxz, hpyz, ?_⟩
      unfold elementType
      rw [contents_val ((hagree _ hNb).symm.trans hEb)]
      rfl
    rw [l5]
    unfold bufferRet
    split
    · rfl
    · rename_i p hp
      obtain ⟨hpm, hpt⟩ := List.mem_filter.1 (getLast?_mem hp)
      obtain ⟨j, x, t, s, l, h1, h2, h3, h4⟩ := hel p hpm (by simpa using hpt)
      simp only [checkElements]
      rw [h4]
      simp only [ok_bind']
      have hk : t ∈ known := hx.known j p x t s true l h1 h2 (by simpa using hpt) h3
      rw [if_neg (by simpa using hk)]
      refine forM_ok fun n hn => ?_
      obtain ⟨hn1, _⟩ := List.mem_filter.1 hn
      obtain ⟨q, hq, rfl⟩ := List.mem_map.1 hn1
      obtain ⟨hqm, hqt⟩ := List.mem_filter.1 hq
      obtain ⟨j', x', t', s', l', g1, g2, g3, g4⟩ := hel q hqm (by simpa using hqt)
      rw [g4, ok_bind', if_pos (hx.same j j' p q x x' t s true l t' s' true l' h1 h2 g1 g2 (by simpa using hpt) (by simpa using hqt) h3 g3)]
      rfl
  -- the call
  have hargs1 : l.args = zs.map argOf := by
    rw [hargs]
    clear hnews hparams hparams' hargs hinput hpy hcpp hafter hpya hcall hNm hDm hn hn1 hn2 hn3 hND hDD z3 z4 zx zy zp hplen hNlen hE0 hbound hA hAm hex hbound0 hDN
    induction zs with
    | nil => rfl
    | cons z r ih =>
      rw [List.flatMap_cons, (facts z List.mem_cons_self).args, ih fun z' hz => facts z' (List.mem_cons_of_mem z hz)]
      rfl
  have one : ∀ (g : BRec → List Val) (v : BRec → Val), (∀ z ∈ zs, g z = [v z]) → zs.flatMap g = zs.map v := by
    intro g v hg
    clear * - hg
    induction zs with
    | nil => rfl
    | cons z r ih =>
      rw [List.flatMap_cons, hg z List.mem_cons_self, ih fun z' hz => hg z' (List.mem_cons_of_mem z hz)]
      rfl
  rw [one _ cOf fun z hz => (facts z hz).cpp] at hcpp
  rw [one _ newOf fun z hz => (facts z hz).after] at hafter
  have heval : evalAll code E1 l.args = .ok (zs.map cOf) := by
    rw [hargs1]
    exact evalAll_map code E1 argOf cOf zs fun z hz => (facts z hz).eval E1 hagree hlook
  have htgtN : ∀ z ∈ zs, tgtOf o f.params z ∉ names z.y.news → tgtOf o f.params z ∉ N ∧ ∀ x, tgtOf o f.params z ≠ fromPyarray x := by
    intro z hz hnot
    rcases (facts z hz).tgt with h | ⟨b, hb, v, hv⟩
    · exact absurd h hnot
    · refine ⟨hkN _ hv, fun x hx => ?_⟩
      rcases hb with hb | hb
      · exact from_ne_count x b (hx ▸ hb)
      · exact from_ne_stride x b (hx ▸ hb)
  have hchanged : changedAll E1 l.args (zs.map newOf) = .ok (setAll E1 (zs.map fun z => (tgtOf o f.params z, .val (valOf o f.params z)))) := by
    rw [hargs1]
    refine changedAll_setAll (Ready o f.params) argOf newOf (tgtOf o f.params) (valOf o f.params) zs
      (fun z hz => (facts z hz).change) ?_ E1 (fun z hz => (facts z hz).ready E1 hagree hlook)
    have hpw : zs.Pairwise (fun z z' => ∀ x ∈ names z.y.news, x ∉ names z'.y.news) := nodup_pairwise (by rw [hND]; exact hn1)
    refine List.Pairwise.imp_of_mem ?_ hpw
    intro z z' hz hz' hdis e hr
    unfold Ready at hr ⊢
    split at hr
    · rename_i hb
      rw [if_pos hb]
      obtain ⟨hr1, t, s, l, hr2, hr3⟩ := hr
      have hb' := ((facts z' hz').buffer hb).2
      have hfD : fromPyarray z'.p.name ∉ N := by
        refine hkN (fromPyarray z'.p.name, .refers z'.p.name .data) (hAm z' hz' _ ?_)
        unfold effsOf
        rw [hb]
        simp
      have hne : tgtOf o f.params z ≠ fromPyarray z'.p.name ∧ tgtOf o f.params z ≠ z'.p.name := by
        by_cases hin : tgtOf o f.params z ∈ names z.y.news
        · exact ⟨fun h => hfD (h ▸ hNm z hz _ hin), fun h => hdis _ hin (h ▸ hb')⟩
        · obtain ⟨k1, k2⟩ := htgtN z hz hin
          exact ⟨k2 _, fun h => k1 (h ▸ hNm z' hz' _ hb')⟩
      exact ⟨(set_ne _ _ (Ne.symm hne.1)).trans hr1, t, s, l, (set_ne _ _ (Ne.symm hne.2)).trans hr2, hr3⟩
    · rename_i hb
      rw [if_neg hb]
      obtain ⟨v, hv⟩ := hr
      by_cases hxx : tgtOf o f.params z' = tgtOf o f.params z
      · rw [hxx]; exact ⟨_, set_self _ _ _⟩
      · exact ⟨v, (set_ne _ _ hxx).trans hv⟩
  -- the end
  obtain ⟨ws, hw1, hw2⟩ := contentsAll_seen (e := setAll E1 (zs.map fun z => (tgtOf o f.params z, .val (valOf o f.params z)))) zs (by
    intro z hz
    refine ⟨hplen z hz, (facts z hz).seen _ ?_⟩
    intro x hxz
    have hpw := pairwise_rel (R := fun z z' : BRec => (∀ x ∈ names z.y.news, x ∉ names z'.y.news)) (fun a b hab x hx hx' => hab x hx' hx)
      (nodup_pairwise (by rw [hND]; exact hn1)) z hz
    have key : ∀ z' ∈ zs, tgtOf o f.params z' = x → z' = z := by
      intro z' hz' htx
      rcases hpw z' hz' with h | h
      · exact h.symm
      · exfalso
        by_cases hin : tgtOf o f.params z' ∈ names z'.y.news
        · exact h x hxz (htx ▸ hin)
        · exact (htgtN z' hz' hin).1 (htx ▸ hNm z hz x hxz)
    by_cases ht : tgtOf o f.params z = x
    · rw [if_pos ht]
      refine setAll_get _ _ (List.mem_map.2 ⟨z, hz, by rw [ht]⟩) ?_
      intro kv hk hkx
      obtain ⟨z', hz', rfl⟩ := List.mem_map.1 hk
      rw [key z' hz' hkx]
    · rw [if_neg ht, setAll_other]
      · exact (hagree x (hNm z hz x hxz)).symm
      · intro kv hk hkx
        obtain ⟨z', hz', rfl⟩ := List.mem_map.1 hk
        exact ht (key z' hz' hkx ▸ hkx))
  rw [hpy, hpya]
  unfold run
  rw [hparams, hE0, hinput, hex]
  simp only [ok_bind']
  rw [hcheck, ok_bind', heval, ok_bind', ← hcpp, hf, ok_bind']
  simp only
  rw [hafter, hchanged, ok_bind', houtput]
  simp only [execAll, ok_bind']
  have hret : ∀ e, returned e r l.ret = .ok r := by
    intro e
    rw [l5]
    unfold bufferRet
    split <;> rfl
  rw [hret, ok_bind', ← hND, hw1, ok_bind', hparams', hw2]
  rfl

end Verif.Adapt
