import Verif.Adapt.Pieces

/-! The chain of lambdas: what calls what, the names of the lambdas, the names of the parameters. -/

namespace Verif.Adapt
open Verif.Py Verif.Type Spec

theorem calledParams_append (ps : List Param) (ls : List Lambda) (l : Lambda) : ∀ i ≤ ls.length,
    calledParams ps (ls ++ [l]) i = calledParams ps ls i := by
  intro i hi
  cases i with
  | zero => rfl
  | succ j =>
    simp only [calledParams]
    rw [List.getElem?_append_left (by omega)]

theorem calledName_append (ls : List Lambda) (l : Lambda) : ∀ i ≤ ls.length, calledName (ls ++ [l]) i = calledName ls i := by
  intro i hi
  cases i with
  | zero => rfl
  | succ j =>
    simp only [calledName]
    rw [List.getElem?_append_left (by omega)]

theorem calledParams_last (ps : List Param) (ls : List Lambda) (l : Lambda) :
    calledParams ps (ls ++ [l]) (ls.length + 1) = l.params := by
  simp [calledParams]

theorem calledName_last (ls : List Lambda) (l : Lambda) : calledName (ls ++ [l]) (ls.length + 1) = some l.name := by
  simp [calledName]

/-- The chain is well linked. `R` relates a lambda to the parameters of what it calls. -/
structure Linked (R : List Param → Lambda → Prop) (ps : List Param) (f : Fn) : Prop where
  calls : ∀ i l, f.lambdas[i]? = some l → R (calledParams ps f.lambdas i) l ∧ l.callee = calledName f.lambdas i ∧
    (∀ c, l.callee = some c → c ∈ l.captures)
  params : f.params = calledParams ps f.lambdas f.lambdas.length
  name : f.lambdaToCall = calledName f.lambdas f.lambdas.length

theorem linked_apply {R : List Param → Lambda → Prop} {ps : List Param} {f : Fn} (h : Linked R ps f) (a : Adapter)
    (hr : ∀ l : Lambda, l.params = a.newParams → l.args = a.args → l.input = a.input → l.output = a.output → l.ret = a.ret →
      R f.params l) :
    Linked R ps (applyAdapter f a) := by
  refine ⟨?_, ?_, ?_⟩
  · intro i l hl
    unfold applyAdapter at hl ⊢
    simp only at hl ⊢
    rcases Nat.lt_trichotomy i f.lambdas.length with hi | hi | hi
    · rw [List.getElem?_append_left hi] at hl
      rw [calledParams_append _ _ _ i (by omega), calledName_append _ _ i (by omega)]
      exact h.calls i l hl
    · subst hi
      rw [List.getElem?_append_right (Nat.le_refl _), Nat.sub_self] at hl
      simp at hl
      subst hl
      rw [calledParams_append _ _ _ _ (Nat.le_refl _), calledName_append _ _ _ (Nat.le_refl _), ← h.params, ← h.name]
      refine ⟨hr _ rfl rfl rfl rfl rfl, rfl, ?_⟩
      intro c hc
      simp only at hc ⊢
      simp [captures, hc]
    · rw [List.getElem?_eq_none (by simp; omega)] at hl
      simp at hl
  · unfold applyAdapter
    simp only [List.length_append, List.length_cons, List.length_nil]
    rw [calledParams_last]
  · unfold applyAdapter
    simp only [List.length_append, List.length_cons, List.length_nil]
    rw [calledName_last]

theorem linked_start {R : List Param → Lambda → Prop} {f : Fn} (h : f.lambdas = []) (h2 : f.lambdaToCall = none) :
    Linked R f.params f := by
  refine ⟨?_, ?_, ?_⟩
  · intro i l hl; rw [h] at hl; simp at hl
  · rw [h]; rfl
  · rw [h, h2]; rfl

theorem force_len (f : Fn) : (forceLambda f).args.length = f.params.length := collect_len _ _ _ _ (fun p _ => keep_len p)

/-! ### Names of the lambdas -/

def suffixes : List Str :=
  ["_adapt_c_buffers".toList, "_adapt_exclude_params".toList, "_adapt_mutable_param_with_default_value".toList,
   "_adapt_fixed_size_c_arrays".toList, "_adapt_const_char_pointer_with_default_null".toList,
   "_adapt_modifiable_immutable_to_return".toList, "_adapt_modifiable_immutable".toList,
   "_adapt_c_string_list".toList, "_adapt_c_string_list_no_count".toList, "_adapt_variadic_format".toList]

theorem suffixes_ok (o : Options) :
    List.Forall₂ (fun (g : Fn → Except Err (Option Adapter)) s => ∀ f a, g f = .ok (some a) → a.suffix = s) (adapters o) suffixes := by
  unfold adapters suffixes
  refine .cons ?_ (.cons ?_ (.cons ?_ (.cons ?_ (.cons ?_ (.cons ?_ (.cons ?_ (.cons ?_ (.cons ?_ (.cons ?_ .nil)))))))))
  · intro f a h; obtain ⟨_, _, l, _, rfl⟩ := buffers_inv h; rfl
  · intro f a h; rw [exclude_inv h]; rfl
  · intro f a h; rw [mutable_inv h]; rfl
  · intro f a h; rw [arrays_inv h]; rfl
  · intro f a h; rw [constChar_inv h]; rfl
  · intro f a h; rw [toReturn_inv h]; rfl
  · intro f a h; rw [boxed_inv h]; rfl
  · intro f a h; obtain ⟨l, _, rfl⟩ := stringList_inv h; rfl
  · intro f a h; rw [noCount_inv h]; rfl
  · intro f a h; obtain ⟨_, _, _, _, _, _, rfl⟩ := variadic_inv h; rfl

theorem applyList_names {gs : List (Fn → Except Err (Option Adapter))} {ss : List Str}
    (h : List.Forall₂ (fun (g : Fn → Except Err (Option Adapter)) s => ∀ f a, g f = .ok (some a) → a.suffix = s) gs ss) :
    ∀ f f', applyList gs f = .ok f' → f'.name = f.name ∧
      ∃ S : List Str, S.Sublist ss ∧ f'.lambdas.map (·.name) = f.lambdas.map (·.name) ++ S.map (f.name ++ ·) := by
  induction h with
  | nil => intro f f' h; simp [applyList] at h; subst h; exact ⟨rfl, [], List.Sublist.refl _, by simp⟩
  | cons hs htail ih =>
    rename_i g s gs' ss'
    intro f f' h
    unfold applyList at h
    split at h
    · simp at h
    · rename_i f1 h3
      obtain ⟨h4, S, h5, h6⟩ := ih f1 f' h
      unfold applyOne at h3
      split at h3
      · simp at h3
      · simp at h3
        subst h3
        exact ⟨h4, S, h5.cons s, h6⟩
      · rename_i a ha
        simp at h3
        subst h3
        have hsuf := hs f a ha
        refine ⟨h4, s :: S, h5.cons_cons s, ?_⟩
        rw [h6]
        simp [applyAdapter, hsuf]

theorem applyAll_names {o : Options} {f f' : Fn} (h : applyAll o f = .ok f') (h0 : f.lambdas = []) :
    (f'.lambdas.map (·.name)).Nodup := by
  have key : ∃ S : List Str, S.Sublist (suffixes ++ ["_adapt_force_lambda".toList]) ∧
      f'.lambdas.map (·.name) = S.map (f.name ++ ·) := by
    unfold applyAll at h
    split at h
    · simp at h
    · rename_i f1 h1
      obtain ⟨h2, S, h3, h4⟩ := applyList_names (suffixes_ok o) f f1 h1
      simp at h
      subst h
      rw [h0] at h4
      unfold maybeForceLambda
      split
      · refine ⟨S ++ ["_adapt_force_lambda".toList], h3.append (List.Sublist.refl _), ?_⟩
        simp only [applyAdapter, List.map_append, h4, List.map_nil, List.nil_append, List.map_cons, h2]
        rfl
      · exact ⟨S, h3.trans (List.sublist_append_left _ _), by simpa using h4⟩
  obtain ⟨S, h1, h2⟩ := key
  rw [h2]
  have hn : (suffixes ++ ["_adapt_force_lambda".toList]).Nodup := by decide +kernel
  exact List.Pairwise.map _ (fun a b hab h => hab (by simpa using h)) (hn.sublist h1)

/-! ### Names of the parameters -/

theorem itemName_inj {x y : Str} {i j : Nat} (h : itemName x i = itemName y j) : x = y ∧ i = j := by
  unfold itemName at h
  have h1 : ∀ n : Nat, '_' ∉ (toString n).toList := by
    intro n
    rw [show (toString n).toList = Nat.toDigits 10 n from Nat.toList_repr]
    exact Nat.underscore_not_in_toDigits
  have key : ∀ (a b : Str) (x y : Str), '_' ∉ a → '_' ∉ b → x ++ '_' :: a = y ++ '_' :: b → x = y ∧ a = b := by
    intro a b x y ha hb hxy
    rw [List.append_eq_append_iff] at hxy
    rcases hxy with ⟨c, rfl, hc⟩ | ⟨c, rfl, hc⟩
    · cases c with
      | nil => simp at hc; simp [hc]
      | cons d r =>
        simp at hc
        exact absurd (by rw [hc.2]; simp : '_' ∈ a) ha
    · cases c with
      | nil => simp at hc; simp [hc]
      | cons d r =>
        simp at hc
        exact absurd (by rw [hc.2]; simp : '_' ∈ b) hb
  obtain ⟨h2, h3⟩ := key _ _ x y (h1 i) (h1 j) (by simpa using h)
  refine ⟨h2, ?_⟩
  have h4 : Nat.toDigits 10 i = Nat.toDigits 10 j := by
    rw [show (toString i).toList = Nat.toDigits 10 i from Nat.toList_repr] at h3
    rw [show (toString j).toList = Nat.toDigits 10 j from Nat.toList_repr] at h3
    exact h3
  have := congrArg (fun d => Nat.ofDigitChars 10 d 0) h4
  simpa [Nat.ofDigitChars_toDigits] using this

theorem item_eq (x : Str) (i : Nat) : item x i = itemName x i := by simp [item, itemName]

theorem itemName_ne (x : Str) (i : Nat) : itemName x i ≠ [] := by simp [itemName]

theorem range_items_nodup (x : Str) (n : Nat) : ((List.range n).map (itemName x)).Nodup :=
  List.Pairwise.map _ (fun _ _ hab h => hab (itemName_inj h).2) List.nodup_range

theorem names_sub {p : Param} {l : List Param} (h : PieceOK p l) : ∀ q ∈ l, q.name = p.name ∨ p.arrayCode ≠ [] ∧ ∃ i, q.name = itemName p.name i := by
  intro q hq
  have hm : q.name ∈ l.map (·.name) := List.mem_map_of_mem hq
  rcases h.names with hn | hn | ⟨n, ha, hn⟩
  · rw [hn] at hm; simp at hm
  · rw [hn] at hm; left; simpa using hm
  · rw [hn] at hm
    obtain ⟨i, _, hi⟩ := List.mem_map.1 hm
    right; exact ⟨ha, i, hi.symm⟩

theorem names_nodup {p : Param} {l : List Param} (h : PieceOK p l) : (l.map (·.name)).Nodup := by
  rcases h.names with hn | hn | ⟨n, _, hn⟩
  · rw [hn]; exact List.nodup_nil
  · rw [hn]; simp
  · rw [hn]; exact range_items_nodup _ _

theorem forall2_two {ps : List Param} {ls : List (List Param)} (h : List.Forall₂ PieceOK ps ls)
    (hn : (ps.map (·.name)).Nodup) : ∀ l ∈ ls, ∀ l' ∈ ls, ∃ p ∈ ps, PieceOK p l ∧ ∃ p' ∈ ps, PieceOK p' l' ∧
      (p.name ≠ p'.name ∨ p = p' ∧ l = l') := by
  induction h with
  | nil => intro l hl; simp at hl
  | cons hok hr ih =>
    rename_i p x ps' ls'
    have hnd := List.nodup_cons.1 (by simpa using hn : (p.name :: ps'.map (·.name)).Nodup)
    intro l hl l' hl'
    rcases List.mem_cons.1 hl with h1 | h1 <;> rcases List.mem_cons.1 hl' with h2 | h2
    · subst h1; subst h2
      exact ⟨p, List.mem_cons_self, hok, p, List.mem_cons_self, hok, .inr ⟨rfl, rfl⟩⟩
    · subst h1
      obtain ⟨p', hp', hok'⟩ := forall2_mem_right hr l' h2
      exact ⟨p, List.mem_cons_self, hok, p', List.mem_cons_of_mem _ hp', hok',
        .inl (fun hc => hnd.1 (hc ▸ List.mem_map_of_mem hp'))⟩
    · subst h2
      obtain ⟨p', hp', hok'⟩ := forall2_mem_right hr l h1
      exact ⟨p', List.mem_cons_of_mem _ hp', hok', p, List.mem_cons_self, hok,
        .inl (fun hc => hnd.1 (hc ▸ List.mem_map_of_mem hp'))⟩
    · obtain ⟨a, ha, hoa, b, hb, hob, hab⟩ := ih hnd.2 l h1 l' h2
      exact ⟨a, List.mem_cons_of_mem _ ha, hoa, b, List.mem_cons_of_mem _ hb, hob, hab⟩

theorem shape_two {ps news : List Param} (h : Shape ps news) (hn : (ps.map (·.name)).Nodup) : ∀ q ∈ news, ∀ q' ∈ news,
    ∃ p ∈ ps, ∃ l, PieceOK p l ∧ q ∈ l ∧ ∃ p' ∈ ps, ∃ l', PieceOK p' l' ∧ q' ∈ l' ∧ (p.name ≠ p'.name ∨ p = p' ∧ l = l') := by
  obtain ⟨ls, rfl, hf⟩ := h
  intro q hq q' hq'
  obtain ⟨l, hl, hql⟩ := List.mem_flatten.1 hq
  obtain ⟨l', hl', hql'⟩ := List.mem_flatten.1 hq'
  obtain ⟨p, hp, hok, p', hp', hok', hs⟩ := forall2_two hf hn l hl l' hl'
  exact ⟨p, hp, l, hok, hql, p', hp', l', hok', hql', hs⟩

theorem Spec.GoodNames.noItem' {ps : List Param} (h : GoodNames ps) (p : Param) (hp : p ∈ ps) (q : Param) (hq : q ∈ ps)
    (ha : q.arrayCode ≠ []) (i : Nat) : p.name ≠ itemName q.name i := by
  rw [← item_eq]; exact h.noItem p hp q hq ha i

theorem shape_names {ps news : List Param} (h : Shape ps news) (hg : GoodNames ps) : GoodNames news := by
  refine ⟨?_, ?_, ?_⟩
  · intro q hq
    obtain ⟨p, hp, l, hok, hql⟩ := shape_mem h q hq
    rcases names_sub hok q hql with h1 | ⟨_, i, h1⟩
    · rw [h1]; exact hg.nonempty p hp
    · rw [h1]; exact itemName_ne _ _
  · obtain ⟨l, rfl, hf⟩ := h
    induction hf with
    | nil => exact List.nodup_nil
    | cons hok hr ih =>
      rename_i p x ps' l'
      have hnd := List.nodup_cons.1 (by simpa using hg.nodup : (p.name :: ps'.map (·.name)).Nodup)
      have hg' : GoodNames ps' :=
        ⟨fun q hq => hg.nonempty q (List.mem_cons_of_mem p hq), hnd.2,
         fun q hq r hr => hg.noItem q (List.mem_cons_of_mem p hq) r (List.mem_cons_of_mem p hr)⟩
      rw [List.flatten_cons, List.map_append]
      refine List.nodup_append.2 ⟨names_nodup hok, ih hg', ?_⟩
      intro a ha b hb hab
      subst hab
      obtain ⟨q, hq, rfl⟩ := List.mem_map.1 ha
      obtain ⟨q', hq', hqq⟩ := List.mem_map.1 hb
      obtain ⟨y, hy, hqy⟩ := List.mem_flatten.1 hq'
      obtain ⟨p', hp', hok'⟩ := forall2_mem_right hr y hy
      have hpp : p.name ≠ p'.name := fun hc => hnd.1 (hc ▸ List.mem_map_of_mem hp')
      have m1 : p ∈ p :: ps' := List.mem_cons_self
      have m2 : p' ∈ p :: ps' := List.mem_cons_of_mem p hp'
      rcases names_sub hok q hq with h1 | ⟨ha1, i, h1⟩ <;> rcases names_sub hok' q' hqy with h2 | ⟨ha2, j, h2⟩
      · exact hpp (by rw [← h1, ← h2, hqq])
      · exact hg.noItem' p m1 p' m2 ha2 j (by rw [← h1, ← h2, hqq])
      · exact hg.noItem' p' m2 p m1 ha1 i (by rw [← h1, ← h2, hqq])
      · exact hpp (itemName_inj (by rw [← h1, ← h2, hqq])).1
  · intro q hq q' hq' ha i hc
    rw [item_eq] at hc
    obtain ⟨p, hp, l, hok, hql, p', hp', l', hok', hql', hsame⟩ := shape_two h hg.nodup q hq q' hq'
    obtain ⟨h1, h2⟩ := hok'.arrays q' hql' ha
    rw [h1] at hc
    rcases names_sub hok q hql with h3 | ⟨h5, j, h3⟩
    · exact hg.noItem' p hp p' hp' h2 i (by rw [← h3, hc])
    · rcases hsame with hne | ⟨rfl, rfl⟩
      · rw [h3] at hc
        exact hne (itemName_inj hc).1
      · rcases hok.names with hn | hn | ⟨n, _, hn⟩
        · have := List.mem_map_of_mem (f := (·.name)) hql
          rw [hn] at this; simp at this
        · have := List.mem_map_of_mem (f := (·.name)) hql
          rw [hn] at this
          simp at this
          exact hg.noItem' p hp p hp h5 j (this.symm.trans h3)
        · have := List.mem_map_of_mem (f := (·.name)) hql'
          rw [hn] at this
          obtain ⟨k, _, hk⟩ := List.mem_map.1 this
          exact hg.noItem' p hp p hp h5 k (h1.symm.trans hk.symm)

end Verif.Adapt
