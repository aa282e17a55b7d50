import Verif.Inst.Lemmas

/-! Specialisation, from the type names to the classes. -/

namespace Verif.Inst
open Verif.Py Verif.Type Verif.Inst.Spec
open Verif.Scope (isWordChar)

theorem hasWord_ident {u : Char → Bool} {w n : Str} (h : Ident u w) : HasWord u n w ↔ n = w := by
  rw [hasWord_iff, ident_cut h]; simp

theorem hasWord_is_ident {u : Char → Bool} {w s : Str} (h : HasWord u w s) : Ident u w := by
  rw [hasWord_iff] at h
  exact word_ident (cut_spec u s).1 h

theorem specTypename1_eq {u : Char → Bool} {p : Part} {q : Str × Str}
    (h : p.name = q.1 ∧ Ident u q.1 ∧ p.type.typenames.length = 1 ∧ strCode p.type = some q.2) (tn : Str) :
    specTypename1 u p tn = some (ren u (put q.1 q.2) tn, decide (HasWord u q.1 tn)) := by
  obtain ⟨h1, h2, h3, h4⟩ := h
  unfold specTypename1
  rw [if_neg (by simp [h3]), h4, h1]
  simp only
  by_cases he : tn = q.1
  · subst he
    rw [if_pos rfl, ren_ident h2]
    unfold put
    rw [if_pos rfl]
    simp [hasWord_ident h2]
  · rw [if_neg he, subn_ren h2]
    simp only
    by_cases hw : HasWord u q.1 tn
    · rw [if_pos (List.count_pos_iff.2 ((hasWord_iff _ _ _).1 hw))]
      simp [hw]
    · rw [if_neg (fun h => hw ((hasWord_iff _ _ _).2 (List.count_pos_iff.1 h))), ren_unchanged hw]
      simp [hw]

theorem lookup_free {u : Char → Bool} {s : Str} : ∀ {tbl : List (Str × Str)}, (∀ q ∈ tbl, ¬ HasWord u q.1 s) → ren u (lookup tbl) s = s := by
  intro tbl h
  conv => rhs; rw [← ren_id u s]
  apply ren_congr
  intro w hw
  have hw : HasWord u w s := (hasWord_iff _ _ _).2 hw
  clear * - h hw
  induction tbl with
  | nil => rfl
  | cons q tbl ih =>
    unfold lookup
    rw [if_neg, ih (fun x hx => h x (by simp [hx]))]
    rintro rfl
    exact h q (by simp) hw

theorem specTypename_eq {u : Char → Bool} {ps : List Part} {tbl : List (Str × Str)} (h : Reads u ps tbl) (hc : NoCapture u tbl) (tn : Str) :
    specTypename u ps tn = some (ren u (lookup tbl) tn, decide (∃ q ∈ tbl, HasWord u q.1 tn)) := by
  induction h generalizing tn with
  | nil =>
    unfold specTypename
    rw [lookup_free (by simp)]
    simp
  | @cons p q ps tbl hq hps ih =>
    unfold specTypename
    rw [specTypename1_eq hq]
    simp only
    rw [ih (List.pairwise_cons.1 hc).2, ren_ren]
    simp only
    congr 2
    · apply ren_congr
      intro w hw
      have hi := word_ident (cut_spec u tn).1 hw
      unfold put lookup
      split
      · exact lookup_free (fun x hx => (List.pairwise_cons.1 hc).1 x hx)
      · exact ren_ident hi
    · rw [Bool.eq_iff_iff]
      simp only [Bool.or_eq_true, decide_eq_true_eq]
      constructor
      · rintro (h | ⟨x, hx, hw⟩)
        · exact ⟨q, by simp, h⟩
        · obtain ⟨w, h1, h2⟩ := (hasWord_ren _ _ _ _).1 hw
          unfold put at h2
          split at h2
          · next e => subst e; exact ⟨q, by simp, h1⟩
          · have := (hasWord_ident (hasWord_is_ident h1)).1 h2
            subst this
            exact ⟨x, by simp [hx], h1⟩
      · rintro ⟨x, hx, hw⟩
        rcases List.mem_cons.1 hx with rfl | hx
        · exact .inl hw
        · by_cases he : x.1 = q.1
          · exact .inl (he ▸ hw)
          · refine .inr ⟨x, hx, (hasWord_ren _ _ _ _).2 ⟨x.1, hw, ?_⟩⟩
            unfold put
            rw [if_neg he]
            exact (hasWord_ident (hasWord_is_ident hw)).2 rfl

/-- Rename the type names. -/
def renType (u : Char → Bool) (f : Str → Str) (t : CppType) : CppType := { t with typenames := t.typenames.map (ren u f) }

theorem renamedType_iff (u : Char → Bool) (f : Str → Str) (t t' : CppType) : RenamedType u f t t' ↔ t' = renType u f t := by
  have key : ∀ l l' : List Str, List.Forall₂ (Renamed u f) l l' ↔ l' = l.map (ren u f) := by
    intro l
    induction l with
    | nil => intro l'; simp
    | cons x l ih =>
      intro l'
      rw [List.forall₂_cons_left_iff]
      constructor
      · rintro ⟨y, m, h1, h2, rfl⟩
        rw [(renamed_iff _ _ _ _).1 h1, (ih m).1 h2]; rfl
      · rintro rfl
        exact ⟨_, _, (renamed_iff _ _ _ _).2 rfl, (ih _).2 rfl, rfl⟩
  cases t; cases t'
  unfold RenamedType renType
  simp only [key, CppType.mk.injEq]
  constructor
  · rintro ⟨a, b, c⟩; exact ⟨a, c, b⟩
  · rintro ⟨a, c, b⟩; exact ⟨a, b, c⟩

noncomputable instance (u : Char → Bool) (tbl : List (Str × Str)) (t : CppType) : Decidable (Hits u tbl t) := Classical.propDecidable _

theorem renType_unchanged {u : Char → Bool} {tbl : List (Str × Str)} {t : CppType} (h : ¬ Hits u tbl t) : renType u (lookup tbl) t = t := by
  cases t with
  | mk a tn b =>
    unfold renType
    congr 1
    show tn.map _ = tn
    conv => rhs; rw [← List.map_id tn]
    apply List.map_congr_left
    intro x hx
    exact lookup_free (fun q hq hw => h ⟨q, hq, x, hx, hw⟩)

theorem mapM_some {α β : Type} {f : α → Option β} {g : α → β} : ∀ (l : List α), (∀ x ∈ l, f x = some (g x)) → l.mapM f = some (l.map g)
  | [], _ => rfl
  | x :: l, h => by
    rw [List.mapM_cons, h x (by simp), mapM_some l (fun y hy => h y (by simp [hy]))]
    rfl

theorem specType_eq {u : Char → Bool} {ps : List Part} {tbl : List (Str × Str)} (h : Reads u ps tbl) (hc : NoCapture u tbl) (t : CppType) :
    specType u ps t = if Hits u tbl t then .changed (renType u (lookup tbl) t) else .unchanged := by
  unfold specType
  rw [mapM_some _ (fun x _ => specTypename_eq h hc x)]
  simp only [List.map_map]
  by_cases hh : Hits u tbl t
  · rw [if_pos hh, if_pos]
    · rfl
    · obtain ⟨q, hq, tn, htn, hw⟩ := hh
      simp only [List.any_map, List.any_eq_true, Function.comp, decide_eq_true_eq]
      exact ⟨tn, htn, q, hq, hw⟩
  · rw [if_neg hh, if_neg]
    simp only [List.any_map, List.any_eq_true, Function.comp, decide_eq_true_eq]
    rintro ⟨tn, htn, q, hq, hw⟩
    exact hh ⟨q, hq, tn, htn, hw⟩

def renDecl (u : Char → Bool) (f : Str → Str) (d : Decl) : Decl := { d with type := renType u f d.type }

theorem renamedDecl (u : Char → Bool) (f : Str → Str) (d : Decl) : RenamedDecl u f d (renDecl u f d) :=
  ⟨(renamedType_iff _ _ _ _).2 rfl, rfl, rfl⟩

theorem specDecl_eq {u : Char → Bool} {ps : List Part} {tbl : List (Str × Str)} (h : Reads u ps tbl) (hc : NoCapture u tbl) (d : Decl) :
    specDecl u ps d = if Hits u tbl d.type then .changed (renDecl u (lookup tbl) d) else .unchanged := by
  unfold specDecl
  rw [specType_eq h hc]
  by_cases hh : Hits u tbl d.type
  · rw [if_pos hh, if_pos hh]; rfl
  · rw [if_neg hh, if_neg hh]

theorem renDecl_unchanged {u : Char → Bool} {tbl : List (Str × Str)} {d : Decl} (h : ¬ Hits u tbl d.type) : renDecl u (lookup tbl) d = d := by
  unfold renDecl
  rw [renType_unchanged h]

open Classical in
theorem specAll_eq {α : Type} {f : α → Res α} {g : α → α} {P : α → Prop} (hf : ∀ x, f x = if P x then .changed (g x) else .unchanged)
    (hg : ∀ x, ¬ P x → g x = x) : ∀ l, specAll f l = some (l.map g, decide (∃ x ∈ l, P x))
  | [] => by simp [specAll]
  | x :: l => by
    unfold specAll
    rw [specAll_eq hf hg l, hf x]
    by_cases hp : P x
    · rw [if_pos hp]; simp [hp]
    · rw [if_neg hp]; simp [hp, hg x hp]

theorem forall₂_ren {u : Char → Bool} {f : Str → Str} (ds : List Decl) : List.Forall₂ (RenamedDecl u f) ds (ds.map (renDecl u f)) := by
  induction ds with
  | nil => exact .nil
  | cons d ds ih => exact .cons (renamedDecl u f d) ih

theorem store_named (h : Host) : ∀ {ps : List Part}, (∀ p ∈ ps, p.name ≠ []) → store h ps = some (h, ps)
  | [], _ => rfl
  | p :: ps, hp => by
    unfold store
    rw [if_neg (hp p (by simp)), store_named h (fun q hq => hp q (by simp [hq]))]

theorem reads_named {u : Char → Bool} {ps : List Part} {tbl : List (Str × Str)} (h : Reads u ps tbl) : ∀ p ∈ ps, p.name ≠ [] := by
  intro p hp
  induction h with
  | nil => simp at hp
  | cons hq _ ih =>
    rcases List.mem_cons.1 hp with rfl | hp
    · rw [hq.1]; exact hq.2.1.1
    · exact ih hp

/-- What a specialisation gives once the parts have names. -/
def renFunc (u : Char → Bool) (f : Str → Str) (g : Func) : Func :=
  { g with ret := g.ret.map (renType u f), params := g.params.map (renDecl u f) }

theorem renamedFunc (u : Char → Bool) (f : Str → Str) (g : Func) : RenamedFunc u f g (renFunc u f g) := by
  refine ⟨rfl, ?_, forall₂_ren _⟩
  unfold renFunc
  cases g.ret with
  | none => exact .nil
  | some t => exact .cons ((renamedType_iff _ _ _ _).2 rfl) .nil

theorem renamedFunc_host (u : Char → Bool) (f : Str → Str) (g : Func) (host : Host) :
    RenamedFunc u f g { renFunc u f g with host := host } := renamedFunc u f g

open Classical in
theorem specRet_eq {u : Char → Bool} {ps : List Part} {tbl : List (Str × Str)} (h : Reads u ps tbl) (hc : NoCapture u tbl) (r : Option CppType) :
    specRet u ps r = some (r.map (renType u (lookup tbl)), decide (∃ t ∈ r.toList, Hits u tbl t)) := by
  cases r with
  | none => simp [specRet]
  | some t =>
    unfold specRet
    simp only
    rw [specType_eq h hc]
    by_cases hh : Hits u tbl t
    · rw [if_pos hh]; simp [hh]
    · rw [if_neg hh]; simp [hh, renType_unchanged hh]

/-- The body of the specialisation of a function, once the parts have names. -/
theorem specFunc_of {u : Char → Bool} {qs ps : List Part} {tbl : List (Str × Str)} {f : Func} {host : Host} (hs : store f.host qs = some (host, ps))
    (h : Reads u ps tbl) (hc : NoCapture u tbl) :
    ((∃ t ∈ funcTypes f, Hits u tbl t) → specFunc u qs f = .changed { renFunc u (lookup tbl) f with host := host }) ∧
    ((¬ ∃ t ∈ funcTypes f, Hits u tbl t) → specFunc u qs f = .unchanged) := by
  unfold specFunc
  rw [hs]
  simp only
  rw [specRet_eq h hc, specAll_eq (specDecl_eq h hc) (fun d => renDecl_unchanged)]
  simp only
  refine ⟨fun hh => ?_, fun hh => ?_⟩
  · rw [if_pos]
    · rfl
    · obtain ⟨t, ht, hit⟩ := hh
      rcases List.mem_append.1 ht with ht | ht
      · rw [Bool.or_eq_true]; exact .inl (decide_eq_true ⟨t, ht, hit⟩)
      · obtain ⟨d, hd, rfl⟩ := List.mem_map.1 ht
        rw [Bool.or_eq_true]; exact .inr (decide_eq_true ⟨d, hd, hit⟩)
  · rw [if_neg]
    rw [Bool.or_eq_true]
    rintro (h' | h')
    · obtain ⟨t, ht, hit⟩ := of_decide_eq_true h'
      exact hh ⟨t, List.mem_append_left _ ht, hit⟩
    · obtain ⟨d, hd, hit⟩ := of_decide_eq_true h'
      exact hh ⟨_, List.mem_append_right _ (List.mem_map_of_mem hd), hit⟩

theorem renFunc_unchanged {u : Char → Bool} {tbl : List (Str × Str)} {f : Func} (h : ¬ ∃ t ∈ funcTypes f, Hits u tbl t) :
    renFunc u (lookup tbl) f = f := by
  cases f with
  | mk host name ret params =>
    unfold renFunc
    congr 1
    · cases ret with
      | none => rfl
      | some t => exact congrArg some (renType_unchanged (fun hh => h ⟨t, by simp [funcTypes], hh⟩))
    · show params.map _ = params
      conv => rhs; rw [← List.map_id params]
      apply List.map_congr_left
      intro d hd
      exact renDecl_unchanged (fun hh => h ⟨d.type, by simp [funcTypes]; exact .inr ⟨d, hd, rfl⟩, hh⟩)

open Classical in
mutual
theorem specElem_eq {u : Char → Bool} {ps : List Part} {tbl : List (Str × Str)} (h : Reads u ps tbl) (hc : NoCapture u tbl) :
    ∀ e : Elem, ∃ e', RenamedElem u (lookup tbl) e e' ∧ ((∃ t ∈ elemTypes e, Hits u tbl t) → specElem u ps e = .changed e') ∧
      ((¬ ∃ t ∈ elemTypes e, Hits u tbl t) → specElem u ps e = .unchanged ∧ e' = e)
  | .func f => by
    have key := specFunc_of (store_named f.host (reads_named h)) h hc
    refine ⟨.func (renFunc u (lookup tbl) f), .func f _ rfl (renamedFunc u _ f), fun hh => ?_, fun hh => ⟨?_, ?_⟩⟩
    · rw [specElem, key.1 hh]; rfl
    · rw [specElem, key.2 hh]
    · rw [renFunc_unchanged hh]
  | .decls ds => by
    have hiff : (∃ t ∈ elemTypes (.decls ds), Hits u tbl t) ↔ ∃ d ∈ ds, Hits u tbl d.type := by
      show (∃ t ∈ ds.map Decl.type, _) ↔ _
      constructor
      · rintro ⟨t, ht, hit⟩
        obtain ⟨d, hd, rfl⟩ := List.mem_map.1 ht
        exact ⟨d, hd, hit⟩
      · rintro ⟨d, hd, hit⟩
        exact ⟨_, List.mem_map_of_mem hd, hit⟩
    rw [hiff]
    refine ⟨.decls (ds.map (renDecl u (lookup tbl))), .decls ds _ (forall₂_ren ds), fun hh => ?_, fun hh => ⟨?_, ?_⟩⟩
    · rw [specElem]
      unfold specDecls
      rw [specAll_eq (specDecl_eq h hc) (fun d => renDecl_unchanged)]
      simp only
      rw [decide_eq_true hh, if_pos rfl]
    · rw [specElem]
      unfold specDecls
      rw [specAll_eq (specDecl_eq h hc) (fun d => renDecl_unchanged)]
      simp only
      rw [decide_eq_false hh, if_neg (by simp)]
    · congr 1
      conv => rhs; rw [← List.map_id ds]
      apply List.map_congr_left
      intro d hd
      exact renDecl_unchanged (fun hit => hh ⟨d, hd, hit⟩)
  | .struct_ hd blocks => by
    obtain ⟨bs, h1, h2, h3⟩ := specBlocks_eq h hc blocks
    refine ⟨.struct_ hd bs, .struct_ hd _ _ h1, fun (hh : ∃ t ∈ blocksTypes blocks, Hits u tbl t) => ?_,
      fun (hh : ¬ ∃ t ∈ blocksTypes blocks, Hits u tbl t) => ⟨?_, ?_⟩⟩
    · rw [specElem, store_named _ (reads_named h)]
      simp only
      rw [h2, decide_eq_true hh]
      rfl
    · rw [specElem, store_named _ (reads_named h)]
      simp only
      rw [h2, decide_eq_false hh]
      rfl
    · rw [h3 hh]
  | .other t => by
    refine ⟨.other t, .other t, ?_, fun _ => ⟨by rw [specElem], rfl⟩⟩
    rintro ⟨t, ht, _⟩
    exact absurd ht (by simp [elemTypes])
theorem specBlocks_eq {u : Char → Bool} {ps : List Part} {tbl : List (Str × Str)} (h : Reads u ps tbl) (hc : NoCapture u tbl) :
    ∀ bs : List Block, ∃ bs', RenamedBlocks u (lookup tbl) bs bs' ∧
      specBlocks u ps bs = some (bs', decide (∃ t ∈ blocksTypes bs, Hits u tbl t)) ∧ ((¬ ∃ t ∈ blocksTypes bs, Hits u tbl t) → bs' = bs)
  | [] => ⟨[], .nil, by simp [specBlocks, blocksTypes], fun _ => rfl⟩
  | .access name l :: bs => by
    obtain ⟨l', h1, h2, h3⟩ := specChildren_eq h hc l
    obtain ⟨bs', k1, k2, k3⟩ := specBlocks_eq h hc bs
    have hiff : (∃ t ∈ blocksTypes (.access name l :: bs), Hits u tbl t) ↔
        (∃ t ∈ childrenTypes l, Hits u tbl t) ∨ (∃ t ∈ blocksTypes bs, Hits u tbl t) := by
      show (∃ t ∈ childrenTypes l ++ blocksTypes bs, _) ↔ _
      simp only [List.mem_append, or_and_right, exists_or]
    refine ⟨.access name l' :: bs', .access _ _ _ _ _ h1 k1, ?_, fun hn => ?_⟩
    · rw [specBlocks, specBlock, h2, k2]
      simp only
      rw [Option.some.injEq, Prod.mk.injEq]
      refine ⟨rfl, ?_⟩
      rw [Bool.eq_iff_iff]
      simp only [Bool.or_eq_true, decide_eq_true_eq]
      exact hiff.symm
    · rw [hiff] at hn
      rw [h3 (fun x => hn (.inl x)), k3 (fun x => hn (.inr x))]
  | .other t :: bs => by
    obtain ⟨bs', k1, k2, k3⟩ := specBlocks_eq h hc bs
    refine ⟨.other t :: bs', .other _ _ _ k1, ?_, fun hn => ?_⟩
    · rw [specBlocks, specBlock, k2]
      simp only [Bool.false_or]
      rfl
    · rw [k3 hn]
theorem specChildren_eq {u : Char → Bool} {ps : List Part} {tbl : List (Str × Str)} (h : Reads u ps tbl) (hc : NoCapture u tbl) :
    ∀ l : List Elem, ∃ l', RenamedElems u (lookup tbl) l l' ∧
      specChildren u ps l = some (l', decide (∃ t ∈ childrenTypes l, Hits u tbl t)) ∧ ((¬ ∃ t ∈ childrenTypes l, Hits u tbl t) → l' = l)
  | [] => ⟨[], .nil, by simp [specChildren, childrenTypes], fun _ => rfl⟩
  | x :: l => by
    obtain ⟨y, h1, h2, h2'⟩ := specElem_eq h hc x
    obtain ⟨l', k1, k2, k3⟩ := specChildren_eq h hc l
    have hiff : (∃ t ∈ childrenTypes (x :: l), Hits u tbl t) ↔
        (∃ t ∈ elemTypes x, Hits u tbl t) ∨ (∃ t ∈ childrenTypes l, Hits u tbl t) := by
      show (∃ t ∈ elemTypes x ++ childrenTypes l, _) ↔ _
      simp only [List.mem_append, or_and_right, exists_or]
    refine ⟨y :: l', .cons _ _ _ _ h1 k1, ?_, fun hn => ?_⟩
    · by_cases hx : ∃ t ∈ elemTypes x, Hits u tbl t
      · rw [specChildren, h2 hx, k2]
        simp only
        rw [decide_eq_true (hiff.2 (.inl hx))]
      · rw [specChildren, (h2' hx).1, k2]
        simp only
        rw [Option.some.injEq, Prod.mk.injEq, (h2' hx).2]
        refine ⟨rfl, ?_⟩
        rw [Bool.eq_iff_iff]
        simp only [decide_eq_true_eq]
        rw [hiff]
        exact ⟨.inr, fun k => k.resolve_left hx⟩
    · rw [hiff] at hn
      rw [(h2' (fun x => hn (.inl x))).2, k3 (fun x => hn (.inr x))]
end

end Verif.Inst
