import Verif.Unit.Binding
import Verif.Overload.Props
import Verif.Indent.Props
import Verif.Lines.Props

/-! The stub of a unit as a run over its namespaces. -/

namespace Verif.Unit
open Verif.Py Spec

mutual
/-- What an element gives to its block. -/
def sInner (o : Options) : El → Overload.Elem
  | .leaf _ _ s _ => s
  | .ns name _ _ els => ⟨none, if name ∈ o.roots then blockLines o (sInners o els) ++ [[]] else []⟩
def sInners (o : Options) : List El → List (Kind × Overload.Elem)
  | [] => []
  | e :: es => (e.kind, sInner o e) :: sInners o es
end

/-- The code that a namespace stores. -/
def storedStub (o : Options) (x : Occ) (new : Bool) : Str :=
  unlines ((if new then lines (proxyCode o x.name) else []) ++
    Indent.indentCodeLines ((if new then Fn.docstringLines (o.comment x.comment) else []) ++ blockLines o (sInners o x.els) ++ [[]] ++
      customLines o false x.scope) 1 false (some o.pyIndent))

theorem join_longer (a b : List Str) (ha : a ≠ []) (hb : b ≠ []) : (qualified a).length < (qualified (a ++ b)).length := by
  unfold qualified
  induction a with
  | nil => exact absurd rfl ha
  | cons s a ih =>
    cases a with
    | nil =>
      cases b with
      | nil => exact absurd rfl hb
      | cons t b =>
        rw [List.singleton_append, join_cons_cons]
        show s.length < _
        rw [List.length_append, List.length_append]
        have : ("::".toList).length = 2 := rfl
        omega
    | cons t a =>
      have := ih (by simp)
      rw [List.cons_append, List.cons_append, join_cons_cons, join_cons_cons]
      rw [List.cons_append] at this
      rw [List.length_append, List.length_append (bs := join _ (t :: (a ++ b)))]
      omega

theorem run_created (o : Options) (f : Occ → Bool → Str) (q : Str) (xs : List Occ) (c c' : Ctx) (h : runAll o f c xs = some c')
    (hq : ∀ x ∈ xs, qualified x.scope ≠ q) : c'.has q = c.has q := by
  induction xs generalizing c with
  | nil =>
    unfold runAll at h
    rw [Option.some.inj h]
  | cons x xs ih =>
    unfold runAll at h
    cases hr : runOcc o f c x with
    | none => rw [hr] at h; cases h
    | some d =>
      rw [hr] at h
      have := ih d h (fun y hy => hq y (by simp [hy]))
      rw [this]
      unfold runOcc Ctx.store at hr
      have hne := hq x (by simp)
      split at hr
      · obtain ⟨t, _, rfl⟩ := Option.map_eq_some_iff.1 hr
        rfl
      · obtain ⟨t, _, rfl⟩ := Option.map_eq_some_iff.1 hr
        unfold Ctx.has Ctx.register
        simp [hne.symm]

theorem finishStub_eq (o : Options) (scope : List Str) (name comment : Str) (els : List El) (c d : Ctx) (h : name ∉ o.roots)
    (hc : c.has (qualified scope) = d.has (qualified scope)) :
    finishStub o scope name (nsDocstring o scope name comment c ++ blockLines o (sInners o els)) d =
      (runOcc o (storedStub o) d ⟨scope, name, comment, els⟩).map (fun c => ([], c)) := by
  unfold finishStub runOcc storedStub proxyClass nsDocstring asModule
  rw [if_pos (by simp [h]), hc]
  dsimp only
  have h2 : decide (name ∈ o.roots) = false := by simpa using h
  rw [h2]
  cases d.has (qualified scope) with
  | true => simp only [if_true, Bool.not_true, Bool.false_eq_true, if_false, Bool.false_and]
  | false => simp only [if_true, Bool.not_false, Bool.false_eq_true, if_false, Bool.true_and]

mutual
theorem elStub_eq (o : Options) : ∀ (e : El) (s : List Str) (c : Ctx),
    elStub o s e c = (runAll o (storedStub o) c (occs o s e)).map (fun c => (sInner o e, c))
  | .leaf _ _ st p, s, c => by unfold elStub occs sInner; rfl
  | .ns n pr eo els, s, c => by
    unfold elStub occs sInner
    rw [elsStub_eq o els (s ++ [n]) c, runAll_append]
    cases hc : runAll o (storedStub o) c (occsAll o (s ++ [n]) els) with
    | none => rfl
    | some d =>
      show Option.map _ (finishStub o (s ++ [n]) n (nsDocstring o (s ++ [n]) n (Cls.fullComment pr eo) c ++ blockLines o (sInners o els)) d) = _
      by_cases hr : n ∈ o.roots
      · rw [if_pos hr, if_pos hr]
        unfold finishStub asModule nsDocstring asModule
        rw [if_neg (by simp [hr]), if_neg (by simp [hr])]
        rfl
      · rw [if_neg hr, if_neg hr, finishStub_eq _ _ _ _ _ c d hr]
        · show _ = Option.map _ (runAll _ _ _ _)
          rw [runAll_single]
          cases runOcc o (storedStub o) d ⟨s ++ [n], n, Cls.fullComment pr eo, els⟩ with
          | none => rfl
          | some _ => rfl
        · refine (run_created o _ _ _ c d hc ?_).symm
          intro x hx he
          obtain ⟨r, h1, _, _⟩ := occsAll_scope o els (s ++ [n]) x hx
          have := join_longer (s ++ [n]) (r ++ [x.name]) (by simp) (by simp)
          rw [← List.append_assoc, ← h1, he] at this
          omega
theorem elsStub_eq (o : Options) : ∀ (es : List El) (s : List Str) (c : Ctx),
    elsStub o s es c = (runAll o (storedStub o) c (occsAll o s es)).map (fun c => (sInners o es, c))
  | [], s, c => by unfold elsStub occsAll sInners; rfl
  | e :: es, s, c => by
    unfold elsStub occsAll sInners
    rw [elStub_eq o e s c, runAll_append]
    cases runAll o (storedStub o) c (occs o s e) with
    | none => rfl
    | some c' =>
      show Option.map _ (elsStub o s es c') = _
      rw [elsStub_eq o es s c']
      show _ = Option.map _ (runAll _ _ _ _)
      cases runAll o (storedStub o) c' (occsAll o s es) with
      | none => rfl
      | some _ => rfl
end

/-! ### Blocks -/

theorem withKinds_lines (cs : List (Kind × Overload.Elem)) (es : List (Overload.Elem × List Str))
    (h : (es.map Prod.fst).Sublist (cs.map Prod.snd)) : (withKinds cs es).map (·.2) = es.map (·.2) := by
  induction cs generalizing es with
  | nil =>
    have : es = [] := by
      have := List.sublist_nil.1 h
      exact List.map_eq_nil_iff.1 this
    rw [this]
    rfl
  | cons ch cs ih =>
    cases es with
    | nil => rfl
    | cons e es =>
      unfold withKinds
      split
      · rename_i he
        rw [List.map_cons, List.map_cons]
        refine congrArg (e.2 :: ·) (ih es ?_)
        rw [List.map_cons, List.map_cons, he] at h
        exact List.cons_sublist_cons.1 h
      · rename_i he
        refine ih _ ?_
        rw [List.map_cons] at h ⊢
        rw [List.map_cons] at h
        rcases List.sublist_cons_iff.1 h with h | ⟨r, e', h⟩
        · exact h
        · exact absurd (List.cons.inj e').1.symm he

theorem spacedLines_rows (o : Options) (l : List (Kind × List Str)) (last : Option Kind) :
    rowsOf (spacedLines o last l) = l.flatMap (fun x => rowsOf x.2) := by
  induction l generalizing last with
  | nil => rfl
  | cons x l ih =>
    obtain ⟨k, ls⟩ := x
    unfold spacedLines
    rw [rowsOf_append, rowsOf_append, ih, List.flatMap_cons]
    have : rowsOf (if o.reproduceLayout = true then [] else spacing last k ls) = [] := by
      split
      · rfl
      · exact rowsOf_spacing _ _ _
    rw [this]
    rfl

theorem blockLines_rows (o : Options) (l : List (Kind × Overload.Elem)) :
    rowsOf (blockLines o l) = (Overload.Spec.kept (l.map Prod.snd)).flatMap
      (fun e => rowsOf (Overload.Spec.expectedLines (Overload.Spec.kept (l.map Prod.snd)) e)) := by
  unfold blockLines
  rw [spacedLines_rows]
  have h := withKinds_lines l _ (Overload.Props.C31_order (l.map Prod.snd))
  have e : ∀ m : List (Kind × List Str), m.flatMap (fun x => rowsOf x.2) = (m.map (·.2)).flatMap rowsOf := by
    intro m; rw [List.flatMap_map]
  rw [e, h, Overload.Props.C31_refines, List.map_map, List.flatMap_map]
  rfl

theorem fn_sInner (o : Options) (e : El) : (sInner o e).fn = (summary e).fn := by
  cases e with
  | leaf => unfold sInner summary; rfl
  | ns => unfold sInner summary; rfl

theorem fn_shownEl (e : El) : (summary (shownEl e)).fn = (summary e).fn := by
  cases e with
  | leaf => unfold shownEl summary; rfl
  | ns => unfold shownEl summary; rfl

theorem isDuplicate_congr {α : Type} (f g : α → Overload.Elem) (h : ∀ a, (f a).fn = (g a).fn) (l : List α) (a : α) :
    Overload.Spec.isDuplicate (l.map f) (f a) = Overload.Spec.isDuplicate (l.map g) (g a) := by
  unfold Overload.Spec.isDuplicate Overload.Spec.overloaded
  simp only [List.any_map, Function.comp_def, h]

theorem filter_zipIdx {α : Type} (f g : α → Overload.Elem) (h : ∀ a, (f a).fn = (g a).fn) (l : List α) :
    Overload.Spec.kept (l.map f) =
      ((l.zipIdx.filter (fun p => !Overload.Spec.isDuplicate ((l.take p.2).map g) (g p.1))).map Prod.fst).map f := by
  unfold Overload.Spec.kept
  rw [List.zipIdx_map, List.filter_map, List.map_map, List.map_map]
  have e : List.filter ((fun p : Overload.Elem × Nat => !Overload.Spec.isDuplicate ((l.map f).take p.2) p.1) ∘ Prod.map f id) l.zipIdx =
      l.zipIdx.filter (fun p => !Overload.Spec.isDuplicate ((l.take p.2).map g) (g p.1)) := by
    refine List.filter_congr (fun p _ => ?_)
    show (!Overload.Spec.isDuplicate ((l.map f).take p.2) (f p.1)) = _
    rw [← List.map_take, isDuplicate_congr f g h]
  rw [e]
  rfl

theorem declarations_congr (n : Str) (f g : El → Overload.Elem) (h : ∀ e, f e = g e ∨ ((f e).fn = none ∧ (g e).fn = none)) (l : List El) :
    Overload.Spec.declarations n (l.map f) = Overload.Spec.declarations n (l.map g) := by
  unfold Overload.Spec.declarations
  rw [List.filter_map, List.filter_map, List.length_map, List.length_map]
  refine congrArg _ (List.filter_congr (fun e _ => ?_))
  show (_ && _) = (_ && _)
  rcases h e with he | ⟨h1, h2⟩
  · rw [he]
  · unfold Overload.Spec.overloaded
    rw [h1, h2]
    rfl

theorem expected_congr (f g : El → Overload.Elem) (h : ∀ e, f e = g e ∨ ((f e).fn = none ∧ (g e).fn = none)) (l : List El) (x : Overload.Elem) :
    Overload.Spec.expectedLines (l.map f) x = Overload.Spec.expectedLines (l.map g) x := by
  unfold Overload.Spec.expectedLines
  have : ∀ n, Overload.Spec.declarations n (l.map f) = Overload.Spec.declarations n (l.map g) := fun n => declarations_congr n f g h l
  simp only [this]

theorem sInners_snd (o : Options) (els : List El) : (sInners o els).map Prod.snd = els.map (sInner o) := by
  induction els with
  | nil => unfold sInners; rfl
  | cons e es ih => unfold sInners; rw [List.map_cons, List.map_cons, ih]

theorem shownEls_map (els : List El) : shownEls els = els.map shownEl := by
  induction els with
  | nil => unfold shownEls; rfl
  | cons e es ih => unfold shownEls; rw [List.map_cons, ih]

theorem plainAll_flatMap (side : Side) (o : Options) (els : List El) : plainAll side o els = els.flatMap (plain side o) := by
  induction els with
  | nil => unfold plainAll; rfl
  | cons e es ih => unfold plainAll; rw [List.flatMap_cons, ih]

/-- The elements that are shown, by their places. -/
theorem survivors_eq (els : List El) : survivors (els.map shownEl) =
    ((els.zipIdx.filter (fun p => !Overload.Spec.isDuplicate ((els.take p.2).map summary) (summary p.1))).map Prod.fst).map shownEl := by
  unfold survivors
  rw [List.zipIdx_map, List.filter_map, List.map_map, List.map_map]
  have e : List.filter ((fun p : El × Nat => !Overload.Spec.isDuplicate (((els.map shownEl).take p.2).map summary) (summary p.1)) ∘
      Prod.map shownEl id) els.zipIdx =
      els.zipIdx.filter (fun p => !Overload.Spec.isDuplicate ((els.take p.2).map summary) (summary p.1)) := by
    refine List.filter_congr (fun p _ => ?_)
    show (!Overload.Spec.isDuplicate (((els.map shownEl).take p.2).map summary) (summary (shownEl p.1))) = _
    rw [← List.map_take, List.map_map]
    exact congrArg (!·) (isDuplicate_congr (summary ∘ shownEl) summary fn_shownEl (els.take p.2) p.1)
  rw [e]
  rfl

theorem block_rows (o : Options) (els : List El) (h : ∀ e ∈ els, rowsOf (sInner o e).stubLines = plain .stub o (shownEl e)) :
    rowsOf (blockLines o (sInners o els)) = plainAll .stub o (shown (shownEls els)) := by
  rw [blockLines_rows, sInners_snd, filter_zipIdx (sInner o) summary (fn_sInner o), plainAll_flatMap, shownEls_map]
  unfold shown
  rw [survivors_eq]
  have hsub : ∀ e ∈ (els.zipIdx.filter (fun p => !Overload.Spec.isDuplicate ((els.take p.2).map summary) (summary p.1))).map Prod.fst,
      e ∈ els := by
    intro e he
    obtain ⟨p, hp, rfl⟩ := List.mem_map.1 he
    exact List.fst_mem_of_mem_zipIdx (List.mem_filter.1 hp).1
  revert hsub
  generalize (els.zipIdx.filter (fun p => !Overload.Spec.isDuplicate ((els.take p.2).map summary) (summary p.1))).map Prod.fst = F
  intro hsub
  rw [List.map_map, List.map_map, List.flatMap_map, List.flatMap_map]
  refine Tree.flatMap_congr' (fun e he => ?_)
  dsimp only [Function.comp_apply]
  have hF := expected_congr (sInner o) (summary ∘ shownEl) (by
    intro e
    cases e with
    | leaf => left; unfold sInner; rfl
    | ns => right; unfold sInner; exact ⟨rfl, rfl⟩) F
  rw [hF]
  have hA := h e (hsub e he)
  cases e with
  | leaf k key s p => unfold sInner shownEl shorten plain; rfl
  | ns n pr eo es =>
    have e1 : Overload.Spec.expectedLines (F.map (summary ∘ shownEl)) (sInner o (.ns n pr eo es)) = (sInner o (.ns n pr eo es)).stubLines := by
      unfold Overload.Spec.expectedLines Overload.Spec.overloaded
      rw [show (sInner o (.ns n pr eo es)).fn = none from by unfold sInner; rfl]
      rfl
    rw [e1, hA]
    unfold shownEl shorten
    rfl

mutual
theorem sInner_rows (o : Options) : ∀ e : El, rowsOf (sInner o e).stubLines = plain .stub o (shownEl e)
  | .leaf _ _ s p => by unfold sInner shownEl plain; rfl
  | .ns n pr eo els => by
    unfold sInner shownEl plain
    dsimp only
    split
    · rw [rowsOf_append, rowsOf_blank, List.append_nil]
      exact block_rows o els (sInners_rows o els)
    · rfl
theorem sInners_rows (o : Options) : ∀ es : List El, ∀ e ∈ es, rowsOf (sInner o e).stubLines = plain .stub o (shownEl e)
  | [], e, he => by cases he
  | e :: es, x, hx => by
    rcases List.mem_cons.1 hx with hx' | hx'
    · rw [hx']; exact sInner_rows o e
    · exact sInners_rows o es x hx'
end

theorem stubBlock_rows (o : Options) (els : List El) : rowsOf (blockLines o (sInners o els)) = plainAll .stub o (shown (shownEls els)) :=
  block_rows o els (sInners_rows o els)

/-! ### Namespaces are shown -/

theorem survivors_flatMap {β : Type} (f : El → List β) (hf : ∀ k key s p, f (.leaf k key s p) = []) (els : List El) :
    (survivors els).flatMap f = els.flatMap f := by
  unfold survivors
  rw [List.flatMap_map]
  have hgen : ∀ (l : List (El × Nat)) (q : El × Nat → Bool), (∀ x ∈ l, q x = false → f x.1 = []) →
      (l.filter q).flatMap (fun a => f a.1) = (l.map Prod.fst).flatMap f := by
    intro l q hq
    induction l with
    | nil => rfl
    | cons x l ih =>
      have ih := ih (fun y hy => hq y (by simp [hy]))
      rw [List.filter_cons, List.map_cons, List.flatMap_cons]
      cases hx : q x with
      | true => rw [if_pos rfl, List.flatMap_cons, ih]
      | false => rw [if_neg (by simp), hq x (by simp) hx, ih, List.nil_append]
  rw [hgen, List.zipIdx_map_fst]
  intro x _ hx
  obtain ⟨e, i⟩ := x
  cases e with
  | leaf => exact hf _ _ _ _
  | ns =>
    exfalso
    revert hx
    unfold Overload.Spec.isDuplicate summary
    dsimp only
    unfold Overload.Spec.overloaded
    intro hx
    cases hx

theorem shown_flatMap {β : Type} (f : El → List β) (hf : ∀ k key s p, f (.leaf k key s p) = []) (els : List El) :
    (shown els).flatMap f = els.flatMap f := by
  unfold shown
  rw [List.flatMap_map, ← survivors_flatMap f hf els]
  refine Tree.flatMap_congr' (fun e _ => ?_)
  cases e with
  | leaf => unfold shorten; rw [hf, hf]
  | ns => rfl

theorem occsAll_flatMap (o : Options) (s : List Str) (els : List El) : occsAll o s els = els.flatMap (occs o s) := by
  induction els with
  | nil => unfold occsAll; rfl
  | cons e es ih => unfold occsAll; rw [List.flatMap_cons, ih]

theorem spacesAll_flatMap (o : Options) (s : List Str) (els : List El) : spacesAll o s els = els.flatMap (Spec.spaces o s) := by
  induction els with
  | nil => unfold spacesAll; rfl
  | cons e es ih => unfold spacesAll; rw [List.flatMap_cons, ih]

theorem occsAll_shown (o : Options) (s : List Str) (els : List El) : occsAll o s (shown els) = occsAll o s els := by
  rw [occsAll_flatMap, occsAll_flatMap]
  exact shown_flatMap _ (fun _ _ _ _ => by unfold occs; rfl) els

theorem spacesAll_shown (o : Options) (s : List Str) (els : List El) : spacesAll o s (shown els) = spacesAll o s els := by
  rw [spacesAll_flatMap, spacesAll_flatMap]
  exact shown_flatMap _ (fun _ _ _ _ => by unfold Spec.spaces; rfl) els

/-- A namespace, with the elements that are shown. -/
def Occ.shown (x : Occ) : Occ := ⟨x.scope, x.name, x.comment, Spec.shown (shownEls x.els)⟩

mutual
theorem occs_shownEl (o : Options) : ∀ (e : El) (s : List Str), occs o s (shownEl e) = (occs o s e).map Occ.shown
  | .leaf _ _ _ _, s => by unfold shownEl occs; rfl
  | .ns n pr eo els, s => by
    unfold shownEl occs
    rw [occsAll_shown, occsAll_shownEls o els (s ++ [n]), List.map_append]
    split <;> rfl
theorem occsAll_shownEls (o : Options) : ∀ (es : List El) (s : List Str), occsAll o s (shownEls es) = (occsAll o s es).map Occ.shown
  | [], s => by unfold shownEls occsAll; rfl
  | e :: es, s => by
    unfold shownEls occsAll
    rw [occs_shownEl o e s, occsAll_shownEls o es s, List.map_append]
end

mutual
theorem spaces_shownEl (o : Options) : ∀ (e : El) (s : List Str), Spec.spaces o s (shownEl e) = Spec.spaces o s e
  | .leaf _ _ _ _, s => by unfold shownEl Spec.spaces; rfl
  | .ns n pr eo els, s => by
    unfold shownEl Spec.spaces
    rw [spacesAll_shown, spacesAll_shownEls o els (s ++ [n])]
theorem spacesAll_shownEls (o : Options) : ∀ (es : List El) (s : List Str), spacesAll o s (shownEls es) = spacesAll o s es
  | [], s => by unfold shownEls spacesAll; rfl
  | e :: es, s => by
    unfold shownEls spacesAll
    rw [spaces_shownEl o e s, spacesAll_shownEls o es s]
end

/-! ### The class of a module -/

theorem rows_rstrip_congr {a b : Str} (ha : '\n' ∉ a) (hb : '\n' ∉ b) (h : rstrip a = rstrip b) : rows a = rows b := by
  unfold rows
  rw [show lines a = [a] from splitOn_of_not_mem ha, show lines b = [b] from splitOn_of_not_mem hb, List.map_singleton, List.map_singleton, h]

theorem rows_blank {a : Str} (ha : '\n' ∉ a) (h : rstrip a = []) : rows a = [] := by
  unfold rows
  rw [show lines a = [a] from splitOn_of_not_mem ha, List.map_singleton, h]
  rfl

theorem rows_stripEmptyLines (s : Str) : rows (Lines.stripEmptyLines s) = rows s := by
  unfold Lines.stripEmptyLines
  obtain ⟨a, b, h1, h2, h3⟩ := Lines.strip_list_decomp (lines s)
  have hz : ∀ l : List Str, (∀ x ∈ l, isBlank x = true) → (∀ x ∈ l, '\n' ∉ x) → rowsOf l = [] := by
    intro l hl hn
    unfold rowsOf
    rw [List.flatMap_eq_nil_iff]
    intro x hx
    exact rows_blank (hn x hx) ((rstrip_eq_nil_iff x).2 ((isBlank_iff x).1 (hl x hx)))
  have hm : ∀ x ∈ a ++ Lines.stripEmptyLinesInList (lines s) ++ b, '\n' ∉ x := by
    intro x hx
    rw [← h1] at hx
    exact not_mem_of_mem_lines hx
  rw [rows_unlines, ← rowsOf_lines s]
  conv_rhs => rw [h1]
  rw [rowsOf_append, rowsOf_append, hz a h2 (fun x hx => hm x (by simp [hx])), hz b h3 (fun x hx => hm x (by simp [hx])), List.append_nil,
    List.nil_append]

theorem rstrip_removeTrailing (l : Str) : rstrip (Indent.removeTrailingSpaces l) = rstrip l := by
  obtain ⟨k, h1, _⟩ := Indent.removeTrailing_decomp l
  conv_rhs => rw [h1]
  exact (rstrip_append_of_all (fun c hc => by rw [Indent.mem_spaces hc]; decide)).symm

theorem unindentLine_rows {m : Nat} {l : Str} (h : '\n' ∉ l) : rows (Indent.unindentLine m (Py.spaces m ++ l)) = rows l := by
  have e : Indent.unindentLine m (Py.spaces m ++ l) = Indent.removeTrailingSpaces l := by
    unfold Indent.unindentLine
    rw [if_pos ((Indent.startsWith_spaces_iff _ _).2 ⟨l, rfl⟩)]
    have := List.drop_left (l₁ := Py.spaces m) (l₂ := l)
    rw [Indent.length_spaces] at this
    rw [this]
  rw [e]
  refine rows_rstrip_congr ?_ h (rstrip_removeTrailing l)
  intro hm
  obtain ⟨k, h1, _⟩ := Indent.removeTrailing_decomp l
  apply h
  rw [h1]
  simp [hm]

theorem proxyText_eq (a b : Str) :
    "
            class ".toList ++ a ++ ":  # Proxy class that introduces typings for the *submodule* ".toList ++ a ++ "
            ".toList ++ b ++ "pass  # (This corresponds to a C++ namespace. All methods are static!)
            ".toList =
    unlines [[], Py.spaces 12 ++ ("class ".toList ++ a ++ ":  # Proxy class that introduces typings for the *submodule* ".toList ++ a),
      Py.spaces 12 ++ (b ++ "pass  # (This corresponds to a C++ namespace. All methods are static!)".toList), Py.spaces 12 ++ []] := by
  have h1 : "
            class ".toList = '\n' :: (Py.spaces 12 ++ "class ".toList) := by decide +kernel
  have h2 : "
            ".toList = '\n' :: Py.spaces 12 := by decide +kernel
  have h3 : "pass  # (This corresponds to a C++ namespace. All methods are static!)
            ".toList = "pass  # (This corresponds to a C++ namespace. All methods are static!)".toList ++ '\n' :: Py.spaces 12 := by decide +kernel
  rw [h1, h2, h3]
  simp only [unlines, join, List.append_assoc, List.cons_append, List.nil_append, List.append_nil]

theorem proxy_rows (o : Options) (name : Str) (hn : '\n' ∉ o.nsName name) (hi : Blank o.pyIndent) : rows (proxyCode o name) = proxy o name := by
  unfold proxyCode proxy
  rw [proxyText_eq]
  have hc : ∀ a : Str, '\n' ∉ a → '\n' ∉ "class ".toList ++ a ++ ":  # Proxy class that introduces typings for the *submodule* ".toList ++ a := by
    intro a ha hm
    rw [List.mem_append, List.mem_append, List.mem_append] at hm
    rcases hm with ((hm | hm) | hm) | hm
    · revert hm; decide +kernel
    · exact ha hm
    · revert hm; decide +kernel
    · exact ha hm
  have hp : '\n' ∉ o.pyIndent ++ "pass  # (This corresponds to a C++ namespace. All methods are static!)".toList := by
    intro hm
    rcases List.mem_append.1 hm with hm | hm
    · exact (hi _ hm).2 rfl
    · revert hm; decide +kernel
  have hhead : ∀ a : Str, ("class ".toList ++ a).head? ≠ some ' ' := by
    intro a
    show some 'c' ≠ some ' '
    decide
  have hmem : ∀ a : Str, 'c' ∈ "class ".toList ++ a := fun a => List.mem_append_left _ (by decide)
  rw [List.append_assoc, List.append_assoc] at *
  generalize ha : o.nsName name ++ (":  # Proxy class that introduces typings for the *submodule* ".toList ++ o.nsName name) = A at *
  generalize hb : o.pyIndent ++ "pass  # (This corresponds to a C++ namespace. All methods are static!)".toList = B at *
  have hA : '\n' ∉ "class ".toList ++ A := by
    have := hc (o.nsName name) hn
    rwa [List.append_assoc, List.append_assoc, ha] at this
  have hsp : '\n' ∉ Py.spaces 12 := Indent.nl_not_mem_spaces 12
  have hl : lines (unlines [[], Py.spaces 12 ++ ("class ".toList ++ A), Py.spaces 12 ++ B, Py.spaces 12 ++ []]) =
      [[], Py.spaces 12 ++ ("class ".toList ++ A), Py.spaces 12 ++ B, Py.spaces 12 ++ []] := by
    refine lines_unlines (by simp) ?_
    intro l h
    rw [List.mem_cons, List.mem_cons, List.mem_cons, List.mem_singleton] at h
    rcases h with rfl | rfl | rfl | rfl
    · simp
    · intro hm; rcases List.mem_append.1 hm with hm | hm; exact hsp hm; exact hA hm
    · intro hm; rcases List.mem_append.1 hm with hm | hm; exact hsp hm; exact hp hm
    · rw [List.append_nil]; exact hsp
  have hk : Indent.computeCodeIndentSize (unlines [[], Py.spaces 12 ++ ("class ".toList ++ A), Py.spaces 12 ++ B, Py.spaces 12 ++ []]) = 12 := by
    unfold Indent.computeCodeIndentSize
    rw [hl]
    unfold Indent.indentSizeOfLines
    rw [if_pos (by decide)]
    unfold Indent.indentSizeOfLines
    rw [if_neg, Indent.count_append_spaces _ _ (hhead A)]
    intro h0
    have := (Indent.replace_space_length _).1 h0 'c' (List.mem_append_right _ (hmem A))
    revert this
    decide
  unfold Indent.unindentCode
  dsimp only
  rw [if_pos rfl, rows_stripEmptyLines, hk, hl, rows_unlines]
  show rows (Indent.unindentLine 12 []) ++ (rows _ ++ (rows _ ++ (rows _ ++ []))) = rows _ ++ (rows _ ++ [])
  rw [unindentLine_rows hA, unindentLine_rows hp, unindentLine_rows (by simp), show rows (Indent.unindentLine 12 []) = [] from by decide +kernel,
    rows_nil]
  rfl

theorem storedStub_rows (o : Options) (hi : Blank o.pyIndent) (x : Occ) (new : Bool) :
    rows (storedStub o x new) = (if new then rows (proxyCode o x.name) else []) ++
      shift o.pyIndent ((if new then rowsOf (Fn.docstringLines (o.comment x.comment)) else []) ++ full .stub o x.shown) := by
  unfold storedStub full
  rw [rows_unlines, rowsOf_append, rowsOf_indent (fun c hc => (hi c hc).1) (fun hc => (hi _ hc).2 rfl), rowsOf_append, rowsOf_append, rowsOf_append,
    rowsOf_blank, List.append_nil, stubBlock_rows, show rowsOf (customLines o false x.scope) = _ from customLines_rows o .stub x.scope,
    List.append_assoc]
  cases new with
  | true => rw [if_pos rfl, if_pos rfl, if_pos rfl, if_pos rfl, rowsOf_lines]; rfl
  | false => rfl

end Verif.Unit
