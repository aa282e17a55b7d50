import Verif.Attach.Props
import Verif.Parse.PropsBrace
import Verif.Parse.SpecBlock

/-! Lemmas on the blocks. -/

namespace Verif.Parse.Lemmas
open Verif.Py Verif.Type Spec

/-! ### The comments of the children -/

theorem str_comment (t : Tag) : (t.str == "comment".toList) = decide (t = .comment) := by
  cases t <;> first | decide | skip
  rename_i n
  show (('/' :: n) == "comment".toList) = _
  rw [Bool.eq_iff_iff, beq_iff_eq]
  constructor
  · intro h; exact absurd (List.cons.inj h).1 (by decide)
  · intro h; simp at h

theorem attach_mem (children : List Attach.Child) (o : Attach.Out) (h : o ∈ Attach.attach children) : o.element ∈ children := by
  unfold Attach.attach at h
  rw [List.mem_filterMap] at h
  obtain ⟨⟨c, i⟩, h1, h2⟩ := h
  unfold Attach.attachOne at h2
  split at h2
  · cases h2
  · split at h2
    · cases h2
    · cases h2
      have := List.mem_zipIdx h1
      obtain ⟨_, _, he⟩ := this
      show c ∈ children
      rw [he]; exact List.getElem_mem _

/-- The grouping of comments only changes texts and ends of comments. -/
theorem group_keeps {children g : List Attach.Child} (h : Attach.groupConsecutiveComments children = some g) :
    (g.filter (fun e => !e.isComment)) = children.filter (fun e => !e.isComment) ∧
    ∀ r ∈ g, ∃ c ∈ children, r.id = c.id ∧ r.tag = c.tag := by
  obtain ⟨runs, h1, h2⟩ := Attach.C20_grouping children g h
  subst h1
  clear h
  induction h2 with
  | nil => simp
  | @cons run r runs g hr _ ih =>
    obtain ⟨hm, hg⟩ := hr
    obtain ⟨ih1, ih2⟩ := ih
    match run, hm, hg with
    | [c], hm, _ =>
      have hrc : r = c := by
        unfold Attach.Spec.merged at hm
        simp at hm
        exact hm.symm
      subst hrc
      refine ⟨?_, ?_⟩
      · rw [List.filter_cons, List.flatten_cons, List.singleton_append, List.filter_cons, ih1]
      · intro q hq
        rcases List.mem_cons.1 hq with rfl | hq
        · exact ⟨q, by simp, rfl, rfl⟩
        · obtain ⟨c, hc, h⟩ := ih2 q hq
          exact ⟨c, by simp only [List.flatten_cons]; exact List.mem_append_right _ hc, h⟩
    | c :: d :: cs, hm, hg =>
      have hall : ∀ l : List Attach.Child, Attach.Spec.Groupable l → ∀ a b l', l = a :: b :: l' → ∀ e ∈ l, e.isComment = true := by
        intro l
        induction l with
        | nil => intro _ a b l' h; cases h
        | cons x xs ihx =>
          intro hg a b l' h
          cases h
          intro e he
          rcases List.mem_cons.1 he with rfl | he
          · exact hg.1
          · cases l' with
            | nil => simp at he; subst he; exact hg.2.1
            | cons y ys => exact ihx hg.2.2.2.2.2 _ _ _ rfl e he
      have hcs := hall _ hg _ _ _ rfl
      unfold Attach.Spec.merged at hm
      simp only [Option.some.injEq] at hm
      have hrt : r.id = c.id ∧ r.tag = c.tag := by rw [← hm]; exact ⟨rfl, rfl⟩
      have hrc : r.isComment = true := by
        have := hcs c (by simp)
        unfold Attach.Child.isComment at this ⊢
        rw [hrt.2]; exact this
      refine ⟨?_, ?_⟩
      · rw [List.filter_cons, if_neg (by simp [hrc]), ih1, List.flatten_cons, List.filter_append]
        rw [List.filter_eq_nil_iff.2 (show ∀ e ∈ c :: d :: cs, _ from fun e he => by simp [hcs e he])]
        rfl
      · intro q hq
        rcases List.mem_cons.1 hq with rfl | hq
        · exact ⟨c, by simp, hrt⟩
        · obtain ⟨c', hc, h⟩ := ih2 q hq
          exact ⟨c', by rw [List.flatten_cons]; exact List.mem_append_right _ hc, h⟩
    | [], hm, _ => cases hm

theorem clean_isComment (c : Attach.Child) : (Attach.cleanChild c).isComment = c.isComment ∧ (Attach.cleanChild c).id = c.id ∧
    (Attach.cleanChild c).tag = c.tag := by
  unfold Attach.cleanChild
  split <;> exact ⟨rfl, rfl, rfl⟩

theorem clean_filter (g : List Attach.Child) : (g.map Attach.cleanChild).filter (fun e => !e.isComment) = g.filter (fun e => !e.isComment) := by
  induction g with
  | nil => rfl
  | cons c g ih =>
    rw [List.map_cons, List.filter_cons, List.filter_cons, (clean_isComment c).1, ih]
    split
    · rename_i h
      unfold Attach.cleanChild
      rw [if_neg (by simpa using h)]
    · rfl

/-- The children with their comments: all those which are not comments, in order. -/
theorem outs_spec {xs : List Xml} {outs : List Attach.Out} (h : Attach.getChildrenWithComments (xs.zipIdx.map attachChild) = some outs) :
    (∀ o ∈ outs, ∃ x, xs[o.element.id]? = some x ∧ o.element.isComment = decide (x.tag = .comment)) ∧
    (outs.filter (fun o => !o.element.isComment)).map (fun o => xs[o.element.id]?) = (noComments xs).map some := by
  unfold Attach.getChildrenWithComments at h
  rw [Option.map_eq_some_iff] at h
  obtain ⟨g, hg, rfl⟩ := h
  obtain ⟨h1, h2⟩ := group_keeps hg
  have hchild : ∀ c ∈ xs.zipIdx.map attachChild, ∃ x, xs[c.id]? = some x ∧ c.tag = x.tag.str := by
    intro c hc
    obtain ⟨⟨x, i⟩, hx, rfl⟩ := List.mem_map.1 hc
    refine ⟨x, ?_, rfl⟩
    have := List.mem_zipIdx_iff_getElem?.1 hx
    exact this
  refine ⟨?_, ?_⟩
  · intro o ho
    have := attach_mem _ _ ho
    obtain ⟨r, hr, hre⟩ := List.mem_map.1 this
    obtain ⟨c, hc, hid, htag⟩ := h2 r hr
    obtain ⟨x, hx, hxt⟩ := hchild c hc
    obtain ⟨_, h4, h5⟩ := clean_isComment r
    refine ⟨x, ?_, ?_⟩
    · rw [← hre, h4, hid]; exact hx
    · unfold Attach.Child.isComment
      rw [← hre, h5, htag, hxt]; exact str_comment _
  · have h3 := Attach.C20_elements_kept (g.map Attach.cleanChild)
    rw [clean_filter, h1] at h3
    have h4 : (((Attach.attach (g.map Attach.cleanChild)).map Attach.Out.element).filter (fun e => !e.isComment)).map (fun c => xs[c.id]?) =
        ((xs.zipIdx.map attachChild).filter (fun e => !e.isComment)).map (fun c => xs[c.id]?) := by rw [h3]
    rw [List.filter_map, List.map_map] at h4
    have h5 : ((xs.zipIdx.map attachChild).filter (fun e => !e.isComment)).map (fun c => xs[c.id]?) = (noComments xs).map some := by
      rw [List.filter_map, List.map_map]
      have h6 : (xs.zipIdx.filter ((fun e => !e.isComment) ∘ attachChild)).map ((fun c => xs[c.id]?) ∘ attachChild) =
          (xs.zipIdx.filter (fun p => decide (p.1.tag ≠ .comment))).map (fun p => some p.1) := by
        rw [List.filter_congr (q := fun p => decide (p.1.tag ≠ .comment))]
        · apply List.map_congr_left
          intro p hp
          obtain ⟨hp, _⟩ := List.mem_filter.1 hp
          exact List.mem_zipIdx_iff_getElem?.1 hp
        · intro p _
          show (!(p.1.tag.str == "comment".toList)) = _
          rw [str_comment]; simp
      rw [h6]
      unfold noComments
      rw [show (fun p : Xml × Nat => some p.1) = some ∘ Prod.fst from rfl, ← List.map_map]
      congr 1
      rw [show (fun p : Xml × Nat => decide (p.1.tag ≠ .comment)) = (fun c : Xml => decide (c.tag ≠ .comment)) ∘ Prod.fst from rfl,
        ← List.filter_map, List.zipIdx_map_fst]
    rw [h5] at h4
    exact h4

theorem childrenOf_eq (env : Env) (cs : List Xml) : childrenOf env cs = cs.map (fun c => ⟨c, parseChild env c⟩) := by
  induction cs with
  | nil => rw [childrenOf]; rfl
  | cons c cs ih => rw [childrenOf, ih]; rfl

theorem fillers_eq (env : Env) (cs : List Xml) : fillers env cs = cs.map (fillOf env) := by
  induction cs with
  | nil => rw [fillers]; rfl
  | cons c cs ih => rw [fillers, ih]; rfl

theorem contentFillersOf_eq (env : Env) (cs : List Xml) :
    contentFillersOf env cs = (cs.filter (fun c => c.tag = .blockContent)).map (fillOf env) := by
  induction cs with
  | nil => rw [contentFillersOf]; rfl
  | cons c cs ih =>
    rw [contentFillersOf, List.filter_cons]
    by_cases h : c.tag = .blockContent
    · rw [if_pos h, if_pos (by simpa using h), ih]; rfl
    · rw [if_neg h, if_neg (by simpa using h), ih]

theorem contents_eq (env : Env) (cs : List Xml) :
    contents env cs = cs.map (fun c => (c.tag, (c.children.filter (fun c => c.tag = .blockContent)).map (fillOf env))) := by
  induction cs with
  | nil => rw [contents]; rfl
  | cons c cs ih =>
    rw [contents, ih, List.map_cons]
    cases c
    rw [contentFillers, contentFillersOf_eq]
    rfl

theorem zip_fillers (env : Env) (cs : List Xml) : cs.zip (fillers env cs) = cs.map (fun c => (c, fillOf env c)) := by
  rw [fillers_eq]
  induction cs with
  | nil => rfl
  | cons c cs ih => rw [List.map_cons, List.zip_cons_cons, ih]; rfl

/-- The children with their comments and their parsers. -/
theorem withComments_spec (env : Env) (xs : List Xml) {l : List (Attach.Out × Child)} (h : withComments (childrenOf env xs) = some l) :
    (∀ p ∈ l, p.2.parser = parseChild env p.2.xml) ∧
    Commented xs ((l.filter (fun p => p.2.xml.tag ≠ .comment)).map (fun p => (p.2.xml, ⟨p.1.onPreviousLines, p.1.endOfLine⟩))) := by
  unfold withComments at h
  rw [childrenOf_eq, List.map_map, show (Child.xml ∘ fun c => (⟨c, parseChild env c⟩ : Child)) = id from rfl, List.map_id] at h
  rw [Option.bind_eq_some_iff] at h
  obtain ⟨outs, h1, h2⟩ := h
  obtain ⟨h3, h4⟩ := outs_spec h1
  have key : ∀ (outs : List Attach.Out) (l : List (Attach.Out × Child)),
      outs.mapM (fun o => ((xs.map (fun c => (⟨c, parseChild env c⟩ : Child)))[o.element.id]?).map (fun c => (o, c))) = some l →
      (∀ o ∈ outs, ∃ x, xs[o.element.id]? = some x ∧ o.element.isComment = decide (x.tag = .comment)) →
      (∀ p ∈ l, p.2.parser = parseChild env p.2.xml) ∧
      ((l.filter (fun p => p.2.xml.tag ≠ .comment)).map (fun p => some p.2.xml)) =
        (outs.filter (fun o => !o.element.isComment)).map (fun o => xs[o.element.id]?) ∧
      (l.filter (fun p => p.2.xml.tag ≠ .comment)).map (fun p => p.1) = outs.filter (fun o => !o.element.isComment) := by
    intro outs
    induction outs with
    | nil => intro l hl _; cases hl; exact ⟨by simp, rfl, rfl⟩
    | cons o outs ih =>
      intro l hl ho
      obtain ⟨x, hx, hc⟩ := ho o (by simp)
      rw [List.mapM_cons] at hl
      rw [List.getElem?_map, hx] at hl
      simp only [Option.map_some, Option.bind_eq_bind, Option.bind_some] at hl
      rw [Option.bind_eq_some_iff] at hl
      obtain ⟨r, hr, hl⟩ := hl
      cases hl
      obtain ⟨i1, i2, i3⟩ := ih r hr (fun o ho' => ho o (by simp [ho']))
      refine ⟨?_, ?_, ?_⟩
      · intro p hp
        rcases List.mem_cons.1 hp with rfl | hp
        · rfl
        · exact i1 p hp
      · rw [List.filter_cons, List.filter_cons, hc]
        by_cases ht : x.tag = .comment
        · rw [if_neg (by simpa using ht), if_neg (by simpa using ht), i2]
        · rw [if_pos (by simpa using ht), if_pos (by simpa using ht), List.map_cons, List.map_cons, i2, hx]
      · rw [List.filter_cons, List.filter_cons, hc]
        by_cases ht : x.tag = .comment
        · rw [if_neg (by simpa using ht), if_neg (by simpa using ht), i3]
        · rw [if_pos (by simpa using ht), if_pos (by simpa using ht), List.map_cons, i3]
  obtain ⟨k1, k2, k3⟩ := key outs l h2 h3
  refine ⟨k1, ?_, outs, h1, ?_⟩
  · rw [h4] at k2
    rw [List.map_map]
    have : (l.filter (fun p => p.2.xml.tag ≠ .comment)).map (fun p => some p.2.xml) =
        ((l.filter (fun p => p.2.xml.tag ≠ .comment)).map (fun p => p.2.xml)).map some := by rw [List.map_map]; rfl
    rw [this] at k2
    exact (List.map_injective_iff.2 (fun _ _ h => Option.some.inj h)) k2
  · rw [← k3, List.map_map, List.map_map]; rfl

/-! ### The loop -/

theorem noNotes_append (a b : List Elem) : noNotes (a ++ b) = noNotes a ++ noNotes b := List.filter_append _ _

/-- The elements which a child gives. -/
def Seg (env : Env) (ctx : Ctx) (x : Xml) (c : Comments) (seg : List Elem) : Prop :=
  (isProcessed ctx x.tag = true ∧ parseChild env x ctx c = .ok seg) ∨
  (isProcessed ctx x.tag = true ∧ parseChild env x ctx c = .error .detailed ∧ seg = [.unprocessed x.tag]) ∨
  (isProcessed ctx x.tag = false ∧ seg = [.unprocessed x.tag])

theorem blockLoop_spec (env : Env) (ctx : Ctx) : ∀ (l : List (Attach.Out × Child)) (ign : Option Ignored) (es : List Elem),
    (∀ p ∈ l, p.2.parser = parseChild env p.2.xml) → blockLoop env ctx ign l = .ok es →
    ∃ segs, noNotes es = (segs.map noNotes).flatten ∧
      List.Forall₂ (fun p seg => Seg env ctx p.1 p.2 seg)
        ((l.filter (fun p => p.2.xml.tag ≠ .comment)).map (fun p => (p.2.xml, ⟨p.1.onPreviousLines, p.1.endOfLine⟩))) segs := by
  intro l
  induction l with
  | nil =>
    intro ign es _ h
    cases h
    exact ⟨[], rfl, .nil⟩
  | cons p l ih =>
    intro ign es hp h
    obtain ⟨o, c⟩ := p
    rw [blockLoop] at h
    cases hs : blockStep env ctx ign o c with
    | error e => rw [hs] at h; cases h
    | ok r =>
      obtain ⟨seg, ign'⟩ := r
      rw [hs] at h
      simp only at h
      cases hr : blockLoop env ctx ign' l with
      | error e => rw [hr] at h; cases h
      | ok es' =>
        rw [hr] at h
        cases h
        obtain ⟨segs, h1, h2⟩ := ih ign' es' (fun p hp' => hp p (by simp [hp'])) hr
        have hpar := hp (o, c) (by simp)
        simp only at hpar
        unfold blockStep at hs
        by_cases ht : c.xml.tag = .comment
        · refine ⟨segs, ?_, ?_⟩
          · rw [noNotes_append, h1]
            have : noNotes seg = [] := by
              rw [if_pos ht] at hs
              split at hs
              · cases hs
              · simp only at hs
                split at hs
                · cases hs; rfl
                · cases hs
                  unfold noNotes
                  rw [List.filter_eq_nil_iff]
                  intro e he
                  obtain ⟨t, _, rfl⟩ := List.mem_map.1 he
                  simp [isNote]
            rw [this]; rfl
          · rw [List.filter_cons, if_neg (by simpa using ht)]; exact h2
        · refine ⟨seg :: segs, ?_, ?_⟩
          · rw [noNotes_append, h1]; rfl
          · rw [List.filter_cons, if_pos (by simpa using ht), List.map_cons]
            refine .cons ?_ h2
            rw [if_neg ht] at hs
            by_cases hpr : isProcessed ctx c.xml.tag = true
            · rw [if_pos hpr, hpar] at hs
              cases hq : parseChild env c.xml ctx ⟨o.onPreviousLines, o.endOfLine⟩ with
              | ok es => rw [hq] at hs; cases hs; exact .inl ⟨hpr, hq⟩
              | error e =>
                rw [hq] at hs
                cases e with
                | detailed => cases hs; exact .inr (.inl ⟨hpr, hq, rfl⟩)
                | crash => cases hs
            · rw [if_neg hpr] at hs
              cases hs
              exact .inr (.inr ⟨by simpa using hpr, rfl⟩)

/-- A block: each child which is not a comment gives its elements, in order. -/
theorem fillOf_spec (env : Env) (x : Xml) (ctx : Ctx) (es : List Elem) (h : fillOf env x ctx = .ok es) :
    ∃ l segs, Commented x.children l ∧ noNotes es = (segs.map noNotes).flatten ∧
      List.Forall₂ (fun p seg => Seg env ctx p.1 p.2 seg) l segs := by
  cases x with
  | node m cs =>
    rw [fillOf] at h
    unfold fillBlock at h
    cases hw : withComments (childrenOf env cs) with
    | none => rw [hw] at h; cases h
    | some l =>
      rw [hw] at h
      obtain ⟨h1, h2⟩ := withComments_spec env cs hw
      obtain ⟨segs, h3, h4⟩ := blockLoop_spec env ctx l none es h1 h
      exact ⟨_, segs, h2, h3, h4⟩

end Verif.Parse.Lemmas
