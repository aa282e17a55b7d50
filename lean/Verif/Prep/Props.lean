import Verif.Prep.Lemmas

/-! Properties C18 (what preprocessor filtering keeps) and C19 (directives, stray directives). -/

namespace Verif.Prep
open Verif.Py Spec
open scoped List

/-- A header guard region containing code, a rejected region with an `#else`, and an accepted region
with an `#else`. -/
def exElem (id : Nat) (tag : Tag) (line : Int) (name : String := "") : Elem :=
  ⟨id, tag, [.node "name".toList (some name.toList) []], some line, some line⟩

def exDoc : Doc :=
  .region (exElem 0 .ifndef 1 "A_H") 1 "A_H".toList
    (.comment (exElem 1 .comment 1) <| .code (exElem 2 (.other "function".toList) 2) <|
     .region (exElem 3 .ifdef 3 "WIN32") 3 "WIN32".toList (.code (exElem 4 (.other "function".toList) 4) .nil)
       (.cons (exElem 5 .else_ 5) 5 (.code (exElem 6 (.other "function".toList) 6) .nil) .nil)
       (exElem 7 .endif 7) 7 <|
     .region (exElem 8 .ifdef 8 "OK_H") 8 "OK_H".toList (.code (exElem 9 (.other "decl".toList) 9) .nil)
       (.cons (exElem 10 .else_ 10) 10 (.code (exElem 11 (.other "decl".toList) 11) .nil) .nil)
       (exElem 12 .endif 12) 12 .nil)
    .nil (exElem 13 .endif 13) 13 .nil

theorem exDoc_WF : exDoc.WF := by
  simp [exDoc, Doc.WF, Branches.WF, exElem, macroName, firstNameText]

/-- C18: on a well nested file the filter keeps exactly what the specification `Doc.keep` keeps: the
pieces of code whose enclosing regions are all acceptable and which are in the first branch of each,
the directives of the acceptable regions that are themselves at such a place, and the comments at
such a place that are not on the line of the preceding directive. -/
theorem C18_exact (acc : Str → Bool) (d : Doc) (hd : d.WF) :
    filterPreprocessorRegions acc d.flat = some (d.keep acc true (-1)).flat := by
  obtain ⟨fl, h⟩ := loop_doc acc d hd .init []
  simp only [List.append_nil] at h
  unfold filterPreprocessorRegions
  rw [h]
  simp [filterLoop, active, contentExcluded, State.init]

example : exDoc.WF ∧
    (exDoc.keep (fun m => endsWith m "_H".toList) true (-1)).flat.map Elem.id = [0, 2, 8, 9, 10, 12, 13] :=
  ⟨exDoc_WF, by decide +kernel⟩

mutual
theorem at_mem {d : Doc} {path : List (Str × Bool)} {e : Elem} (h : At d path e) : e ∈ d.flat := by
  match d, h with
  | _, .here e r => simp [Doc.flat]
  | _, .code x r _ _ h => simp [Doc.flat, at_mem h]
  | _, .comment x r _ _ h => simp [Doc.flat, at_mem h]
  | _, .after o l m f b c cl r _ _ h => simp [Doc.flat, at_mem h]
  | _, .first o l m f b c cl r _ _ h => simp [Doc.flat, at_mem h]
  | _, .other o l m f b c cl r _ _ h => simp [Doc.flat, atBranch_mem h]
theorem atBranch_mem {b : Branches} {path : List (Str × Bool)} {e : Elem} (h : AtBranch b path e) :
    e ∈ b.flat := by
  match b, h with
  | _, .here d l body r _ _ h => simp [Branches.flat, at_mem h]
  | _, .next d l body r _ _ h => simp [Branches.flat, atBranch_mem h]
end

mutual
theorem at_unique (d : Doc) (hn : d.flat.Nodup) (p q : List (Str × Bool)) (e : Elem)
    (hp : At d p e) (hq : At d q e) : p = q := by
  match d with
  | .nil => cases hp
  | .code x r =>
    simp only [Doc.flat, List.nodup_cons] at hn
    cases hp with
    | here =>
      cases hq with
      | here => rfl
      | code _ _ _ _ h => exact absurd (at_mem h) hn.1
    | code _ _ _ _ h =>
      cases hq with
      | here => exact absurd (at_mem h) hn.1
      | code _ _ _ _ h' => exact at_unique r hn.2 _ _ _ h h'
  | .comment x r =>
    simp only [Doc.flat, List.nodup_cons] at hn
    cases hp with
    | comment _ _ _ _ h =>
      cases hq with
      | comment _ _ _ _ h' => exact at_unique r hn.2 _ _ _ h h'
  | .region o l m f b c cl r =>
    simp only [Doc.flat, List.nodup_cons, List.nodup_append, List.mem_append, List.mem_cons] at hn
    obtain ⟨_, nf, ⟨nb, ⟨_, nr⟩, dbr⟩, df⟩ := hn
    cases hp with
    | after _ _ _ _ _ _ _ _ _ _ h =>
      cases hq with
      | after _ _ _ _ _ _ _ _ _ _ h' => exact at_unique r nr _ _ _ h h'
      | first _ _ _ _ _ _ _ _ _ _ h' =>
        exact absurd rfl (df _ (at_mem h') _ (Or.inr (Or.inr (at_mem h))))
      | other _ _ _ _ _ _ _ _ _ _ h' =>
        exact absurd rfl (dbr _ (atBranch_mem h') _ (Or.inr (at_mem h)))
    | first _ _ _ _ _ _ _ _ _ _ h =>
      cases hq with
      | after _ _ _ _ _ _ _ _ _ _ h' =>
        exact absurd rfl (df _ (at_mem h) _ (Or.inr (Or.inr (at_mem h'))))
      | first _ _ _ _ _ _ _ _ _ _ h' => rw [at_unique f nf _ _ _ h h']
      | other _ _ _ _ _ _ _ _ _ _ h' =>
        exact absurd rfl (df _ (at_mem h) _ (Or.inl (atBranch_mem h')))
    | other _ _ _ _ _ _ _ _ _ _ h =>
      cases hq with
      | after _ _ _ _ _ _ _ _ _ _ h' =>
        exact absurd rfl (dbr _ (atBranch_mem h) _ (Or.inr (at_mem h')))
      | first _ _ _ _ _ _ _ _ _ _ h' =>
        exact absurd rfl (df _ (at_mem h') _ (Or.inl (atBranch_mem h)))
      | other _ _ _ _ _ _ _ _ _ _ h' => rw [atBranch_unique b nb _ _ _ h h']
theorem atBranch_unique (b : Branches) (hn : b.flat.Nodup) (p q : List (Str × Bool)) (e : Elem)
    (hp : AtBranch b p e) (hq : AtBranch b q e) : p = q := by
  match b with
  | .nil => cases hp
  | .cons d l body r =>
    simp only [Branches.flat, List.nodup_cons, List.nodup_append] at hn
    obtain ⟨_, nb, nr, df⟩ := hn
    cases hp with
    | here _ _ _ _ _ _ h =>
      cases hq with
      | here _ _ _ _ _ _ h' => exact at_unique body nb _ _ _ h h'
      | next _ _ _ _ _ _ h' => exact absurd rfl (df _ (at_mem h) _ (atBranch_mem h'))
    | next _ _ _ _ _ _ h =>
      cases hq with
      | here _ _ _ _ _ _ h' => exact absurd rfl (df _ (at_mem h') _ (atBranch_mem h))
      | next _ _ _ _ _ _ h' => exact atBranch_unique r nr _ _ _ h h'
end

theorem bare_no_code (b : Branches) (hb : b.WF) (e : Elem) (n : Str) (he : e.tag = .other n)
    (h : e ∈ b.bare.flat) : False := by
  match b with
  | .nil => simp [Branches.bare, Branches.flat] at h
  | .cons d l body rest =>
    simp only [Branches.bare, Branches.flat, Doc.flat, List.nil_append, List.mem_cons] at h
    rcases h with rfl | h
    · rcases hb.1 with h1 | h1 <;> rw [h1] at he <;> cases he
    · exact bare_no_code rest hb.2.2.2 e n he h

theorem kept_at (acc : Str → Bool) (d : Doc) (hd : d.WF) (last : Int) (e : Elem) (n : Str)
    (he : e.tag = .other n) (h : e ∈ (d.keep acc true last).flat) :
    ∃ path, At d path e ∧ ∀ g ∈ path, acc g.1 = true ∧ g.2 = true := by
  match d with
  | .nil => simp [Doc.keep, Doc.flat] at h
  | .code x r =>
    simp only [Doc.keep, if_true, Doc.flat, List.mem_cons] at h
    rcases h with rfl | h
    · exact ⟨[], .here _ _, by simp⟩
    · obtain ⟨p, h1, h2⟩ := kept_at acc r hd.2 last e n he h
      exact ⟨p, .code _ _ _ _ h1, h2⟩
  | .comment x r =>
    have hh : e = x ∨ e ∈ (r.keep acc true last).flat := by
      simp only [Doc.keep] at h
      split at h
      · simpa [Doc.flat] using h
      · exact Or.inr h
    rcases hh with rfl | h
    · rw [hd.1] at he; cases he
    · obtain ⟨p, h1, h2⟩ := kept_at acc r hd.2 last e n he h
      exact ⟨p, .comment _ _ _ _ h1, h2⟩
  | .region o l m f b c cl r =>
    obtain ⟨ho, _, _, hf, hb, hc, _, hr⟩ := hd
    simp only [Doc.keep, true_and] at h
    split at h
    · rename_i hm
      simp only [Doc.flat, List.mem_cons, List.mem_append] at h
      rcases h with rfl | h | h | rfl | h
      · rcases ho with ho | ho | ho <;> rw [ho] at he <;> cases he
      · obtain ⟨p, h1, h2⟩ := kept_at acc f hf l e n he h
        refine ⟨(m, true) :: p, .first _ _ _ _ _ _ _ _ _ _ h1, ?_⟩
        intro g hg
        rcases List.mem_cons.1 hg with rfl | hg
        · exact ⟨hm, rfl⟩
        · exact h2 g hg
      · exfalso
        exact bare_no_code b hb e n he h
      · rw [hc] at he; cases he
      · obtain ⟨p, h1, h2⟩ := kept_at acc r hr cl e n he h
        exact ⟨p, .after _ _ _ _ _ _ _ _ _ _ h1, h2⟩
    · obtain ⟨p, h1, h2⟩ := kept_at acc r hr cl e n he h
      exact ⟨p, .after _ _ _ _ _ _ _ _ _ _ h1, h2⟩

theorem at_kept (acc : Str → Bool) (d : Doc) (last : Int) (e : Elem) (path : List (Str × Bool))
    (h : At d path e) (hg : ∀ g ∈ path, acc g.1 = true ∧ g.2 = true) :
    e ∈ (d.keep acc true last).flat := by
  match d, h with
  | _, .here e r => simp [Doc.keep, Doc.flat]
  | _, .code x r _ _ h =>
    have := at_kept acc r last e path h hg
    simp [Doc.keep, Doc.flat, this]
  | _, .comment x r _ _ h =>
    have := at_kept acc r last e path h hg
    simp only [Doc.keep]
    split
    · simp [Doc.flat, this]
    · exact this
  | _, .after o l m f b c cl r _ _ h =>
    have := at_kept acc r cl e path h hg
    simp only [Doc.keep]
    split
    · simp [Doc.flat, this]
    · exact this
  | _, .first o l m f b c cl r p _ h =>
    have := at_kept acc f l e p h (fun g h => hg g (List.mem_cons_of_mem _ h))
    have hm := (hg _ List.mem_cons_self).1
    simp only [Doc.keep, true_and]
    rw [if_pos hm]
    simp [Doc.flat, this]
  | _, .other o l m f b c cl r p _ h =>
    have hm := (hg _ List.mem_cons_self).2
    cases hm

/-- C18: a piece of code is kept if and only if each of the regions enclosing it is acceptable and
the code lies in the first branch of each. (Each element occurs once in the file.) -/
theorem C18_code_kept_iff (acc : Str → Bool) (d : Doc) (hd : d.WF) (hn : d.flat.Nodup)
    (path : List (Str × Bool)) (e : Elem) (he : ∃ n, e.tag = .other n) (hat : At d path e) :
    ∃ kept, filterPreprocessorRegions acc d.flat = some kept ∧
      (e ∈ kept ↔ ∀ g ∈ path, acc g.1 = true ∧ g.2 = true) := by
  obtain ⟨n, he⟩ := he
  refine ⟨_, C18_exact acc d hd, ?_, at_kept acc d (-1) e path hat⟩
  intro h
  obtain ⟨p, h1, h2⟩ := kept_at acc d hd (-1) e n he h
  rw [at_unique d hn _ _ _ hat h1]
  exact h2

example : ∃ path, At exDoc path (exElem 11 (.other "decl".toList) 11) ∧
    path = [("A_H".toList, true), ("OK_H".toList, false)] ∧ exDoc.flat.Nodup := by
  refine ⟨_, .first _ _ _ _ _ _ _ _ _ _ (.comment _ _ _ _ (.code _ _ _ _ (.after _ _ _ _ _ _ _ _ _ _
    (.other _ _ _ _ _ _ _ _ _ _ (.here _ _ _ _ _ _ (.here _ _)))))), rfl, ?_⟩
  have : (exDoc.flat.map Elem.id).Nodup := by decide +kernel
  unfold List.Nodup at this ⊢
  rw [List.pairwise_map] at this
  exact this.imp (fun h e => h (by rw [e]))

/-- C18: the macro of an `#if` is the first one mentioned by its condition, in document order (the
operator `defined` does not count); the empty name when there is none. -/
theorem C18_if_macro (e : Elem) (h : e.tag = .if_) (ht : TextsOKList e.children) :
    macroName e = some ((candidatesList e.children).headD []) := by
  unfold macroName
  rw [if_pos h]
  unfold extractMacroNameFromIfExpr
  rw [visitList_eq _ ht]

/-- `#if defined(A) && !defined(B)` -/
example : let e : Elem := ⟨0, .if_, [.node "expr".toList none
    [.node "call".toList none [.node "name".toList (some "defined".toList) [],
      .node "argument_list".toList none [.node "argument".toList (some "A".toList) []]],
     .node "call".toList none [.node "name".toList (some "defined".toList) [],
      .node "argument_list".toList none [.node "argument".toList (some "B".toList) []]]]], none, none⟩
    TextsOKList e.children ∧ macroName e = some "A".toList := by
  refine ⟨?_, by decide⟩
  simp [TextsOKList, TextsOK]

/-- C18: the macro of `#ifdef` and `#ifndef` is the text of the first name. -/
theorem C18_ifdef_macro (e : Elem) (h : e.tag = .ifdef ∨ e.tag = .ifndef) (before after : List Xml)
    (t : Str) (cs : List Xml)
    (hc : e.children = before ++ .node "name".toList (some t) cs :: after)
    (hb : ∀ x ∈ before, ∀ tag text ch, x = .node tag text ch → tag ≠ "name".toList) :
    macroName e = some t := by
  unfold macroName
  have : e.tag ≠ .if_ := by rcases h with h | h <;> rw [h] <;> simp
  rw [if_neg this, hc]
  clear hc
  induction before with
  | nil => simp [firstNameText]
  | cons x xs ih =>
    cases x with
    | node tag text ch =>
      have hx := hb _ List.mem_cons_self tag text ch rfl
      simp only [List.cons_append, firstNameText, if_neg hx]
      exact ih (fun y hy => hb y (List.mem_cons_of_mem _ hy))

example : macroName (exElem 0 .ifndef 1 "A_H") = some "A_H".toList := by decide

/-! ### C19 -/

/-- C19: whatever the sequence of elements, balanced or not, the filter never fails (each `#ifdef` and
`#ifndef` having a name) and returns a subsequence of its input. -/
theorem C19_subsequence (acc : Str → Bool) (es : List Elem)
    (h : ∀ e ∈ es, (e.tag = .ifdef ∨ e.tag = .ifndef) → macroName e ≠ none) :
    ∃ kept, filterPreprocessorRegions acc es = some kept ∧ kept <+ es := by
  unfold filterPreprocessorRegions
  generalize State.init = st
  induction es generalizing st with
  | nil => exact ⟨[], rfl, List.Sublist.refl _⟩
  | cons e es ih =>
    have hp : ∃ st', processTag acc st e = some st' := by
      unfold processTag
      cases e.endLine with
      | none => exact ⟨_, rfl⟩
      | some l =>
        cases ht : e.tag with
        | if_ => exact ⟨_, by simp only [macroName, ht, if_true]; rfl⟩
        | ifdef =>
          have := h e List.mem_cons_self (Or.inl ht)
          cases hm : macroName e with
          | none => exact absurd hm this
          | some m => exact ⟨_, rfl⟩
        | ifndef =>
          have := h e List.mem_cons_self (Or.inr ht)
          cases hm : macroName e with
          | none => exact absurd hm this
          | some m => exact ⟨_, rfl⟩
        | else_ => exact ⟨_, rfl⟩
        | elif => exact ⟨_, rfl⟩
        | endif => exact ⟨_, rfl⟩
        | comment => exact ⟨_, rfl⟩
        | other n => exact ⟨_, rfl⟩
    obtain ⟨st', hp⟩ := hp
    obtain ⟨kept, h1, h2⟩ := ih (fun x hx => h x (List.mem_cons_of_mem _ hx)) st'
    unfold filterLoop
    simp only [hp, h1, Option.map_some]
    refine ⟨_, rfl, ?_⟩
    split
    · exact h2.cons _
    · exact h2.cons_cons _

/-- A stray `#endif` and a stray `#else` meet the hypothesis. -/
example : ∀ e ∈ [exElem 0 .endif 1, exElem 1 .else_ 2, exElem 2 .ifdef 3 "A"],
    (e.tag = .ifdef ∨ e.tag = .ifndef) → macroName e ≠ none := by decide

theorem bare_WF (b : Branches) (h : b.WF) : b.bare.WF := by
  match b with
  | .nil => exact trivial
  | .cons d l body r => exact ⟨h.1, h.2.1, trivial, bare_WF r h.2.2.2⟩

theorem keep_WF (acc : Str → Bool) (a : Bool) (last : Int) (d : Doc) (h : d.WF) : (d.keep acc a last).WF := by
  match d with
  | .nil => exact trivial
  | .code e r =>
    simp only [Doc.keep]
    split
    · exact ⟨h.1, keep_WF acc a last r h.2⟩
    · exact keep_WF acc a last r h.2
  | .comment e r =>
    simp only [Doc.keep]
    split
    · exact ⟨h.1, keep_WF acc a last r h.2⟩
    · exact keep_WF acc a last r h.2
  | .region o l m f b c cl r =>
    obtain ⟨h1, h2, h3, h4, h5, h6, h7, h8⟩ := h
    simp only [Doc.keep]
    split
    · exact ⟨h1, h2, h3, keep_WF acc true l f h4, bare_WF b h5, h6, h7, keep_WF acc a cl r h8⟩
    · exact keep_WF acc a cl r h8

/-- C19: the result is well nested when the input is: directives are kept or removed together with
the others of their region. -/
theorem C19_balanced (acc : Str → Bool) (d : Doc) (hd : d.WF) :
    ∃ d' : Doc, d'.WF ∧ filterPreprocessorRegions acc d.flat = some d'.flat :=
  ⟨_, keep_WF acc true (-1) d hd, C18_exact acc d hd⟩

/-- C19: a stray `#else`, `#elif` or `#endif` between two well nested parts is kept and changes
nothing to what is kept around it (except that a comment on its line is removed). -/
theorem C19_stray (acc : Str → Bool) (d1 d2 : Doc) (h1 : d1.WF) (h2 : d2.WF) (s : Elem) (line : Int)
    (hs : s.tag = .else_ ∨ s.tag = .elif ∨ s.tag = .endif) (hl : s.endLine = some line) :
    filterPreprocessorRegions acc (d1.flat ++ s :: d2.flat) =
      some ((d1.keep acc true (-1)).flat ++ s :: (d2.keep acc true line).flat) := by
  unfold filterPreprocessorRegions
  obtain ⟨f1, e1⟩ := loop_doc acc d1 h1 .init (s :: d2.flat)
  rw [e1]
  obtain ⟨f2, e2⟩ := loop_doc acc d2 h2 ⟨false, line, []⟩ []
  have hp : processTag acc ⟨f1, lastAfter State.init.lastLine d1, State.init.stack⟩ s =
      some ⟨false, line, []⟩ := by
    unfold processTag
    rw [hl]
    rcases hs with hs | hs | hs <;> simp [hs, State.init, markSecondary, directiveExcluded]
  have hi : shallIgnore ⟨false, line, []⟩ s = false := by
    unfold shallIgnore
    rcases hs with hs | hs | hs <;> simp [hs, directiveExcluded]
  unfold filterLoop
  simp only [List.append_nil] at e2
  simp only [hp, e2, hi]
  simp [filterLoop, active, contentExcluded, State.init]

example : (exElem 0 .endif 5).tag = .endif ∧ (exElem 0 .endif 5).endLine = some 5 := ⟨rfl, rfl⟩

/-- C19: a region that is not acceptable and is never closed removes the rest of the file, and
nothing before it. -/
theorem C19_unclosed (acc : Str → Bool) (d1 d2 : Doc) (h1 : d1.WF) (h2 : d2.WF) (o : Elem) (line : Int)
    (m : Str) (ho : o.tag = .if_ ∨ o.tag = .ifdef ∨ o.tag = .ifndef) (hl : o.endLine = some line)
    (hm : macroName o = some m) (hacc : acc m = false) :
    filterPreprocessorRegions acc (d1.flat ++ o :: d2.flat) = some (d1.keep acc true (-1)).flat := by
  unfold filterPreprocessorRegions
  obtain ⟨f1, e1⟩ := loop_doc acc d1 h1 .init (o :: d2.flat)
  rw [e1]
  obtain ⟨f2, e2⟩ := loop_doc acc d2 h2 ⟨false, line, [⟨true, false⟩]⟩ []
  have hp : processTag acc ⟨f1, lastAfter State.init.lastLine d1, State.init.stack⟩ o =
      some ⟨false, line, [⟨true, false⟩]⟩ := by
    unfold processTag
    rw [hl]
    rcases ho with ho | ho | ho <;> simp [ho, hm, State.init, hacc]
  have hi : shallIgnore ⟨false, line, [⟨true, false⟩]⟩ o = true := by
    unfold shallIgnore
    rcases ho with ho | ho | ho <;> simp [ho, directiveExcluded]
  unfold filterLoop
  simp only [List.append_nil] at e2
  simp only [hp, e2, hi]
  simp [filterLoop, active, contentExcluded, State.init, keep_inactive]

example : macroName (exElem 0 .ifdef 5 "WIN32") = some "WIN32".toList := by decide

end Verif.Prep
