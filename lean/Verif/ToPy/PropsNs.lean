import Verif.ToPy.Ns

/-! C85: the namespaces of the names in Python types and values. -/

namespace Verif.ToPy.Props
open Verif.Py Verif.Re Verif.Inst Verif.Inst.Spec Verif.ToPy Verif.ToPy.Spec
open Verif.Scope (isWordChar)

/-- What is done with the namespaces of a text. -/
def nsOf (nss : List (Str × Str)) (roots : List Str) (s : Str) : Str := dropRoots roots (renameNamespaces nss s)

/-- The names are words, and a namespace has one Python name. -/
structure Named (u : Char → Bool) (nss : List (Str × Str)) (roots : List Str) : Prop where
  words : ∀ q ∈ nss, Ident u q.1 ∧ Ident u q.2
  roots : ∀ n ∈ roots, Ident u n
  one : ∀ q ∈ nss, ∀ q' ∈ nss, q.1 = q'.1 → q.2 = q'.2

/-- C85, the full statement: in any text, every namespace before a dot takes its Python name, and the root namespaces are removed with their dot; all
the other words are kept. -/
def C85_statement : Prop := ∀ u nss roots s l, Named u nss roots → CutOf u s l → nsOf nss roots s = text (scopesMapped (pyScope nss roots) l)

private def nou : Char → Bool := fun _ => false

private theorem word {w : Str} (h : w ≠ []) (h2 : ∀ c ∈ w, isWordChar nou c = true) : Ident nou w := ⟨h, h2⟩

/-- C85 fails: with the root namespace `Gui` the name `ImGui.Style` becomes `ImStyle`. -/
theorem C85_fails : ¬ C85_statement := by
  intro h
  have h1 := h nou [] ["Gui".toList] "ImGui.Style".toList [.word "ImGui".toList, .sep '.', .word "Style".toList]
    ⟨fun _ hq => (by cases hq), fun n hn => by rw [List.mem_singleton.1 hn]; exact word (by decide) (by decide), fun _ hq => (by cases hq)⟩
    ⟨⟨by decide, by decide, fun _ _ e => (by cases e), rfl, by decide, by decide, fun _ _ e => (by cases e), trivial⟩, rfl⟩
  revert h1
  decide +kernel

/-- No name of a namespace is the end of a longer name. -/
structure Apart (nss : List (Str × Str)) (roots : List Str) (words : List Str) : Prop where
  names : ∀ q ∈ nss, ∀ q' ∈ nss, q.2 ≠ q.1 → q'.2 ≠ q'.1 → ¬ q.1 <:+ q'.2
  scopes : ∀ w ∈ words, ∀ q ∈ nss, q.2 ≠ q.1 → q.1 <:+ w → w = q.1
  roots : ∀ w ∈ words, ∀ n ∈ roots, n <:+ pyName nss w → pyName nss w = n

/-- C85 (partial: no name of a namespace is the end of a longer name before a dot, or of a new name). In any text, every namespace before a dot takes
its Python name, and the root namespaces are removed with their dot; all the other words are kept. -/
theorem C85_partial {u : Char → Bool} {nss : List (Str × Str)} {roots : List Str} {s : Str} {l : List Piece} (hn : Named u nss roots) (hl : CutOf u s l)
    (ha : Apart nss roots (scopeWords l)) : nsOf nss roots s = text (scopesMapped (pyScope nss roots) l) := by
  rw [← hl.2]
  have hp : ∀ w, Ident u w → Ident u (pyName nss w) := by
    intro w hw
    unfold pyName
    cases hf : nss.find? (fun q => q.1 == w) with
    | none => exact hw
    | some q => exact (hn.words q (List.mem_of_find?_eq_some hf)).2
  unfold nsOf
  rw [rename_all hl.1 hn.words hn.one ha.names ha.scopes, drop_all (u := u) (mapped_cut_words (fun w hw p e => by cases e; exact hp w hw) hl.1) hn.roots,
    mapped_twice hl.1]
  · rfl
  · intro w hw
    rw [mapped_words hl.1, List.mem_filterMap] at hw
    obtain ⟨v, hv, e⟩ := hw
    cases e
    exact ha.roots v hv

/-- C85, order, the full statement: the result does not depend on the order in which Python iterates the set of the namespaces. -/
def C85_order_statement : Prop := ∀ u nss nss' roots s, Named u nss roots → nss.Perm nss' → nsOf nss roots s = nsOf nss' roots s

/-- C85, order, fails: with the namespaces `Gui` and `ImGui` (`gui` and `im_gui` in Python) `ImGui.Style` becomes `Imgui.Style` in one order,
`im_gui.Style` in the other. -/
theorem C85_order_fails : ¬ C85_order_statement := by
  intro h
  have h1 := h nou [("Gui".toList, "gui".toList), ("ImGui".toList, "im_gui".toList)] [("ImGui".toList, "im_gui".toList), ("Gui".toList, "gui".toList)] []
    "ImGui.Style".toList
    ⟨by
      intro q hq
      rcases List.mem_cons.1 hq with rfl | hq
      · exact ⟨word (by decide) (by decide), word (by decide) (by decide)⟩
      · rw [List.mem_singleton.1 hq]
        exact ⟨word (by decide) (by decide), word (by decide) (by decide)⟩, fun _ hn => (by cases hn), by decide⟩ (.swap _ _ _)
  revert h1
  decide +kernel

theorem pyName_perm {nss nss' : List (Str × Str)} (h : nss.Perm nss') (one : ∀ q ∈ nss, ∀ q' ∈ nss, q.1 = q'.1 → q.2 = q'.2) (w : Str) :
    pyName nss w = pyName nss' w := by
  have key : ∀ {nss : List (Str × Str)}, (∀ q ∈ nss, ∀ q' ∈ nss, q.1 = q'.1 → q.2 = q'.2) → ∀ {q}, q ∈ nss → q.1 = w → pyName nss w = q.2 := by
    intro nss one q hq e
    unfold pyName
    cases hf : nss.find? (fun q => q.1 == w) with
    | none => exact absurd (List.find?_eq_none.1 hf q hq) (by simp [e])
    | some q' =>
      have h1 := List.find?_some hf
      exact one q' (List.mem_of_find?_eq_some hf) q hq ((beq_iff_eq.1 h1).trans e.symm)
  by_cases hx : ∃ q ∈ nss, q.1 = w
  · obtain ⟨q, hq, e⟩ := hx
    rw [key one hq e, key (fun a ha b hb => one a (h.mem_iff.2 ha) b (h.mem_iff.2 hb)) (h.mem_iff.1 hq) e]
  · rw [pyName_same (fun q hq e => absurd ⟨q, hq, e⟩ hx), pyName_same (fun q hq e => absurd ⟨q, h.mem_iff.2 hq, e⟩ hx)]

/-- C85, order (partial, as above): the result does not depend on the orders of the namespaces. -/
theorem C85_order_partial {u : Char → Bool} {nss nss' : List (Str × Str)} {roots roots' : List Str} {s : Str} {l : List Piece} (hn : Named u nss roots)
    (hl : CutOf u s l) (ha : Apart nss roots (scopeWords l)) (hp : nss.Perm nss') (hr : roots.Perm roots') : nsOf nss roots s = nsOf nss' roots' s := by
  have he := pyName_perm hp hn.one
  have hn' : Named u nss' roots' :=
    ⟨fun q hq => hn.words q (hp.mem_iff.2 hq), fun n h => hn.roots n (hr.mem_iff.2 h), fun q hq q' hq' => hn.one q (hp.mem_iff.2 hq) q' (hp.mem_iff.2 hq')⟩
  have ha' : Apart nss' roots' (scopeWords l) :=
    ⟨fun q hq q' hq' => ha.names q (hp.mem_iff.2 hq) q' (hp.mem_iff.2 hq'), fun w hw q hq => ha.scopes w hw q (hp.mem_iff.2 hq),
      fun w hw n h => by rw [← he w]; exact ha.roots w hw n (hr.mem_iff.2 h)⟩
  rw [C85_partial hn hl ha, C85_partial hn' hl ha']
  congr 1
  refine mapped_congr (fun w _ => ?_)
  unfold pyScope
  rw [he w]
  simp only [hr.mem_iff]

/-- Namespaces that meet the hypotheses: `App::Widgets::Button` in the root namespace `App`, `Widgets` is `widgets` in Python. -/
theorem sample_named : Named nou [("Widgets".toList, "widgets".toList), ("Io".toList, "io".toList)] ["App".toList] :=
  ⟨by
    intro q hq
    rcases List.mem_cons.1 hq with rfl | hq
    · exact ⟨word (by decide) (by decide), word (by decide) (by decide)⟩
    · rw [List.mem_singleton.1 hq]
      exact ⟨word (by decide) (by decide), word (by decide) (by decide)⟩,
   fun n hn => by rw [List.mem_singleton.1 hn]; exact word (by decide) (by decide), by decide⟩

def samplePieces : List Piece :=
  [.word "List".toList, .sep '[', .word "App".toList, .sep '.', .word "Widgets".toList, .sep '.', .word "Button".toList, .sep ']']

theorem sample_cut : CutOf nou "List[App.Widgets.Button]".toList samplePieces :=
  ⟨⟨by decide, by decide, fun _ _ e => (by cases e), rfl, by decide, by decide, fun _ _ e => (by cases e), rfl, by decide, by decide,
    fun _ _ e => (by cases e), rfl, by decide, by decide, fun _ _ e => (by cases e), rfl, trivial⟩, rfl⟩

theorem sample_apart : Apart [("Widgets".toList, "widgets".toList), ("Io".toList, "io".toList)] ["App".toList] (scopeWords samplePieces) :=
  ⟨by decide +kernel, by decide +kernel, by decide +kernel⟩

example : nsOf [("Widgets".toList, "widgets".toList), ("Io".toList, "io".toList)] ["App".toList] "List[App.Widgets.Button]".toList =
    "List[widgets.Button]".toList := (C85_partial sample_named sample_cut sample_apart).trans (by decide +kernel)

/-- C85, blocks: the same text has the same translation in all the blocks of a namespace. -/
def C85_block_statement : Prop := ∀ py n s, (textsAll py [] [.block n [.use s], .block n [.use s]]).1 =
  [renameNamespaces [(n, py n)] s, renameNamespaces [(n, py n)] s]

/-- C85, blocks, fails: in the first block of `MyLib` the name `MyLib.Style` stays, in the second it becomes `my_lib.Style`. -/
theorem C85_block_fails : ¬ C85_block_statement := by
  intro h
  have h1 := h (fun _ => "my_lib".toList) "MyLib".toList "MyLib.Style".toList
  revert h1
  decide +kernel

/-- C85, after a block: a text after a block of a namespace has the Python name of the namespace, whatever the block contains. -/
theorem C85_after {py : Str → Str} {made : List Str} {n : Str} {body : List Decl} : n ∈ ((Decl.block n body).texts py made).2 := by
  rw [Decl.texts]
  simp only
  split
  · next h => exact h
  · exact List.mem_append_right _ (List.mem_singleton.2 rfl)

end Verif.ToPy.Props
