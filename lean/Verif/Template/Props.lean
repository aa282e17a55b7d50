import Verif.Template.Lemmas

/-! Property C13: filling templates. -/

namespace Verif.Template
open Verif.Py Spec

/-- C13, order of the keys, in full: when no value contains a brace, the order of the replacements
does not matter. -/
def C13_order_statement : Prop :=
  ∀ (template : Str) (a b : List (Str × Str)), a.Perm b → (a.map Prod.fst).Nodup →
    (∀ kv ∈ a, '{' ∉ kv.1 ∧ '}' ∉ kv.1 ∧ '{' ∉ kv.2 ∧ '}' ∉ kv.2) →
    replaceInString template a = replaceInString template b

/-- C13, order, fails: in a template where a placeholder stands inside other braces, filling it can
create another placeholder. -/
theorem C13_order_fails : ¬ C13_order_statement := by
  intro h
  have := h "{x{k}}".toList [("k".toList, "y".toList), ("xy".toList, "z".toList)]
    [("xy".toList, "z".toList), ("k".toList, "y".toList)] (List.Perm.swap _ _ _) (by decide) (by decide)
  revert this
  decide

/-- C13: for any notion of key character (other than braces), a template made of holes and of texts
whose opening braces are not followed by a key character is filled as if all holes were filled at
once: every hole with a value gets its value, the other holes and the text are untouched. The values
may be code with braces of their own, as long as these are followed by a non-key character too. -/
theorem C13_fill_partial (K : Char → Bool) (h1 : K '{' = false) (h2 : K '}' = false)
    (template : List Piece) (hps : ∀ p ∈ template, p.WF K)
    (items : List (Str × Str)) (hi : ∀ kv ∈ items, Key K kv.1 ∧ PlainText K kv.2) :
    replaceInString (source template) items = fill (lookup items) template := by
  rw [replaceInString_source h1 h2 items hi template hps]
  unfold source fill
  rw [List.flatMap_map]
  congr 1
  funext p
  cases p with
  | text t => rw [fold_text]; rfl
  | hole k => exact fold_hole items k

/-- Key characters of Python identifiers (ASCII). -/
def identChar (c : Char) : Bool := c.isAlphanum || c == '_'

/-- The hypotheses are met by a template with C++ braces and by a value that is code. -/
example :
    (∀ p ∈ [Piece.text "struct ".toList, .hole "name".toList, .text " {\n  ".toList,
        .hole "body".toList, .text "\n};".toList], p.WF identChar) ∧
    (∀ kv ∈ [("name".toList, "Foo".toList), ("body".toList, "int f() { return 1; }".toList)],
        Key identChar kv.1 ∧ PlainText identChar kv.2) := by
  have key : ∀ k : Str, k ≠ [] → (k.all identChar) = true → Key identChar k := by
    intro k h1 h2; exact ⟨h1, List.all_eq_true.1 h2⟩
  constructor
  · intro p hp
    simp only [List.mem_cons, List.not_mem_nil, or_false] at hp
    rcases hp with rfl | rfl | rfl | rfl | rfl
    · simp [Piece.WF, PlainText]
    · exact key _ (by decide) (by decide)
    · simp [Piece.WF, PlainText]; decide
    · exact key _ (by decide) (by decide)
    · simp [Piece.WF, PlainText]
  · intro kv hkv
    simp only [List.mem_cons, List.not_mem_nil, or_false] at hkv
    rcases hkv with rfl | rfl
    · exact ⟨key _ (by decide) (by decide), by simp [PlainText]⟩
    · exact ⟨key _ (by decide) (by decide), by simp [PlainText]; decide⟩

/-- C13, order: under the same conditions the order of the keys does not matter (missing: templates
with placeholders inside braces, for which it is false by `C13_order_fails`). -/
theorem C13_order_partial (K : Char → Bool) (h1 : K '{' = false) (h2 : K '}' = false)
    (template : List Piece) (hps : ∀ p ∈ template, p.WF K)
    (a b : List (Str × Str)) (hab : a.Perm b) (hn : (a.map Prod.fst).Nodup)
    (ha : ∀ kv ∈ a, Key K kv.1 ∧ PlainText K kv.2) :
    replaceInString (source template) a = replaceInString (source template) b := by
  rw [C13_fill_partial K h1 h2 template hps a ha,
    C13_fill_partial K h1 h2 template hps b (fun kv hkv => ha kv (hab.mem_iff.2 hkv))]
  congr 1
  funext k
  exact lookup_perm hab hn k

/-- C13: a text that contains none of the placeholders is untouched, whatever the values. -/
theorem C13_untouched (s : Str) (items : List (Str × Str))
    (h : ∀ kv ∈ items, contains s ('{' :: kv.1 ++ ['}']) = false) : replaceInString s items = s := by
  induction items with
  | nil => rfl
  | cons kv items ih =>
    show replaceInString (replace s (hole kv.1) kv.2) items = s
    rw [replace_of_not_contains (old := hole kv.1) (h kv (by simp))]
    exact ih (fun x hx => h x (by simp [hx]))

example : contains "no {b} here".toList ('{' :: "a".toList ++ ['}']) = false := by decide

/-- C13: keys mapped to `None` remove exactly the lines that contain one of their placeholders; the
other lines are kept, in order. -/
theorem C13_none_removes_lines (s : Str) (keys : List Str) :
    replaceInStringRemoveLineIfNone s (keys.map (fun k => (k, none))) =
      unlines ((lines s).filter (fun l => keys.all (fun k => !contains l ('{' :: k ++ ['}'])))) := by
  suffices H : ∀ (p : Str → Bool), p [] = true →
      replaceInStringRemoveLineIfNone (unlines ((lines s).filter p)) (keys.map (fun k => (k, none))) =
        unlines ((lines s).filter
          (fun l => p l && keys.all (fun k => !contains l ('{' :: k ++ ['}'])))) by
    have := H (fun _ => true) rfl
    rw [List.filter_eq_self.2 (by simp)] at this
    have e : unlines (lines s) = s := join_splitOn '\n' s
    rw [e] at this
    simpa using this
  induction keys with
  | nil => intro p _; simp [replaceInStringRemoveLineIfNone]
  | cons k keys ih =>
    intro p hp
    show replaceInStringRemoveLineIfNone
      (unlines ((lines (unlines ((lines s).filter p))).filter (fun line => !contains line (hole k)))) _ = _
    have hq : (fun line => !contains line (hole k)) ([] : Str) = true := by
      simp [contains, hole, List.isPrefixOf]
    rw [unlines_filter s p _ hq, ih (fun l => p l && !contains l (hole k)) (by simp [hp]; simpa using hq)]
    simp only [List.all_cons, Bool.and_assoc]
    rfl

/-- C13: a line with the placeholder goes, the others stay. -/
example : replaceInStringRemoveLineIfNone "a\nb {x} c\nd".toList [("x".toList, none)] =
    "a\nd".toList := by decide

/-- C13: with values only, the variant with line removal is the plain one. -/
theorem C13_some_is_plain (s : Str) (items : List (Str × Str)) :
    replaceInStringRemoveLineIfNone s (items.map (fun kv => (kv.1, some kv.2))) =
      replaceInString s items := by
  induction items generalizing s with
  | nil => rfl
  | cons kv items ih => exact ih _

section
attribute [local irreducible] maybeComma

/-- C13: `replace_maybe_comma` keeps the number of lines; for a line given as texts and holes, each
`{maybe_comma}` becomes a comma, except on the last line (before the skipped final lines), where it
becomes nothing. -/
theorem C13_maybe_comma (K : Char → Bool) (h1 : K '{' = false) (h2 : K '}' = false)
    (hk : Key K "maybe_comma".toList) (ls : List (List Piece)) (hls : ls ≠ [])
    (hwf : ∀ l ∈ ls, ∀ p ∈ l, p.WF K) (hnl : ∀ l ∈ ls, '\n' ∉ source l) (skipped : Nat) :
    lines (replaceMaybeComma (unlines (ls.map source)) skipped) =
      ls.zipIdx.map (fun p => fill (fun k => if k = "maybe_comma".toList then
        some (if p.2 + 1 + skipped = ls.length then [] else [',']) else none) p.1) := by
  rw [maybeComma_eq] at hk ⊢
  have hlines : lines (unlines (ls.map source)) = ls.map source := by
    apply lines_unlines (by simpa using hls)
    intro l hl
    obtain ⟨x, hx, rfl⟩ := List.mem_map.1 hl
    exact hnl x hx
  have key : ∀ (v : Str) (l : List Piece), (∀ p ∈ l, p.WF K) →
      replace (source l) (hole maybeComma) v =
        fill (fun k => if k = maybeComma then some v else none) l := by
    intro v l hl
    rw [replace_source h1 h2 maybeComma v hk l hl]
    unfold source fill
    rw [List.flatMap_map]
    congr 1
    funext p
    cases p with
    | text t => rfl
    | hole k =>
      by_cases e : k = maybeComma
      · simp [substPiece, e, Piece.source]
      · simp [substPiece, e, Piece.source]
  have hline : ∀ (i : Nat) (l : List Piece), (∀ p ∈ l, p.WF K) →
      maybeCommaLine ls.length skipped i (source l) =
        fill (fun k => if k = maybeComma then
          some (if i + 1 + skipped = ls.length then [] else [',']) else none) l := by
    intro i l hl
    rw [← key _ l hl]
    unfold maybeCommaLine
    split
    · split
      · rw [if_pos (by omega)]
      · rw [if_neg (by omega)]
    · rename_i hc
      rw [replace_of_not_contains (by simpa using hc)]
  have hmap : (lines (unlines (ls.map source))).zipIdx.map
      (fun p => maybeCommaLine (lines (unlines (ls.map source))).length skipped p.2 p.1) =
      ls.zipIdx.map (fun p => fill (fun k => if k = maybeComma then
        some (if p.2 + 1 + skipped = ls.length then [] else [',']) else none) p.1) := by
    rw [hlines, List.length_map, List.zipIdx_map, List.map_map]
    apply List.map_congr_left
    rintro ⟨l, i⟩ hm
    have : l ∈ ls := by
      have := (List.mem_zipIdx' hm).2
      rw [this]; exact List.getElem_mem _
    exact hline i l (hwf l this)
  unfold replaceMaybeComma
  rw [hmap, lines_unlines]
  · intro h
    have := congrArg List.length h
    simp at this
    exact hls this
  · intro l hl
    obtain ⟨⟨x, i⟩, hx, rfl⟩ := List.mem_map.1 hl
    have hxm : x ∈ ls := by
      have := (List.mem_zipIdx' hx).2
      rw [this]; exact List.getElem_mem _
    have hn := hnl x hxm
    intro hmem
    apply hn
    unfold fill at hmem
    obtain ⟨p, hp, hc⟩ := List.mem_flatMap.1 hmem
    refine List.mem_flatMap.2 ⟨p, hp, ?_⟩
    cases p with
    | text t => exact hc
    | hole k =>
      simp only at hc
      by_cases e : k = maybeComma
      · rw [if_pos e] at hc
        simp at hc
      · rw [if_neg e] at hc; exact hc

end

example : Key identChar "maybe_comma".toList := ⟨by decide, by decide⟩
example : replaceMaybeComma "a{maybe_comma}\nb{maybe_comma}\n)".toList 1 = "a,\nb\n)".toList := by decide

/-- C13: the comma left by the last `{maybe_comma}` of a parameter list is dropped. -/
theorem C13_final_comma (x : Str) :
    dropFinalComma (x ++ ", );".toList) = x ++ ");".toList ∧
    dropFinalComma (x ++ ", )".toList) = x ++ ")".toList := by
  have suf : ∀ (a b : Str), endsWith (a ++ b) b = true := by
    intro a b; simp [endsWith]
  have nsuf : ∀ (a b p : Str) (c d : Char), c ≠ d → endsWith (a ++ (b ++ [c])) (p ++ [d]) = false := by
    intro a b p c d hcd
    rw [Bool.eq_false_iff]
    intro h
    unfold endsWith at h
    rw [List.isSuffixOf_iff_suffix] at h
    obtain ⟨t, ht⟩ := h
    rw [← List.append_assoc, ← List.append_assoc] at ht
    have := (List.append_inj' ht rfl).2
    simp at this
    exact hcd this.symm
  constructor
  · have e1 : endsWith (x ++ ", );".toList) [',', ' '] = false := nsuf x ", )".toList [','] ';' ' ' (by decide)
    have e2 : endsWith (x ++ ", );".toList) [',', ' ', ')', ';'] = true := suf x _
    have e3 : endsWith (x ++ ");".toList) [',', ' ', ')'] = false := nsuf x ")".toList [',', ' '] ';' ')' (by decide)
    unfold dropFinalComma
    simp only [e1, Bool.false_eq_true, if_false, e2, if_true]
    have : (x ++ ", );".toList).take ((x ++ ", );".toList).length - 4) = x := by simp
    rw [this, show [')', ';'] = ");".toList from rfl, e3]
    simp
  · have e1 : endsWith (x ++ ", )".toList) [',', ' '] = false := nsuf x ", ".toList [','] ')' ' ' (by decide)
    have e2 : endsWith (x ++ ", )".toList) [',', ' ', ')', ';'] = false := nsuf x ", ".toList [',', ' ', ')'] ')' ';' (by decide)
    have e3 : endsWith (x ++ ", )".toList) [',', ' ', ')'] = true := suf x _
    unfold dropFinalComma
    simp only [e1, Bool.false_eq_true, if_false, e2, if_true, e3]
    simp

section
attribute [local irreducible] maybeComma

/-- C13: `process_code_template` on a template of texts and holes: fill, then `{maybe_comma}` becomes a
comma and a space, then the final comma is dropped. -/
theorem C13_process (K : Char → Bool) (h1 : K '{' = false) (h2 : K '}' = false)
    (hk : Key K "maybe_comma".toList)
    (template : List Piece) (hps : ∀ p ∈ template, p.WF K)
    (items : List (Str × Str)) (hi : ∀ kv ∈ items, Key K kv.1 ∧ PlainText K kv.2) :
    processCodeTemplate (source template) items =
      dropFinalComma (fill (lookup (items ++ [("maybe_comma".toList, ", ".toList)])) template) ∧
    processCodeTemplate (source template) items [] false = fill (lookup items) template := by
  rw [maybeComma_eq] at hk ⊢
  constructor
  · rw [← C13_fill_partial K h1 h2 template hps]
    · simp [processCodeTemplate, replaceInStringRemoveLineIfNone, replaceInString, List.foldl_append]
    · intro kv hkv
      rcases List.mem_append.1 hkv with h | h
      · exact hi kv h
      · simp at h; subst h
        exact ⟨hk, by simp [PlainText]⟩
  · rw [← C13_fill_partial K h1 h2 template hps items hi]; rfl

end

end Verif.Template
