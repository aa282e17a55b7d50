import Verif.Attach.Lemmas

/-! C20: no C++ comment is lost or attached twice. -/

namespace Verif.Attach
open Verif.Py Spec

/-- Grouping partitions the children into consecutive runs: a run of more than one child is made of
comments on consecutive lines, none of which marks an empty line; the result has, for each run, one
element with all the texts. So no child is dropped, duplicated or moved. -/
theorem C20_grouping (children res : List Child) (h : groupConsecutiveComments children = some res) :
    ∃ runs : List (List Child), runs.flatten = children ∧
      List.Forall₂ (fun run r => merged run = some r ∧ Groupable run) runs res := by
  obtain ⟨gs, h1, h2⟩ := groupLoop_spec children [] [] res .nil h
  exact ⟨gs, by simpa using h1, h2⟩

/-- The runs are as long as possible: two comments of the result on consecutive lines are kept apart
only if one marks an empty line, or if the first one is at the end of the line of an element. -/
theorem C20_grouping_maximal (children res a b : List Child) (r1 r2 : Child)
    (h : groupConsecutiveComments children = some res) (hr : res = a ++ r1 :: r2 :: b)
    (h1 : r1.isComment = true) (h2 : r2.isComment = true) (h3 : r2.start = r1.stop + 1) (h4 : 0 ≤ r1.stop) :
    Marked r1 ∨ Marked r2 ∨ ∃ e, a.getLast? = some e ∧ e.isComment = false ∧ e.stop = r1.stop := by
  have hs := groupLoop_sep children [] res trivial h
  rw [hr] at hs
  simp only [List.reverse_append, List.reverse_cons, List.append_assoc, List.cons_append, List.nil_append] at hs
  have := (sep_window _ _ _ _ hs).1 h1 h2 h3 h4
  simpa using this

/-- After grouping, each comment is used exactly once, and every element is kept, in order: reading
the children from left to right, a comment is standalone, or on top of the next element, or at the end
of the line of the previous one. -/
theorem C20_attachment (children : List Child) : Placed children (attach children) := by
  rw [attach_eq_go]
  apply go_placed children.length none none children (Nat.le_refl _)
  cases children with
  | nil => trivial
  | cons c cs => exact And.intro (fun q hq => by cases hq) rfl

/-- Elements that are not comments are kept, in order and in number. -/
theorem C20_elements_kept (children : List Child) :
    ((attach children).map Out.element).filter (fun e => !e.isComment) =
      children.filter (fun e => !e.isComment) := by
  have h := C20_attachment children
  generalize attach children = out at h ⊢
  induction h with
  | nil => rfl
  | standalone c cs os hc _ ih => simp [hc, ih]
  | plain e cs os he _ ih => simp [he, ih]
  | top c e cs os hc he _ _ ih => simp [hc, he, ih]
  | eol e d cs os he hd _ _ ih => simp [hd, he, ih]
  | both c e d cs os hc he hd _ _ _ ih => simp [hc, hd, he, ih]

/-- The texts of the comments of the result are the texts of the comments of the source, in order and
each exactly once (but for the empty line markers removed from comments of several lines). -/
theorem C20_comments_once (children : List Child)
    (hm : ∀ c ∈ children, c.isComment = true → topText c.textD = c.textD ∧ c.textD ≠ []) :
    ((attach children).flatMap texts).filter (fun t => t != []) =
      (children.filter Child.isComment).map Child.textD := by
  have h := C20_attachment children
  generalize attach children = out at h ⊢
  induction h with
  | nil => rfl
  | standalone c cs os hc _ ih =>
    have h0 := (hm c (by simp) hc).2
    rw [List.flatMap_cons, List.filter_append, ih (fun x hx => hm x (List.mem_cons_of_mem _ hx))]
    simp [texts, hc, h0]
  | plain e cs os he _ ih =>
    rw [List.flatMap_cons, List.filter_append, ih (fun x hx => hm x (List.mem_cons_of_mem _ hx))]
    simp [texts, he]
  | top c e cs os hc he _ _ ih =>
    obtain ⟨h0, h1⟩ := hm c (by simp) hc
    rw [List.flatMap_cons, List.filter_append, ih (fun x hx => hm x (by simp [hx])), h0]
    simp [texts, he, hc, h1]
  | eol e d cs os he hd _ _ ih =>
    obtain ⟨h0, h1⟩ := hm d (by simp) hd
    rw [List.flatMap_cons, List.filter_append, ih (fun x hx => hm x (by simp [hx]))]
    simp [texts, he, hd, h1]
  | both c e d cs os hc he hd _ _ _ ih =>
    obtain ⟨h0, h1⟩ := hm c (by simp) hc
    obtain ⟨_, h3⟩ := hm d (by simp) hd
    rw [List.flatMap_cons, List.filter_append, ih (fun x hx => hm x (by simp [hx])), h0]
    simp [texts, he, hc, hd, h1, h3]

/-- A comment on the last line of the element before it is attached to that element. -/
theorem C20_end_of_line_attached (pre post : List Child) (e d : Child) (he : e.isComment = false)
    (hd : d.isComment = true) (hl : d.start = e.stop) (hm : ¬ Marked d) :
    ∃ top, ⟨e, top, d.textD⟩ ∈ attach (pre ++ e :: d :: post) := by
  have hmark : contains d.textD emptyLineContent = false := by
    unfold Child.textD
    cases ht : d.text with
    | none => rfl
    | some t =>
      rw [Bool.eq_false_iff]
      intro hc
      exact hm ((marked_iff _).2 ⟨t, ht, hc⟩)
  have hp : eolPair e d = true := by
    simp [eolPair, he, hd, hl, hmark]
  refine ⟨suppressMarks (topStr pre.dropLast.getLast? pre.getLast? (e :: d :: post)), ?_⟩
  unfold attach
  rw [List.mem_filterMap]
  refine ⟨(e, pre.length), ?_, ?_⟩
  · rw [List.mk_mem_zipIdx_iff_getElem?]; simp
  · simp only [attachOne_eq]
    unfold one
    rw [topAt_not_comment he, eolAt_not_comment he]
    simp [eolStr, hp]

/-- A comment (other than the marker of an empty line) that ends on the line before an element is
attached to that element, unless it belongs to the element before it, or the element has an end-of-line
comment of its own, or the comment is the title of a group: two elements of the same kind on the next
lines. -/
theorem C20_top_attached (pre post : List Child) (c e : Child) (hc : c.isComment = true)
    (he : e.isComment = false) (hl : c.stop + 1 = e.start)
    (hpre : ∀ p, pre.getLast? = some p → p.isComment = false → c.start ≠ p.stop)
    (hpost : ∀ n, post.head? = some n → ¬ (n.isComment = true ∧ n.start = e.stop) ∧
      ¬ (n.tag = e.tag ∧ e.stop + 1 = n.start))
    (hm : c.textD ≠ " _SRCML_EMPTY_LINE_".toList) :
    ∃ eol, ⟨e, topText c.textD, eol⟩ ∈ attach (pre ++ c :: e :: post) := by
  have h1 : eolAt pre.getLast? c = false := by
    cases hp : pre.getLast? with
    | none => rfl
    | some p =>
      show eolPair p c = false
      cases hb : eolPair p c with
      | false => rfl
      | true =>
        obtain ⟨_, h2, h3⟩ := eolPair_tags hb
        exact absurd h3 (hpre p hp h2)
  have h2 : topAt pre.getLast? c (e :: post) = true := by
    unfold topAt
    simp only [h1, Bool.false_eq_true, if_false]
    unfold onPreviousLine
    have hg : isGroupComment c e post.head? = false := by
      unfold isGroupComment
      cases hn : post.head? with
      | none => rfl
      | some n =>
        have := (hpost n hn).2
        simp only [hc, Bool.true_and]
        rw [Bool.eq_false_iff]
        intro hh
        simp only [Bool.and_eq_true, beq_iff_eq, decide_eq_true_eq] at hh
        exact this ⟨hh.1.1.symm, hh.2⟩
    have hn : nextHasEol e post.head? = false := by
      unfold nextHasEol
      cases hn : post.head? with
      | none => rfl
      | some n =>
        have := (hpost n hn).1
        rw [Bool.eq_false_iff]
        intro hh
        simp only [Bool.and_eq_true, decide_eq_true_eq] at hh
        exact this ⟨hh.1.1.1, hh.1.1.2⟩
    have hm' : c.textD ≠ [' '] ++ emptyLineContent := hm
    rw [hg, if_neg (by simp), if_pos (by simp [hc, he]), if_neg hm', if_pos hl, hn]
    rfl
  refine ⟨eolStr e post, ?_⟩
  unfold attach
  rw [List.mem_filterMap]
  refine ⟨(e, (pre ++ [c]).length), ?_, ?_⟩
  · rw [List.mk_mem_zipIdx_iff_getElem?]
    simp only [List.length_append, List.length_cons, List.length_nil, Nat.zero_add]
    rw [List.getElem?_append_right (by omega)]; simp
  · have := attachOne_eq (pre ++ [c]) e post
    simp only [List.append_assoc, List.cons_append, List.nil_append, List.dropLast_concat] at this
    simp only [this]
    unfold one
    rw [topAt_not_comment he, eolAt_not_comment he]
    simp [topStr, h2, topText_eq]

/-- The empty lines are turned into marker comments, and nothing else is changed. -/
theorem C20_empty_lines_marked (code : Str) :
    lines (markEmptyLines code) =
      (lines code).map (fun l => if ∀ c ∈ l, isSpace c = true then "// _SRCML_EMPTY_LINE_".toList else l) := by
  unfold markEmptyLines
  rw [lines_unlines (by simp [lines_ne_nil])]
  · apply List.map_congr_left
    intro l _
    have hb := isBlank_iff l
    unfold isBlank at hb
    by_cases h : ∀ c ∈ l, isSpace c = true
    · rw [if_pos h, if_pos (by simpa using hb.2 h)]; rfl
    · rw [if_neg h, if_neg (fun hh => h (hb.1 (by simpa using hh)))]
  · intro l hl
    rw [List.mem_map] at hl
    obtain ⟨m, hm, rfl⟩ := hl
    split
    · decide
    · exact not_mem_of_mem_lines hm

/-- What a group of `//` comments becomes: the texts after the slashes, one per line — for the groups
with no line that starts (after spaces) with `//` once its own slashes are removed, and no text that
looks like litgen's own line feed token. -/
theorem C20_line_comments_text_partial (c : Child) (cs : List Child) (t : Str) (ts : List Str)
    (hc : c.isComment = true) (htc : c.text = some ("//".toList ++ t))
    (hts : cs.map Child.text = ts.map (fun u => some ("//".toList ++ u)))
    (hnl : ∀ u ∈ t :: ts, '\n' ∉ u)
    (htok : ∀ u ∈ t :: ts, ¬ ∃ a b, u = a ++ "_SRCML_LINEFEED".toList ++ b)
    (hs : ∀ u ∈ ts, ¬ "//".toList <+: lstrip u) :
    ∃ r, merged (c :: cs) = some r ∧ (cleanChild r).text = some (unlines (t :: ts)) := by
  refine ⟨_, rfl, ?_⟩
  have hfm : cs.flatMap (fun d => "_SRCML_LINEFEED_".toList ++ body d.textD) =
      ts.flatMap (fun d => newLineToken ++ d) := by
    clear hnl htok hs
    induction cs generalizing ts with
    | nil =>
      cases ts with
      | nil => rfl
      | cons => simp at hts
    | cons d ds ih =>
      cases ts with
      | nil => simp at hts
      | cons u us =>
        simp only [List.map_cons, List.cons.injEq] at hts
        rw [List.flatMap_cons, List.flatMap_cons, ih us hts.2]
        unfold Child.textD
        rw [hts.1]
        have hb : body ("//".toList ++ u) = u := by
          unfold body
          rw [if_pos ⟨u, rfl⟩]
          rfl
        simp only [Option.getD_some]
        rw [hb]
        rfl
  unfold cleanChild
  have hi : ∀ (x : Option Str) (s : Int), ({ c with text := x, stop := s } : Child).isComment = true := fun _ _ => hc
  rw [if_pos (hi _ _)]
  simp only [htc, Option.map_some, Option.some.injEq]
  rw [hfm]
  exact removeTokens_lines t ts (fun u hu => by
    rw [Bool.eq_false_iff]; intro hh; exact htok u hu ((contains_iff _ _).1 hh)) hnl hs

/-- What a `/* */` comment becomes: the text between its delimiters. -/
theorem C20_block_comment_text (c : Child) (t : Str) (hc : c.isComment = true)
    (ht : c.text = some ("/*".toList ++ t ++ "*/".toList))
    (htok : ¬ ∃ a b, t = a ++ "_SRCML_LINEFEED_".toList ++ b) : (cleanChild c).text = some t := by
  unfold cleanChild
  rw [if_pos hc]
  simp only [ht, Option.map_some, Option.some.injEq]
  exact removeTokens_block t (by rw [Bool.eq_false_iff]; intro hh; exact htok ((contains_iff _ _).1 hh))

/-- The full statement: the text of each line of a group of `//` comments is kept. -/
def C20_line_comments_text_statement : Prop :=
  ∀ (t u : Str) (c d : Child), c.isComment = true → d.isComment = true → '\n' ∉ t → '\n' ∉ u →
    c.text = some ("//".toList ++ t) → d.text = some ("//".toList ++ u) →
    ∃ r, merged [c, d] = some r ∧ (cleanChild r).text = some (unlines [t, u])

/-- It is false: commented-out comments lose two characters of the second and next lines
(`// a` and `// // b` give ` a` and `/ b`). -/
theorem C20_line_comments_text_fails : ¬ C20_line_comments_text_statement := by
  intro h
  obtain ⟨r, h1, h2⟩ := h " a".toList " // b".toList
    ⟨0, "comment".toList, some "// a".toList, 1, 1⟩ ⟨1, "comment".toList, some "// // b".toList, 2, 2⟩
    (by decide) (by decide) (by decide) (by decide) rfl rfl
  have h3 : merged [⟨0, "comment".toList, some "// a".toList, 1, 1⟩, ⟨1, "comment".toList, some "// // b".toList, 2, 2⟩]
      = some ⟨0, "comment".toList, some "// a_SRCML_LINEFEED_ // b".toList, 1, 2⟩ := by decide +kernel
  rw [h3] at h1
  cases h1
  revert h2
  decide +kernel

/-! ### a concrete source

```
// A doc comment
// on two lines
struct A;  // its end of line
           // which goes on
// Group title
int f();
```
-/
def exSource : List Child :=
  [⟨0, "comment".toList, some "// A doc comment".toList, 1, 1⟩,
   ⟨1, "comment".toList, some "// on two lines".toList, 2, 2⟩,
   ⟨2, "struct_decl".toList, some "struct A".toList, 3, 3⟩,
   ⟨3, "comment".toList, some "// its end of line".toList, 3, 3⟩,
   ⟨4, "comment".toList, some "// which goes on".toList, 4, 4⟩,
   ⟨5, "comment".toList, some "// Group title".toList, 5, 5⟩,
   ⟨6, "function_decl".toList, some "int f()".toList, 6, 6⟩]

/-- The doc comment of `A` is standalone, because `A` has an end-of-line comment too. -/
example : (getChildrenWithComments exSource).map (·.map (fun o => (o.element.id, o.onPreviousLines, o.endOfLine))) =
    some [(0, [], []), (2, [], " its end of line".toList),
          (6, " which goes on\n Group title".toList, [])] := by decide +kernel

/-- The hypotheses of `C20_top_attached` and `C20_end_of_line_attached` on parts of it. -/
example : let c : Child := ⟨5, "comment".toList, some " Group title".toList, 5, 5⟩
    let e : Child := ⟨6, "function_decl".toList, some "int f()".toList, 6, 6⟩
    c.isComment = true ∧ e.isComment = false ∧ c.stop + 1 = e.start ∧ c.textD ≠ " _SRCML_EMPTY_LINE_".toList := by
  decide +kernel

/-- The hypotheses of `C20_comments_once` are met by ordinary comments. -/
example : ∀ c ∈ exSource.map cleanChild, c.isComment = true → topText c.textD = c.textD ∧ c.textD ≠ [] := by
  decide +kernel

/-- The hypotheses of `C20_line_comments_text_partial` on two lines. -/
example : removeCommentTokens "// a_SRCML_LINEFEED_ b".toList = " a\n b".toList := by decide +kernel

/-- `C20_grouping_maximal`: an end-of-line comment is not grouped with the comment below. -/
example : (groupConsecutiveComments exSource).map (·.map Child.id) = some [0, 2, 3, 4, 6] := by decide +kernel

end Verif.Attach
