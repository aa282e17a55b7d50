import Verif.Parse.PropsBlock

/-! Properties C56 and C60: which comments an element of a block gets, which comments are left out, the initial values that are no
expressions. -/

namespace Verif.Parse.Props
open Verif.Py Verif.Type Spec Lemmas

/-! ### The comments of an element -/

/-- A comment written `/*u*/`, on one line, without the texts that the parser inserts. -/
structure CommentOf (y : Xml) (u : Str) : Prop where
  tag : y.tag = .comment
  leaf : y.children = []
  text : y.text = some ("/*".toList ++ u ++ "*/".toList)
  line : '\n' ∉ u
  noMark : ¬ "_SRCML_EMPTY_LINE_".toList <:+: u
  noFeed : ¬ "_SRCML_LINEFEED_".toList <:+: u

theorem contains_false_of {s p : Str} (h : ¬ p <:+: s) : contains s p = false := by
  rw [Bool.eq_false_iff]
  intro hc
  obtain ⟨a, b, hab⟩ := (contains_iff s p).1 hc
  exact h ⟨a, b, hab.symm⟩

theorem attach_isComment (x : Xml) (n : Nat) : (attachChild (x, n)).isComment = true ↔ x.tag = .comment := by
  show (x.tag.str == "comment".toList) = true ↔ _
  cases x.tag <;> first | decide | skip
  rename_i s
  constructor
  · intro h
    have k : (Tag.other s).str.head? = ("comment".toList).head? := congrArg List.head? (beq_iff_eq.1 h)
    have k1 : (Tag.other s).str.head? = some '/' := rfl
    rw [k1] at k
    exact absurd k (by decide)
  · intro h; cases h

theorem attach_not_comment {x : Xml} {n : Nat} (h : x.tag ≠ .comment) : (attachChild (x, n)).isComment = false := by
  rw [Bool.eq_false_iff]; exact fun k => h ((attach_isComment x n).1 k)

/-- The comment without its tokens. -/
def cleaned (y : Xml) (n : Nat) (u : Str) : Attach.Child := { attachChild (y, n) with text := some u }

theorem clean_comment {y : Xml} {u : Str} (h : CommentOf y u) (n : Nat) : Attach.cleanChild (attachChild (y, n)) = cleaned y n u := by
  unfold Attach.cleanChild
  rw [if_pos ((attach_isComment y n).2 h.tag)]
  have e : (attachChild (y, n)).text = some ("/*".toList ++ u ++ "*/".toList) := h.text
  have r : Attach.removeCommentTokens ("/*".toList ++ u ++ "*/".toList) = u := Attach.removeTokens_block u (contains_false_of h.noFeed)
  rw [e, Option.map_some, r]
  rfl

theorem clean_other {x : Xml} (h : x.tag ≠ .comment) (n : Nat) : Attach.cleanChild (attachChild (x, n)) = attachChild (x, n) := by
  unfold Attach.cleanChild
  rw [attach_not_comment h]
  rfl

theorem cleaned_isComment {y : Xml} {u : Str} (h : CommentOf y u) (n : Nat) : (cleaned y n u).isComment = true :=
  (attach_isComment y n).2 h.tag

theorem comments_after {x y : Xml} {u : Str} (hx : x.tag ≠ .comment) (hy : CommentOf y u) :
    Attach.getChildrenWithComments [attachChild (x, 0), attachChild (y, 1)] = some
      (if y.meta.start = x.meta.stop then [⟨attachChild (x, 0), [], u⟩]
       else [⟨attachChild (x, 0), [], []⟩, ⟨cleaned y 1 u, [], []⟩]) := by
  have ha := attach_not_comment (n := 0) hx
  have hb := cleaned_isComment hy 1
  have hm : contains (cleaned y 1 u).textD Attach.emptyLineContent = false := contains_false_of hy.noMark
  have hs : (cleaned y 1 u).start = y.meta.start := rfl
  have ht : (attachChild (x, 0)).stop = x.meta.stop := rfl
  have hg : Attach.groupConsecutiveComments [attachChild (x, 0), attachChild (y, 1)] =
      some [attachChild (x, 0), attachChild (y, 1)] := by
    simp [Attach.groupConsecutiveComments, Attach.groupLoop, Attach.shallConcat, ha]
  have hd : (cleaned y 1 u).textD = u := rfl
  unfold Attach.getChildrenWithComments
  rw [hg, Option.map_some, List.map_cons, List.map_cons, List.map_nil, clean_other hx, clean_comment hy]
  have he : Attach.eolPair (attachChild (x, 0)) (cleaned y 1 u) = decide (y.meta.start = x.meta.stop) := by
    unfold Attach.eolPair
    rw [ha, hb, hm, hs, ht]
    simp
  have h0 : Attach.suppressMarks [] = [] := rfl
  by_cases hl : y.meta.start = x.meta.stop
  · simp [Attach.attach, Attach.attachOne, Attach.isCommentOnPreviousLine, Attach.isCommentEndOfLine, Attach.onPreviousLine,
      Attach.isGroupComment, Attach.topOf, Attach.eolOf, Attach.textAt, ha, he, hl, h0, hd, List.filterMap]
  · simp [Attach.attach, Attach.attachOne, Attach.isCommentOnPreviousLine, Attach.isCommentEndOfLine, Attach.onPreviousLine,
      Attach.isGroupComment, Attach.topOf, Attach.eolOf, Attach.textAt, ha, he, hl, h0, List.filterMap]

theorem comments_before {x y : Xml} {u : Str} (hx : x.tag ≠ .comment) (hy : CommentOf y u) :
    Attach.getChildrenWithComments [attachChild (y, 0), attachChild (x, 1)] = some
      (if y.meta.stop + 1 = x.meta.start then [⟨attachChild (x, 1), u, []⟩]
       else [⟨cleaned y 0 u, [], []⟩, ⟨attachChild (x, 1), [], []⟩]) := by
  have ha := attach_not_comment (n := 1) hx
  have hb := cleaned_isComment hy 0
  have hs : (cleaned y 0 u).stop = y.meta.stop := rfl
  have ht : (attachChild (x, 1)).start = x.meta.start := rfl
  have hg : Attach.groupConsecutiveComments [attachChild (y, 0), attachChild (x, 1)] =
      some [attachChild (y, 0), attachChild (x, 1)] := by
    simp [Attach.groupConsecutiveComments, Attach.groupLoop, Attach.shallConcat, ha]
  have hd : (cleaned y 0 u).textD = u := rfl
  have hne : ¬ u = ' ' :: Attach.emptyLineContent := by
    intro h
    exact hy.noMark ⟨[' '], [], (List.append_nil _).trans h.symm⟩
  unfold Attach.getChildrenWithComments
  rw [hg, Option.map_some, List.map_cons, List.map_cons, List.map_nil, clean_other hx, clean_comment hy]
  have he : Attach.eolPair (cleaned y 0 u) (attachChild (x, 1)) = false := by
    unfold Attach.eolPair
    rw [ha]
    simp
  have h0 : Attach.suppressMarks [] = [] := rfl
  have hu : Attach.suppressMarks u = u := by
    unfold Attach.suppressMarks
    rw [if_neg hy.line]
  by_cases hl : y.meta.stop + 1 = x.meta.start
  · simp [Attach.attach, Attach.attachOne, Attach.isCommentOnPreviousLine, Attach.isCommentEndOfLine, Attach.onPreviousLine,
      Attach.isGroupComment, Attach.nextHasEol, Attach.topOf, Attach.eolOf, Attach.textAt, ha, hb, hne, he, hl, hu, hd, hs, ht,
      List.filterMap]
  · simp [Attach.attach, Attach.attachOne, Attach.isCommentOnPreviousLine, Attach.isCommentEndOfLine, Attach.onPreviousLine,
      Attach.isGroupComment, Attach.topOf, Attach.eolOf, ha, hb, hne, hd, he, hl, h0, hs, ht, List.filterMap]

theorem comments_two {x y z : Xml} {u v : Str} (hx : x.tag ≠ .comment) (hy : CommentOf y u) (hz : CommentOf z v)
    (h1 : y.meta.start = x.meta.stop) (h2 : z.meta.start ≠ y.meta.stop + 1) :
    Attach.getChildrenWithComments [attachChild (x, 0), attachChild (y, 1), attachChild (z, 2)] = some
      [⟨attachChild (x, 0), [], u⟩, ⟨cleaned z 2 v, [], []⟩] := by
  have ha := attach_not_comment (n := 0) hx
  have hb := cleaned_isComment hy 1
  have hc := cleaned_isComment hz 2
  have hm : contains (cleaned y 1 u).textD Attach.emptyLineContent = false := contains_false_of hy.noMark
  have hs : (cleaned y 1 u).start = y.meta.start := rfl
  have ht : (attachChild (x, 0)).stop = x.meta.stop := rfl
  have h2' : ¬ (attachChild (z, 2)).start = (attachChild (y, 1)).stop + 1 := h2
  have hg : Attach.groupConsecutiveComments [attachChild (x, 0), attachChild (y, 1), attachChild (z, 2)] =
      some [attachChild (x, 0), attachChild (y, 1), attachChild (z, 2)] := by
    simp [Attach.groupConsecutiveComments, Attach.groupLoop, Attach.shallConcat, ha, h2']
  have hd : (cleaned y 1 u).textD = u := rfl
  unfold Attach.getChildrenWithComments
  rw [hg, Option.map_some, List.map_cons, List.map_cons, List.map_cons, List.map_nil, clean_other hx, clean_comment hy,
    clean_comment hz]
  have he : Attach.eolPair (attachChild (x, 0)) (cleaned y 1 u) = true := by
    unfold Attach.eolPair
    rw [ha, hb, hm, hs, ht]
    simp [h1]
  have he2 : Attach.eolPair (cleaned y 1 u) (cleaned z 2 v) = false := by
    unfold Attach.eolPair
    rw [hb]
    simp
  have h0 : Attach.suppressMarks [] = [] := rfl
  simp [Attach.attach, Attach.attachOne, Attach.isCommentOnPreviousLine, Attach.isCommentEndOfLine, Attach.onPreviousLine,
    Attach.topOf, Attach.eolOf, Attach.textAt, ha, hb, hc, he, he2, h0, hd, List.filterMap]

theorem commentText_line {u : Str} (h : '\n' ∉ u) : commentText (some u) = u := by
  unfold commentText
  have : lines u = [u] := by
    have k := lines_unlines (ls := [u]) (by simp) (by simpa using h)
    simpa [unlines, join] using k
  simp [this]

/-- C56: an element of a block that is followed by a comment gets it when the comment begins on the line where the element ends;
else the comment stands alone after it. -/
theorem C56_comment_after (env : Env) (ctx : Ctx) (cx cy : Child) (u : Str) (es : List Elem)
    (hp : isProcessed ctx cx.xml.tag = true) (hx : cx.xml.tag ≠ .comment) (hy : CommentOf cy.xml u) :
    (cy.xml.meta.start = cx.xml.meta.stop → cx.parser ctx ⟨[], u⟩ = .ok es → fillBlock env [cx, cy] ctx = .ok es) ∧
    (cy.xml.meta.start ≠ cx.xml.meta.stop → cx.parser ctx ⟨[], []⟩ = .ok es →
      fillBlock env [cx, cy] ctx = .ok (es ++ [.comment u ⟨[], []⟩])) := by
  have h := comments_after hx hy
  have hm : contains u Attach.emptyLineContent = false := contains_false_of hy.noMark
  constructor
  · intro hl he
    rw [if_pos hl] at h
    have hw : withComments [cx, cy] = some [(⟨attachChild (cx.xml, 0), [], u⟩, cx)] := by
      show Option.bind (Attach.getChildrenWithComments [attachChild (cx.xml, 0), attachChild (cy.xml, 1)]) _ = _
      rw [h]; rfl
    simp only [fillBlock, hw, blockLoop, blockStep, if_neg hx, hp, if_true, he, List.append_nil]
  · intro hl he
    rw [if_neg hl] at h
    have hw : withComments [cx, cy] = some [(⟨attachChild (cx.xml, 0), [], []⟩, cx), (⟨cleaned cy.xml 1 u, [], []⟩, cy)] := by
      show Option.bind (Attach.getChildrenWithComments [attachChild (cx.xml, 0), attachChild (cy.xml, 1)]) _ = _
      rw [h]; rfl
    have ht : commentText (cleaned cy.xml 1 u).text = u := commentText_line hy.line
    simp only [fillBlock, hw, blockLoop, blockStep, if_neg hx, hp, if_true, he, if_pos hy.tag, hy.leaf, List.length_nil, ne_eq,
      not_true_eq_false, if_false, ht, hm, keptComment, Option.toList_some, List.map_cons, List.map_nil, List.append_nil,
      Bool.false_eq_true]

/-- C56: an element of a block that follows a comment gets it when it begins on the line after the comment; else the comment stands
alone before it. -/
theorem C56_comment_before (env : Env) (ctx : Ctx) (cx cy : Child) (u : Str) (es : List Elem)
    (hp : isProcessed ctx cx.xml.tag = true) (hx : cx.xml.tag ≠ .comment) (hy : CommentOf cy.xml u) :
    (cy.xml.meta.stop + 1 = cx.xml.meta.start → cx.parser ctx ⟨u, []⟩ = .ok es → fillBlock env [cy, cx] ctx = .ok es) ∧
    (cy.xml.meta.stop + 1 ≠ cx.xml.meta.start → cx.parser ctx ⟨[], []⟩ = .ok es →
      fillBlock env [cy, cx] ctx = .ok (.comment u ⟨[], []⟩ :: es)) := by
  have h := comments_before hx hy
  have hm : contains u Attach.emptyLineContent = false := contains_false_of hy.noMark
  constructor
  · intro hl he
    rw [if_pos hl] at h
    have hw : withComments [cy, cx] = some [(⟨attachChild (cx.xml, 1), u, []⟩, cx)] := by
      show Option.bind (Attach.getChildrenWithComments [attachChild (cy.xml, 0), attachChild (cx.xml, 1)]) _ = _
      rw [h]; rfl
    simp only [fillBlock, hw, blockLoop, blockStep, if_neg hx, hp, if_true, he, List.append_nil]
  · intro hl he
    rw [if_neg hl] at h
    have hw : withComments [cy, cx] = some [(⟨cleaned cy.xml 0 u, [], []⟩, cy), (⟨attachChild (cx.xml, 1), [], []⟩, cx)] := by
      show Option.bind (Attach.getChildrenWithComments [attachChild (cy.xml, 0), attachChild (cx.xml, 1)]) _ = _
      rw [h]; rfl
    have ht : commentText (cleaned cy.xml 0 u).text = u := commentText_line hy.line
    simp only [fillBlock, hw, blockLoop, blockStep, if_neg hx, hp, if_true, he, if_pos hy.tag, hy.leaf, List.length_nil, ne_eq,
      not_true_eq_false, if_false, ht, hm, keptComment, Option.toList_some, List.map_cons, List.map_nil, List.append_nil,
      Bool.false_eq_true, List.cons_append, List.nil_append]

/-- C56: an element that is not processed keeps its place and loses the first comment at the end of its line. Another comment on that
line is left out too, except after a typedef or the declaration of a class: then it is kept with the code of the element before it.
A comment on a further line is kept. -/
theorem C56_ignored_comments (env : Env) (ctx : Ctx) (cx cy cz : Child) (u v : Str)
    (hp : isProcessed ctx cx.xml.tag = false) (hx : cx.xml.tag ≠ .comment) (hy : CommentOf cy.xml u) (hz : CommentOf cz.xml v)
    (h1 : cy.xml.meta.start = cx.xml.meta.stop) (h2 : cz.xml.meta.start ≠ cy.xml.meta.stop + 1) :
    fillBlock env [cx, cy, cz] ctx = .ok (.unprocessed cx.xml.tag ::
      (if cz.xml.meta.start = cx.xml.meta.stop then
        (if cx.xml.tag = .typedef ∨ cx.xml.tag = .structDecl then
          [.comment ("// ".toList ++ env.verbatim cx.xml ++ "    ".toList ++ v) ⟨[], []⟩] else [])
       else [.comment v ⟨[], []⟩])) := by
  have h := comments_two hx hy hz h1 h2
  have hm : contains v Attach.emptyLineContent = false := contains_false_of hz.noMark
  have hw : withComments [cx, cy, cz] = some [(⟨attachChild (cx.xml, 0), [], u⟩, cx), (⟨cleaned cz.xml 2 v, [], []⟩, cz)] := by
    show Option.bind (Attach.getChildrenWithComments [attachChild (cx.xml, 0), attachChild (cy.xml, 1), attachChild (cz.xml, 2)]) _ = _
    rw [h]; rfl
  have ht : commentText (cleaned cz.xml 2 v).text = v := commentText_line hz.line
  have hs : (cleaned cz.xml 2 v).start = cz.xml.meta.start := rfl
  simp only [fillBlock, hw, blockLoop, blockStep, if_neg hx, hp, Bool.false_eq_true, if_false, if_pos hz.tag, hz.leaf, List.length_nil,
    ne_eq, not_true_eq_false, ht, hm, keptComment, hs, List.cons_append, List.nil_append, List.append_nil]
  split
  · split <;> rfl
  · rfl

/-- A comment on a line. -/
def note0 (text : String) (line : Int) : Xml := .node { tag := .comment, text := some text.toList, start := line, stop := line } []

theorem note0_of (u : Str) (line : Int) (h1 : '\n' ∉ u) (h2 : contains u "_SRCML_EMPTY_LINE_".toList = false)
    (h3 : contains u "_SRCML_LINEFEED_".toList = false) :
    CommentOf (.node { tag := .comment, text := some ("/*".toList ++ u ++ "*/".toList), start := line, stop := line } []) u := by
  have k : ∀ p : Str, contains u p = false → ¬ p <:+: u := by
    rintro p hp ⟨a, b, hab⟩
    rw [(contains_iff u p).2 ⟨a, b, hab.symm⟩] at hp
    cases hp
  exact ⟨rfl, rfl, rfl, h1, k _ h2, k _ h3⟩

example : CommentOf (note0 "/* the sum */" 3) " the sum ".toList ∧ isProcessed .elsewhere .functionDecl = true ∧
    isProcessed .elsewhere .typedef = false :=
  ⟨note0_of " the sum ".toList 3 (by decide +kernel) (by decide +kernel) (by decide +kernel), by decide +kernel, by decide +kernel⟩

/-! ### Initial values -/

/-- C60: the initial value of a declaration which is written in another form than one expression (`= {1, 2}`, for example) is its code
without the white space around it and without the equal sign; the blanks after the equal sign stay. -/
theorem C60_initial_code (env : Env) (previous : Previous) (d : Decl) (i : Xml) (code : Str) (hi : i.tag = .init)
    (he : ∀ e, ¬ Only i .expr e) :
    (env.verbatim i = code → ¬ "=".toList <+: strip code →
      declChild env previous d i = .ok { d with initialValue := strip code }) ∧
    (strip (env.verbatim i) = "=".toList ++ code → declChild env previous d i = .ok { d with initialValue := code }) := by
  have hn : i.theChild .expr = none := by
    unfold Xml.theChild
    split
    · rename_i c hc
      obtain ⟨a, b, h1, h2, h3, h4⟩ := List.filter_eq_cons_iff.1 hc
      refine absurd ⟨a, b, h1, by simpa using h3, ?_⟩ (he c)
      intro e hm
      rcases List.mem_append.1 hm with hm | hm
      · simpa using h2 e hm
      · simpa using List.filter_eq_nil_iff.1 h4 e hm
    · rfl
  constructor
  · intro h1 h2
    have h3 : startsWith (strip code) ['='] = false := by
      rw [Bool.eq_false_iff]; exact fun k => h2 (List.isPrefixOf_iff_prefix.1 k)
    simp only [declChild, hi, parseInitExpr, if_true, hn, h1, h3, Bool.false_eq_true, if_false]
    rfl
  · intro h1
    have h3 : startsWith ("=".toList ++ code) ['='] = true := List.isPrefixOf_iff_prefix.2 ⟨code, rfl⟩
    simp only [declChild, hi, parseInitExpr, if_true, hn, h1, h3]
    rfl

example : ∀ e, ¬ Only (node .init [node .block []]) .expr e := by
  rintro e ⟨a, b, h1, h2, _⟩
  have hm : e ∈ (node .init [node .block []]).children := by rw [h1]; simp
  simp only [node, Xml.children, List.mem_singleton] at hm
  subst hm
  cases h2

example : strip " = {1, 2} ".toList = "=".toList ++ " {1, 2}".toList := by decide +kernel

end Verif.Parse.Props
