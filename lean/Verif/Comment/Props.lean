import Verif.Comment.Lemmas

/-! Properties C05 (token before a C++ comment) and C06 (alignment of Python comments). -/

namespace Verif.Comment
open Verif.Py

/-! ### C05 -/

/-- `out` is `line` with `token` inserted right after the code: before the trailing blanks and before
what follows (`rest`, empty or starting with `//`). -/
def InsertedAfterCode (token line out : Str) : Prop :=
  ∃ code blanks rest, line = code ++ blanks ++ rest ∧
    (∀ c ∈ blanks, isSpace c = true) ∧ (∀ c ∈ code.getLast?, isSpace c = false) ∧
    (rest = [] ∨ ['/', '/'] <+: rest) ∧ out = code ++ token ++ blanks ++ rest

/-- C05, for every text: `join_lines_with_token_before_cpp_comment` inserts the token in every line but
the last; deleting it gives the line back; what follows the token is only blanks, or blanks and a
text that starts with `//`. -/
theorem C05_join_lines (ls : List Str) (last token : Str) :
    ∃ outs, joinLinesWithTokenBeforeCppComment (ls ++ [last]) token = unlines (outs ++ [last]) ∧
      List.Forall₂ (InsertedAfterCode token) ls outs := by
  refine ⟨ls.map (addTokenToLine token), by simp [joinLinesWithTokenBeforeCppComment], ?_⟩
  induction ls with
  | nil => exact List.Forall₂.nil
  | cons l ls ih =>
    refine List.Forall₂.cons ?_ ih
    obtain ⟨a, b, r, h1, h2, h3, h4, _, _, h5⟩ := addToken_eq token l
    exact ⟨a, b, r, h1, h2, h3, h4, h5⟩

theorem C05_join_lines_empty (token : Str) : joinLinesWithTokenBeforeCppComment [] token = [] := rfl

/-- C05, for every text: `add_item_before_cpp_comment` changes only the last line, by the same
insertion; the item itself is returned for an empty text. -/
theorem C05_add_item (before : List Str) (last item : Str)
    (hnl : ∀ l ∈ before ++ [last], '\n' ∉ l) (hne : unlines (before ++ [last]) ≠ []) :
    ∃ out, addItemBeforeCppComment (unlines (before ++ [last])) item = unlines (before ++ [out]) ∧
      InsertedAfterCode item last out := by
  refine ⟨addTokenToLine item last, ?_, ?_⟩
  · have hl : (unlines (before ++ [last])).length ≠ 0 := by simpa using hne
    unfold addItemBeforeCppComment
    rw [if_neg hl, lines_unlines (by simp) hnl]
    simp
  · obtain ⟨a, b, r, h1, h2, h3, h4, _, _, h5⟩ := addToken_eq item last
    exact ⟨a, b, r, h1, h2, h3, h4, h5⟩

theorem C05_add_item_empty (item : Str) : addItemBeforeCppComment [] item = item := rfl

example : (∀ l ∈ ["int a,".toList] ++ ["int b // b".toList], '\n' ∉ l) ∧
    unlines (["int a,".toList] ++ ["int b // b".toList]) ≠ [] := by decide

/-- What C05 asks on one line: on a line made of C++ tokens `items` (literals may contain `//`)
followed by the comment `cmt`, the item is inserted at the end of the code. -/
def InsertsBeforeComment (items : List Spec.Item) (cmt : Str) : Prop :=
  ∀ item, ∃ code blanks, Spec.render items = code ++ blanks ∧
    (∀ c ∈ blanks, isSpace c = true) ∧ (∀ c ∈ code.getLast?, isSpace c = false) ∧
    addItemBeforeCppComment (Spec.render items ++ cmt) item = code ++ item ++ blanks ++ cmt

/-- C05, full statement: every line of C++. -/
def C05_statement : Prop :=
  ∀ items cmt, Spec.IsLine items cmt → '\n' ∉ Spec.render items ++ cmt →
    InsertsBeforeComment items cmt

/-- False of the code: the scanner takes `\\"` for an escaped quote even when the backslash is itself
escaped. Witness: the line `f("\\") // c`: the item lands after the comment. -/
theorem C05_fails : ¬ C05_statement := by
  intro h
  obtain ⟨code, blanks, h1, h2, h3, h4⟩ := h
    [.plain 'x', .str [.escape '\\'], .plain ' '] "// c".toList
    (by
      refine ⟨?_, ?_, ?_⟩
      · intro it hit; simp at hit
        rcases hit with rfl | rfl | rfl <;> simp [Spec.Item.WF, Spec.BodyItem.WF]
      · simp
      · right; exact ⟨by decide, by decide⟩)
    (by decide) ",".toList
  have e : addItemBeforeCppComment
      (Spec.render [.plain 'x', .str [.escape '\\'], .plain ' '] ++ "// c".toList) ",".toList =
      "x\"\\\\\" // c,".toList := by decide
  rw [e] at h4
  have hlast := congrArg List.getLast? h4
  rw [List.getLast?_append] at hlast
  simp at hlast

/-- The other literal that is not handled: the character literal `'"'`. -/
theorem C05_quote_character_fails :
    addItemBeforeCppComment "'\"' // c".toList ",".toList = "'\"' // c,".toList := by decide

/-- C05 (partial): the item is inserted at the end of the code, before the comment, on every line of
C++ except those with a string literal ending with an escaped backslash or with the character literal
of the double quote (see `C05_fails`, `C05_quote_character_fails`). -/
theorem C05_add_item_partial (items : List Spec.Item) (cmt : Str) (h : Spec.IsLine items cmt)
    (hnl : '\n' ∉ Spec.render items ++ cmt) (hh : ∀ it ∈ items, it.Handled) :
    InsertsBeforeComment items cmt := by
  intro item
  by_cases hne : Spec.render items ++ cmt = []
  · obtain ⟨h1, h2⟩ := List.append_eq_nil_iff.1 hne
    rw [hne, h1, h2]
    exact ⟨[], [], by simp, by simp, by simp, by simp [addItemBeforeCppComment]⟩
  · have hpos := position_of_line items cmt h hh
    obtain ⟨code, blanks, rest, h1, h2, h3, _, h5, h6, h7⟩ :=
      addToken_eq item (Spec.render items ++ cmt)
    have hcmt : rest = cmt ∧ code ++ blanks = Spec.render items := by
      by_cases hc : cmt = []
      · rw [if_pos hc] at hpos
        have := h5 hpos
        subst this; subst hc
        simp at h1
        exact ⟨rfl, h1.symm⟩
      · rw [if_neg hc] at hpos
        have := List.append_inj h1 (h6 _ hpos).symm
        exact ⟨this.2.symm, this.1.symm⟩
    refine ⟨code, blanks, hcmt.2.symm, h2, h3, ?_⟩
    have hl : (Spec.render items ++ cmt).length ≠ 0 := by simpa using hne
    unfold addItemBeforeCppComment
    rw [if_neg hl]
    have : lines (Spec.render items ++ cmt) = [Spec.render items ++ cmt] := splitOn_of_not_mem hnl
    rw [this]
    simp only [List.getLast?_singleton, List.dropLast_singleton, List.nil_append]
    rw [h7, hcmt.1]
    rfl

-- `s = "http://x";  // url`
example :
    let items := [.plain 's', .plain '=', .str ("http://x".toList.map .ordinary), .plain ';',
      .plain ' ', .plain ' ']
    Spec.IsLine items "// url".toList ∧ '\n' ∉ Spec.render items ++ "// url".toList ∧
      (∀ it ∈ items, it.Handled) := by
  refine ⟨⟨?_, ?_, Or.inr ⟨by decide, by decide⟩⟩, by decide, ?_⟩
  · simp [Spec.Item.WF, Spec.BodyItem.WF]
  · simp
  · simp [Spec.Item.Handled]

/-! ### C06 -/

/-- C06: which `#` is taken for an end-of-line comment. -/
theorem C06_detection (line : Str) (p : Nat) :
    linePythonCommentEolPosition line = some p ↔ Spec.EolComment line p := by
  rcases eol_cases line with ⟨h1, h2⟩ | ⟨a, b, h1, h2, h3, h4, h5⟩
  · rw [h1]
    simp only [reduceCtorEq, false_iff]
    rintro ⟨hc, _⟩
    obtain ⟨a, b, e, _, hh⟩ := (candidate_iff _ _).1 hc
    exact h2 a b e hh
  · rw [h4]
    have hfirst : ∀ q < a.length, ¬ Spec.EolCandidate line q := by
      intro q hq hc
      obtain ⟨a', b', e, hl, hh⟩ := (candidate_iff _ _).1 hc
      rw [h1] at e
      rcases List.append_eq_append_iff.1 e with ⟨u, hu, _⟩ | ⟨u, hu, hv⟩
      · have := congrArg List.length hu; simp at this; omega
      · cases u with
        | nil => have := congrArg List.length hu; simp at this; omega
        | cons x xs => simp at hv; exact h5 a' xs (by rw [hu, hv.1]) hh
    constructor
    · intro e
      simp at e; subst e
      exact ⟨(candidate_iff _ _).2 ⟨a, b, h1, rfl, h2⟩, hfirst⟩
    · rintro ⟨hc, hmin⟩
      congr 1
      by_cases hlt : a.length < p
      · exact absurd ((candidate_iff _ _).2 ⟨a, b, h1, rfl, h2⟩) (hmin _ hlt)
      · by_cases hgt : p < a.length
        · exact absurd hc (hfirst _ hgt)
        · omega

/-- How one line is aligned on the column `col`. -/
def AlignedOn (col : Nat) (line out : Str) : Prop :=
  ((∀ p, ¬ Spec.EolComment line p) ∧ out = line) ∨
  ∃ a b k, line = a ++ '#' :: b ∧ Spec.EolComment line a.length ∧ a.length + k = col ∧
    out = a ++ spaces k ++ '#' :: b

theorem alignLine_aligned (line : Str) (col : Nat)
    (h : ∀ p, linePythonCommentEolPosition line = some p → p ≤ col) :
    AlignedOn col line (alignLine col line) := by
  unfold alignLine
  cases hp : linePythonCommentEolPosition line with
  | none =>
    left
    refine ⟨fun p hc => ?_, rfl⟩
    rw [(C06_detection line p).2 hc] at hp; simp at hp
  | some p =>
    right
    have hc := (C06_detection line p).1 hp
    obtain ⟨a, b, e, hl, _⟩ := (candidate_iff _ _).1 hc.1
    refine ⟨a, b, col - p, e, by rw [hl]; exact hc, by have := h p hp; omega, ?_⟩
    subst hl; subst e
    simp

/-- C06: the lines of the result are the lines of the input, where the end-of-line comments are moved
to one column by inserting spaces just before `#`; the column is the right-most original one. If there
is no end-of-line comment the code is unchanged. -/
theorem C06_align (code : Str) :
    ((∀ line ∈ lines code, ∀ p, ¬ Spec.EolComment line p) ∧
      alignPythonCommentsInBlock code = code) ∨
    ∃ col, List.Forall₂ (AlignedOn col) (lines code) (lines (alignPythonCommentsInBlock code)) ∧
      ∃ line ∈ lines code, Spec.EolComment line col := by
  unfold alignPythonCommentsInBlock
  cases hps : (lines code).filterMap linePythonCommentEolPosition with
  | nil =>
    left
    refine ⟨fun line hl p hc => ?_, rfl⟩
    have : p ∈ (lines code).filterMap linePythonCommentEolPosition :=
      List.mem_filterMap.2 ⟨line, hl, (C06_detection line p).2 hc⟩
    rw [hps] at this; simp at this
  | cons p ps =>
    right
    refine ⟨ps.foldl max p, ?_, ?_⟩
    · simp only
      have hal : ∀ line ∈ lines code,
          AlignedOn (ps.foldl max p) line (alignLine (ps.foldl max p) line) := by
        intro line hl
        apply alignLine_aligned
        intro q hq
        have : q ∈ p :: ps := by rw [← hps]; exact List.mem_filterMap.2 ⟨line, hl, hq⟩
        rcases List.mem_cons.1 this with rfl | h
        · exact (foldl_max_ge ps _).1
        · exact (foldl_max_ge ps _).2 _ h
      rw [lines_unlines (by simp [lines_ne_nil])]
      · revert hal
        generalize lines code = ls
        intro hal
        induction ls with
        | nil => exact List.Forall₂.nil
        | cons l ls ih =>
          exact List.Forall₂.cons (hal l (by simp)) (ih (fun x hx => hal x (by simp [hx])))
      · intro l hl hn
        obtain ⟨x, hx, rfl⟩ := List.mem_map.1 hl
        have hx' := not_mem_of_mem_lines hx
        rcases hal x hx with ⟨_, e⟩ | ⟨a, b, k, e, _, _, e'⟩
        · rw [e] at hn; exact hx' hn
        · rw [e'] at hn
          apply hx'; rw [e]
          simp [spaces] at hn ⊢
          rcases hn with h | h
          · exact Or.inl h
          · exact Or.inr h
    · have : ps.foldl max p ∈ (lines code).filterMap linePythonCommentEolPosition := by
        rw [hps]; exact foldl_max_mem ps p
      obtain ⟨line, hl, h⟩ := List.mem_filterMap.1 this
      exact ⟨line, hl, (C06_detection _ _).1 h⟩

example : Spec.EolComment "a = '#' # c".toList 8 := by
  rw [← C06_detection]; decide

/-- C06: in the result every end-of-line comment is in the same column. -/
theorem C06_same_column (code : Str) :
    ∃ col, ∀ line ∈ lines (alignPythonCommentsInBlock code), ∀ p,
      Spec.EolComment line p → p = col := by
  rcases C06_align code with ⟨h1, h2⟩ | ⟨col, h1, _⟩
  · refine ⟨0, ?_⟩
    rw [h2]
    intro line hl p hc
    exact absurd hc (h1 line hl p)
  · refine ⟨col, ?_⟩
    intro out ho p hc
    obtain ⟨i, hi, rfl⟩ := List.getElem_of_mem ho
    have hi' : i < (lines code).length := by rw [h1.length_eq]; exact hi
    have hal := List.forall₂_iff_get.1 h1 |>.2 i hi' hi
    simp only [List.get_eq_getElem] at hal
    rcases hal with ⟨hn, e⟩ | ⟨a, b, k, e, hk, hcol, e'⟩
    · rw [e] at hc; exact absurd hc (hn p)
    · have hpos := (C06_detection _ _).2 hk
      rcases eol_cases (lines code)[i] with ⟨hnone, _⟩ | ⟨a', b', e1, hh, hs, hp, _⟩
      · rw [hnone] at hpos; simp at hpos
      · rw [hp] at hpos
        simp at hpos
        have haa := List.append_inj (e1.symm.trans e) hpos
        have hafter := eol_after_align a b k (haa.1 ▸ hh) (haa.1 ▸ hs)
        rw [← e', (C06_detection _ _).2 hc] at hafter
        simp at hafter; omega

/-- C06: aligning twice is aligning once. -/
theorem C06_idempotent (code : Str) :
    alignPythonCommentsInBlock (alignPythonCommentsInBlock code) =
      alignPythonCommentsInBlock code := by
  obtain ⟨col, hcol⟩ := C06_same_column code
  generalize hc : alignPythonCommentsInBlock code = code' at hcol
  rcases C06_align code' with ⟨_, h2⟩ | ⟨col', h1, line, hl, hline⟩
  · exact h2
  · have : col' = col := hcol line hl col' hline
    subst this
    have heq : lines (alignPythonCommentsInBlock code') = lines code' := by
      apply List.ext_getElem h1.length_eq.symm
      intro i h3 h4
      have hal := List.forall₂_iff_get.1 h1 |>.2 i h4 h3
      simp only [List.get_eq_getElem] at hal
      rcases hal with ⟨_, e⟩ | ⟨a, b, k, e, hk, hcol', e'⟩
      · exact e
      · have := hcol _ (List.getElem_mem h4) _ hk
        have hk0 : k = 0 := by omega
        subst hk0
        rw [e', e]; simp [spaces]
    have := congrArg unlines heq
    simpa using this

/-- C06: a line that is only a comment should not be touched (this is what
`skip_if_comment_only_line` is for). -/
def C06_comment_only_statement : Prop :=
  ∀ (before after : List Str) (blanks text : Str), (∀ c ∈ blanks, isSpace c = true) →
    (∀ l ∈ before ++ (blanks ++ '#' :: text) :: after, '\n' ∉ l) →
    (blanks ++ '#' :: text) ∈
      lines (alignPythonCommentsInBlock (unlines (before ++ (blanks ++ '#' :: text) :: after)))

/-- It is false: a second `#` inside a comment-only line is taken for an end-of-line comment. Witness:
the block `x = 10 # c`, `# a # b` becomes `x = 10 # c`, `# a    # b`. -/
theorem C06_comment_only_fails : ¬ C06_comment_only_statement := by
  intro h
  have := h ["x = 10 # c".toList] [] [] " a # b".toList (by simp) (by decide)
  revert this; decide

/-- C06 (partial): a comment-only line without a second `#` is left as it is. -/
theorem C06_comment_only_partial (blanks text : Str) (hb : ∀ c ∈ blanks, isSpace c = true)
    (ht : '#' ∉ text) (p : Nat) : ¬ Spec.EolComment (blanks ++ '#' :: text) p := by
  rintro ⟨⟨h1, ⟨c, hc, hcs⟩, _⟩, _⟩
  by_cases hp : p ≤ blanks.length
  · rw [List.take_append_of_le_length hp] at hc
    rw [hb c (List.mem_of_mem_take hc)] at hcs
    exact Bool.noConfusion hcs
  · rw [List.getElem?_append_right (by omega)] at h1
    obtain ⟨k, hk⟩ : ∃ k, p - blanks.length = k + 1 := ⟨p - blanks.length - 1, by omega⟩
    rw [hk] at h1
    simp at h1
    exact ht (List.mem_of_getElem? h1)

example : '#' ∉ " a comment".toList := by decide

end Verif.Comment
