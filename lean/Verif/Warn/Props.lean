import Verif.Warn.Model
import Verif.Indent.Props
import Verif.Tree.Lemmas

/-! Property C112: the warnings. -/

namespace Verif.Warn.Props
open Verif.Py Verif.Warn

/-! ### Specification -/

/-- A line of code in a message: four spaces are added, and the blanks at its end are removed. -/
def shownLine (l : Str) : Str := if ∀ c ∈ l, isSpace c = true then [] else spaces 4 ++ rstrip l

/-- The first line of the information about an element. -/
def whileParsing (e : Elem) : Str := "While parsing a \"".toList ++ e.tag ++ "\", corresponding to this C++ code:".toList

/-- A text on one line, whose last character is not a blank. -/
def Tidy (s : Str) : Prop := '\n' ∉ s ∧ ∃ x c, s = x ++ [c] ∧ isSpace c = false

/-! ### The text of a message -/

theorem dropEnd_append (p q : List Str) (x : Str) (hx : isBlank x = false) :
    ((p ++ x :: q).reverse.dropWhile isBlank).reverse = p ++ x :: (q.reverse.dropWhile isBlank).reverse := by
  rw [List.reverse_append, List.reverse_cons, List.append_assoc, List.dropWhile_append]
  split
  · rename_i h
    rw [List.isEmpty_iff] at h
    rw [h]
    show ((x :: p.reverse).dropWhile isBlank).reverse = _
    rw [List.dropWhile_cons, hx]
    simp
  · rw [List.reverse_append, List.reverse_append, List.reverse_reverse]
    simp

theorem tidy_not_blank {s : Str} (h : Tidy s) : isBlank s = false := by
  obtain ⟨_, x, c, rfl, hc⟩ := h
  rw [Bool.eq_false_iff]
  intro hb
  have := (isBlank_iff _).1 hb c (List.mem_append_right _ (.head _))
  rw [hc] at this
  cases this

theorem tidy_last {s : Str} (h : Tidy s) : s.getLast? ≠ some ' ' := by
  obtain ⟨_, x, c, rfl, hc⟩ := h
  rw [List.getLast?_concat]
  intro e
  rw [Option.some.inj e] at hc
  exact absurd hc (by decide)

theorem unindent_spaces (k : Nat) (s : Str) (h : s.getLast? ≠ some ' ') : Indent.unindentLine k (spaces k ++ s) = s := by
  unfold Indent.unindentLine
  have hs : startsWith (spaces k ++ s) (spaces k) = true := (Indent.startsWith_spaces_iff _ _).2 (List.prefix_append _ _)
  rw [if_pos hs]
  have hd : (spaces k ++ s).drop k = s := by
    have := List.drop_left (l₁ := spaces k) (l₂ := s)
    rwa [Indent.length_spaces] at this
  rw [hd]
  exact Indent.removeTrailing_eq_self h

theorem shown_eq (l : Str) : Indent.unindentLine 8 (Indent.indentLine (spaces 12) true l) = shownLine l := by
  unfold Indent.indentLine shownLine
  cases l with
  | nil => rfl
  | cons c l =>
    rw [if_neg (by simp), if_pos rfl, show spaces 12 = spaces 8 ++ spaces 4 from rfl, List.append_assoc]
    by_cases h : ∀ x ∈ c :: l, isSpace x = true
    · rw [if_pos h, (rstrip_eq_nil_iff _).2 h, List.append_nil]
      decide
    · rw [if_neg h]
      refine unindent_spaces 8 _ ?_
      rcases rstrip_last (c :: l) with h0 | ⟨a, d, h1, h2⟩
      · exact absurd ((rstrip_eq_nil_iff _).1 h0) h
      · rw [h1, ← List.append_assoc, List.getLast?_concat]
        intro e
        rw [Option.some.inj e] at h2
        exact absurd h2 (by decide)

theorem lines_one {s : Str} (h : '\n' ∉ s) : lines s = [s] := by
  have := lines_unlines (ls := [s]) (by simp) (by simpa using h)
  exact this

theorem info_lines (e : Elem) (ht : '\n' ∉ e.tag) (hl : '\n' ∉ location e) : lines (elementInfo e) =
    [] :: (spaces 8 ++ whileParsing e) :: (spaces 8 ++ location e) :: ((lines e.code).map (Indent.indentLine (spaces 12) true) ++ [spaces 8]) := by
  have e0 : elementInfo e = [] ++ '\n' :: ((spaces 8 ++ whileParsing e) ++ '\n' :: ((spaces 8 ++ location e) ++ '\n' :: (Indent.indentCode e.code 12 ++ '\n' :: spaces 8))) := by
    unfold elementInfo whileParsing
    have a1 : "\n        While parsing a \"".toList = '\n' :: (spaces 8 ++ "While parsing a \"".toList) := by decide
    have a2 : "\", corresponding to this C++ code:\n        ".toList = "\", corresponding to this C++ code:".toList ++ '\n' :: spaces 8 := by decide
    have a3 : "\n        ".toList = '\n' :: spaces 8 := by decide
    have a4 : "\n".toList = ['\n'] := rfl
    rw [a1, a2, a3, a4]
    generalize "While parsing a \"".toList = s1
    generalize "\", corresponding to this C++ code:".toList = s2
    simp only [List.append_assoc, List.cons_append, List.nil_append]
  have hw : '\n' ∉ spaces 8 ++ whileParsing e := by
    unfold whileParsing
    intro h
    rcases List.mem_append.1 h with h | h
    · exact Indent.nl_not_mem_spaces 8 h
    rcases List.mem_append.1 h with h | h
    · rcases List.mem_append.1 h with h | h
      · exact absurd h (by decide)
      · exact ht h
    · exact absurd h (by decide)
  have hl' : '\n' ∉ spaces 8 ++ location e := by
    intro h
    rcases List.mem_append.1 h with h | h
    · exact Indent.nl_not_mem_spaces 8 h
    · exact hl h
  have hi : lines (Indent.indentCode e.code 12) = (lines e.code).map (Indent.indentLine (spaces 12) true) :=
    Indent.lines_indentAll e.code 12 none true (by decide)
  rw [e0, Tree.lines_nl, Tree.lines_nl, Tree.lines_nl, Tree.lines_nl, hi, lines_one hw, lines_one hl', lines_one (Indent.nl_not_mem_spaces 8)]
  rfl

theorem head_W (e : Elem) : ∃ r, whileParsing e = 'W' :: r := by
  have h : "While parsing a \"".toList = 'W' :: "hile parsing a \"".toList := by decide
  unfold whileParsing
  rw [h]
  exact ⟨_, rfl⟩

theorem while_last (e : Elem) : ∃ r, whileParsing e = r ++ [':'] := by
  have h : "\", corresponding to this C++ code:".toList = "\", corresponding to this C++ code".toList ++ [':'] := by decide
  unfold whileParsing
  rw [h]
  exact ⟨_, (List.append_assoc _ _ _).symm⟩

theorem info_size (e : Elem) (rest : List Str) : Indent.indentSizeOfLines ([] :: (spaces 8 ++ whileParsing e) :: rest) = 8 := by
  obtain ⟨r, hr⟩ := head_W e
  have h0 : Indent.indentSizeOfLines ([] :: (spaces 8 ++ whileParsing e) :: rest) = Indent.indentSizeOfLines ((spaces 8 ++ whileParsing e) :: rest) := by
    rw [Indent.indentSizeOfLines]
    exact if_pos rfl
  rw [h0, Indent.indentSizeOfLines, if_neg]
  · exact Indent.count_append_spaces 8 _ (by rw [hr]; exact fun h => absurd (Option.some.inj h) (by decide))
  · intro h
    have := (Indent.replace_space_length _).1 h 'W' (List.mem_append_right _ (by rw [hr]; exact .head _))
    exact absurd this (by decide)

/-- The lines of the information, once its margin is removed. -/
theorem info_text (e : Elem) (ht : '\n' ∉ e.tag) (hl : Tidy (location e)) : ∃ kept blanks, (lines e.code).map shownLine = kept ++ blanks ∧
    (∀ b ∈ blanks, b = []) ∧ (∀ l ∈ kept.getLast?, l ≠ []) ∧
    Indent.unindentCode (elementInfo e) true = unlines (whileParsing e :: location e :: kept) := by
  have hlines := info_lines e ht hl.1
  have hsize : Indent.computeCodeIndentSize (elementInfo e) = 8 := by
    unfold Indent.computeCodeIndentSize
    rw [hlines]
    exact info_size e _
  have hwl : (whileParsing e).getLast? ≠ some ' ' := by
    obtain ⟨r, hr⟩ := while_last e
    rw [hr, List.getLast?_concat]
    exact fun h => absurd (Option.some.inj h) (by decide)
  have hmap : (lines (elementInfo e)).map (Indent.unindentLine (Indent.computeCodeIndentSize (elementInfo e))) =
      [] :: whileParsing e :: location e :: ((lines e.code).map shownLine ++ [[]]) := by
    rw [hsize, hlines, List.map_cons, List.map_cons, List.map_cons, List.map_append, List.map_map, unindent_spaces 8 _ hwl,
      unindent_spaces 8 _ (tidy_last hl)]
    have h1 : (lines e.code).map (Indent.unindentLine 8 ∘ Indent.indentLine (spaces 12) true) = (lines e.code).map shownLine :=
      List.map_congr_left (fun l _ => shown_eq l)
    have h2 : Indent.unindentLine 8 [] = [] := by decide
    have h3 : [spaces 8].map (Indent.unindentLine 8) = [[]] := by decide
    rw [h1, h2, h3]
  have hul := Indent.lines_unindent (elementInfo e)
  rw [hmap] at hul
  have hb : isBlank (whileParsing e) = false := by
    rw [Bool.eq_false_iff]
    intro h
    obtain ⟨r, hr⟩ := head_W e
    have := (isBlank_iff _).1 h 'W' (by rw [hr]; exact .head _)
    exact absurd this (by decide)
  refine ⟨(((lines e.code).map shownLine).reverse.dropWhile isBlank).reverse, (((lines e.code).map shownLine).reverse.takeWhile isBlank).reverse, ?_, ?_, ?_, ?_⟩
  · rw [← List.reverse_append, List.takeWhile_append_dropWhile, List.reverse_reverse]
  · intro b hb
    have hm := List.mem_reverse.1 hb
    have h1 : isBlank b = true := by
      have := List.all_takeWhile (p := isBlank) (l := ((lines e.code).map shownLine).reverse)
      rw [List.all_eq_true] at this
      exact this b hm
    have h2 := List.mem_reverse.1 (List.takeWhile_sublist _ |>.subset hm)
    obtain ⟨l, _, rfl⟩ := List.mem_map.1 h2
    unfold shownLine at h1 ⊢
    split
    · rfl
    · rename_i hl
      rw [if_neg hl] at h1
      have h3 := (isBlank_iff _).1 h1
      rcases rstrip_last l with h0 | ⟨a, d, h4, h5⟩
      · exact absurd ((rstrip_eq_nil_iff _).1 h0) hl
      · have := h3 d (by rw [h4]; simp)
        rw [h5] at this
        cases this
  · intro l hl
    rw [List.getLast?_reverse] at hl
    have := List.head?_dropWhile_not (p := isBlank) (l := ((lines e.code).map shownLine).reverse)
    rw [Option.mem_def] at hl
    rw [hl] at this
    intro e0
    rw [e0] at this
    exact absurd this (by decide)
  · unfold Indent.unindentCode at hul ⊢
    simp only [Bool.false_eq_true, if_false] at hul
    simp only [if_true]
    unfold Lines.stripEmptyLines
    rw [hul]
    congr 1
    unfold Lines.stripEmptyLinesInList
    have hd : ([] :: whileParsing e :: location e :: ((lines e.code).map shownLine ++ [[]]) : List Str).dropWhile isBlank =
        [whileParsing e] ++ location e :: ((lines e.code).map shownLine ++ [[]]) := by
      rw [List.dropWhile_cons, if_pos (by decide), List.dropWhile_cons, hb]
      rfl
    show ((_ : List Str).reverse.dropWhile isBlank).reverse = _
    rw [hd, dropEnd_append _ _ _ (tidy_not_blank hl), List.reverse_append]
    show whileParsing e :: location e :: (([] :: ((lines e.code).map shownLine).reverse).dropWhile isBlank).reverse = _
    rw [List.dropWhile_cons, if_pos (by decide)]

/-- C112: the text of a message: the word `Warning`, the message without its margin, and (unless the message says it already) the kind of the element, the place
and the lines of its code, indented; blank lines at the end are not shown. -/
theorem C112_text (e : Elem) (msg : Str) (hm : msg ≠ []) :
    (contains (msg.map Char.toLower) "while parsing".toList = true → formatMessage e msg = "Warning: ".toList ++ Indent.unindentCode msg true ++ ['\n']) ∧
    (contains (msg.map Char.toLower) "while parsing".toList = false → '\n' ∉ e.tag → Tidy (location e) →
      ∃ kept blanks, (lines e.code).map shownLine = kept ++ blanks ∧ (∀ b ∈ blanks, b = []) ∧ (∀ l ∈ kept.getLast?, l ≠ []) ∧
        formatMessage e msg = "Warning: ".toList ++ Indent.unindentCode msg true ++ ['\n'] ++ unlines (whileParsing e :: location e :: kept)) := by
  have hlen : msg.length > 0 := List.length_pos_iff.2 hm
  have hw : "Warning".toList ++ ": ".toList = "Warning: ".toList := by decide
  constructor
  · intro h
    unfold formatMessage
    rw [if_pos h]
    show "Warning".toList ++ ": ".toList ++ (if msg.length > 0 then _ else _) = _
    rw [if_pos hlen, hw, show Indent.unindentCode [] true = [] by decide, List.append_nil, List.append_assoc]
    rfl
  · intro h ht hl
    obtain ⟨kept, blanks, h1, h2, h3, h4⟩ := info_text e ht hl
    refine ⟨kept, blanks, h1, h2, h3, ?_⟩
    unfold formatMessage
    rw [if_neg (by rw [h]; exact Bool.false_ne_true)]
    show "Warning".toList ++ ": ".toList ++ (if msg.length > 0 then _ else _) = _
    rw [if_pos hlen, hw, h4]
    simp only [List.append_assoc]
    rfl

/-- The element of the examples. -/
def el : Elem := ⟨"function_decl".toList, some "a.h".toList, ⟨3, 5⟩, "    void f();\n    ^\n".toList⟩

example : Tidy (location el) := ⟨by decide, "a.h:3:".toList, '5', by decide, by decide⟩

example : formatMessage el "Not supported".toList =
    "Warning: Not supported\nWhile parsing a \"function_decl\", corresponding to this C++ code:\na.h:3:5\n        void f();\n        ^".toList := by decide +kernel

/-- C112: an exception about an element `e` that is reported about another element `c` keeps the place and the code of `e`; those of `c` are not added. -/
theorem C112_nested (c e : Elem) (msg : Str) (hm : msg ≠ []) (hw : contains (msg.map Char.toLower) "while parsing".toList = false)
    (ht : '\n' ∉ e.tag) (hl : Tidy (location e)) :
    formatMessage c (exceptionText e msg) = "Warning: ".toList ++ Indent.unindentCode (exceptionText e msg) true ++ ['\n'] := by
  obtain ⟨kept, blanks, _, _, _, h⟩ := (C112_text e msg hm).2 hw ht hl
  have hne : exceptionText e msg ≠ [] := by
    show formatMessage e msg ≠ []
    rw [h, show "Warning: ".toList = 'W' :: "arning: ".toList by decide]
    exact fun h => List.cons_ne_nil _ _ h
  refine (C112_text c _ hne).1 ?_
  show contains ((formatMessage e msg).map Char.toLower) _ = true
  rw [h, contains_iff]
  have hp : "While parsing a \"".toList.map Char.toLower = "while parsing".toList ++ " a \"".toList := by decide
  have hu : ∃ r, unlines (whileParsing e :: location e :: kept) = "While parsing a \"".toList ++ r := by
    have : unlines (whileParsing e :: location e :: kept) = whileParsing e ++ '\n' :: unlines (location e :: kept) := by
      show whileParsing e ++ ['\n'] ++ unlines (location e :: kept) = _
      rw [List.append_assoc]
      rfl
    rw [this]
    unfold whileParsing
    rw [List.append_assoc, List.append_assoc]
    exact ⟨_, rfl⟩
  obtain ⟨r, hr⟩ := hu
  rw [hr, List.map_append, List.map_append (l₁ := "While parsing a \"".toList), hp]
  generalize "while parsing".toList = w
  generalize " a \"".toList = w'
  refine ⟨List.map Char.toLower ("Warning: ".toList ++ Indent.unindentCode msg true ++ ['\n']), w' ++ r.map Char.toLower, ?_⟩
  simp only [List.append_assoc]

example : formatMessage ⟨"class".toList, none, ⟨1, 1⟩, "class A;".toList⟩ (exceptionText el "Not supported".toList) =
    "Warning: Warning: Not supported\nWhile parsing a \"function_decl\", corresponding to this C++ code:\na.h:3:5\n        void f();\n        ^\n".toList := by
  decide +kernel

/-- C112, the full statement for the place: every message says where the element is. -/
def C112_place_statement : Prop := ∀ (e : Elem) (msg : Str), contains (formatMessage e msg) (location e) = true

/-- C112: it fails for a message that has the words "while parsing", in any letters. -/
theorem C112_place_fails : ¬ C112_place_statement := by
  intro h
  have := h el "Type Error while parsing".toList
  revert this
  decide +kernel

/-! ### Which warnings are printed -/

/-- C112: a warning is printed when warnings are not all discarded, its type is not ignored and its message has none of the parts that are ignored. -/
theorem C112_printed (o : Options) (m t : Str) : (printed o m t).isSome = true ↔ o.quiet = false ∧ t ∉ o.ignored ∧ ∀ p ∈ o.parts, ∀ a b, m ≠ a ++ p ++ b := by
  have hp : o.parts.any (fun p => contains m p) = true ↔ ∃ p ∈ o.parts, ∃ a b, m = a ++ p ++ b := by
    rw [List.any_eq_true]
    constructor
    · rintro ⟨p, h1, h2⟩; exact ⟨p, h1, (contains_iff m p).1 h2⟩
    · rintro ⟨p, h1, h2⟩; exact ⟨p, h1, (contains_iff m p).2 h2⟩
  unfold printed
  by_cases h1 : o.quiet = true
  · rw [if_pos h1]
    exact ⟨fun h => absurd h Bool.false_ne_true, fun h => absurd (h.1.symm.trans h1) Bool.false_ne_true⟩
  rw [if_neg h1]
  by_cases h2 : t ∈ o.ignored
  · rw [if_pos h2]
    exact ⟨fun h => absurd h Bool.false_ne_true, fun h => absurd h2 h.2.1⟩
  rw [if_neg h2]
  by_cases h3 : o.parts.any (fun p => contains m p) = true
  · rw [if_pos h3]
    refine ⟨fun h => absurd h Bool.false_ne_true, fun h => ?_⟩
    obtain ⟨p, hp1, a, b, hab⟩ := hp.1 h3
    exact absurd hab (h.2.2 p hp1 a b)
  · rw [if_neg h3]
    exact ⟨fun _ => ⟨by simpa using h1, h2, fun p hp1 a b hab => h3 (hp.2 ⟨p, hp1, a, b, hab⟩)⟩, fun _ => rfl⟩

/-- C112, the full statement for the text: `Warning`, the type of the warning once, and the message. -/
def C112_type_statement : Prop := ∀ (o : Options) (c e : Elem) (msg t text : Str), reported o c e msg t = some text →
  ∃ body, text = "Warning: (".toList ++ t ++ ") ".toList ++ body ∧ contains body ("(".toList ++ t ++ ")".toList) = false

/-- C112: it fails for the exceptions that are reported as warnings: their text already begins with `Warning: `, so that both words are printed twice. -/
theorem C112_type_fails : ¬ C112_type_statement ∧ reported ⟨false, [], []⟩ el el "Not supported".toList "LitgenBlockElementException".toList =
    some ("Warning: (LitgenBlockElementException) Warning: (LitgenBlockElementException) Not supported\n" ++
      "While parsing a \"function_decl\", corresponding to this C++ code:\na.h:3:5\n        void f();\n        ^\n").toList := by
  constructor
  · intro h
    obtain ⟨body, h1, h2⟩ := h ⟨false, [], []⟩ el el "x".toList "T".toList _ rfl
    have e : body = "Warning: (T) x\nWhile parsing a \"function_decl\", corresponding to this C++ code:\na.h:3:5\n        void f();\n        ^\n".toList := by
      refine List.append_cancel_left (as := "Warning: (".toList ++ "T".toList ++ ") ".toList) (h1.symm.trans ?_)
      decide +kernel
    rw [e] at h2
    revert h2
    decide +kernel
  · decide +kernel

/-- C112: the text of a warning whose message does not have the word `Warning: ` itself. -/
theorem C112_type_partial (o : Options) (body t text : Str) (h : printed o ("Warning: ".toList ++ body) t = some text)
    (hb : contains body "Warning: ".toList = false) : text = "Warning: ".toList ++ ("(".toList ++ t ++ ") ".toList) ++ body := by
  unfold printed at h
  split at h
  · cases h
  split at h
  · cases h
  split at h
  · cases h
  · rw [← Option.some.inj h, replace_match (by decide), replace_of_not_contains hb]

/-- C112, the full statement for the parts: a warning is discarded by any part of the text that is printed for it. -/
def C112_parts_statement : Prop := ∀ (o : Options) (m t part text : Str), printed o m t = some text → contains text part = true →
  printed { o with parts := part :: o.parts } m t = none

/-- C112: it fails for the type of the warning, which is written in the text after the parts were searched. -/
theorem C112_parts_fails : ¬ C112_parts_statement := by
  intro h
  have := h ⟨false, [], []⟩ "Warning: Not supported".toList "LitgenIgnoreElement".toList "(LitgenIgnoreElement)".toList _ rfl (by decide +kernel)
  revert this
  decide +kernel

/-- C112: it holds for the parts of the message itself, and adding parts never prints more. -/
theorem C112_parts_partial (o : Options) (m t part : Str) (h : contains m part = true ∨ printed o m t = none) :
    printed { o with parts := part :: o.parts } m t = none := by
  unfold printed at h ⊢
  by_cases h1 : o.quiet = true
  · rw [if_pos h1]
  rw [if_neg h1] at h ⊢
  by_cases h2 : t ∈ o.ignored
  · exact if_pos h2
  rw [if_neg h2] at h ⊢
  have e : (part :: o.parts).any (fun p => contains m p) = (contains m part || o.parts.any (fun p => contains m p)) := rfl
  rcases h with h | h
  · exact if_pos (by rw [e, h]; rfl)
  · by_cases h3 : o.parts.any (fun p => contains m p) = true
    · exact if_pos (by rw [e, h3, Bool.or_true])
    · rw [if_neg h3] at h; cases h

example : printed ⟨false, ["A".toList], ["x y".toList]⟩ "Warning: x z".toList "B".toList = some "Warning: (B) x z".toList ∧
    printed ⟨false, ["A".toList], ["x y".toList]⟩ "Warning: x y".toList "B".toList = none ∧
    printed ⟨false, ["A".toList], ["x y".toList]⟩ "Warning: x z".toList "A".toList = none := by decide +kernel

end Verif.Warn.Props
