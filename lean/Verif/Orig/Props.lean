import Verif.Orig.Model
import Verif.Lines.Props
import Verif.Indent.Lemmas

/-! C119: the original code, the frames and the texts of the generated files. -/

namespace Verif.Orig.Props
open Verif.Py Verif.Orig

theorem mem_unlines {l : Str} {c : Char} : ∀ {ls : List Str}, l ∈ ls → c ∈ l → c ∈ unlines ls
  | [], h, _ => by cases h
  | [m], h, hc => by
    rw [List.mem_singleton.1 h] at hc; exact hc
  | m :: k :: ls, h, hc => by
    rw [unlines, join_cons_cons]
    rcases List.mem_cons.1 h with e | e
    · rw [e] at hc; simp [hc]
    · have := mem_unlines (ls := k :: ls) e hc
      rw [unlines] at this
      simp [this]

theorem of_mem_unlines {c : Char} : ∀ {ls : List Str}, c ∈ unlines ls → c = '\n' ∨ ∃ l ∈ ls, c ∈ l
  | [], h => by cases h
  | [m], h => Or.inr ⟨m, by simp, h⟩
  | m :: k :: ls, h => by
    rw [unlines, join_cons_cons] at h
    rcases List.mem_append.1 h with h | h
    · rcases List.mem_append.1 h with h | h
      · exact Or.inr ⟨m, by simp, h⟩
      · exact Or.inl (List.mem_singleton.1 h)
    · rcases of_mem_unlines (ls := k :: ls) h with e | ⟨l, hl, e⟩
      · exact Or.inl e
      · exact Or.inr ⟨l, List.mem_cons_of_mem _ hl, e⟩

/-! ### The original code -/

/-- C119: nothing is shown exactly when the option is off or the code is white space. -/
theorem C119_original_none (shown : Bool) (code : Str) :
    originalLines shown code = [] ↔ shown = false ∨ ∀ c ∈ code, isSpace c = true := by
  obtain ⟨a, kept, b, h1, h2, h3, h4, h5, h6⟩ := Lines.C02_strip_empty_lines code
  have hcode : (∀ c ∈ code, isSpace c = true) ↔ kept = [] := by
    constructor
    · intro h
      cases kept with
      | nil => rfl
      | cons k ks =>
        exfalso
        refine h5 k (by simp) (fun c hc => h c ?_)
        have hk : k ∈ lines code := by rw [h1]; simp
        have := unlines_lines code
        rw [← this]
        exact mem_unlines hk hc
    · intro h c hc
      rw [h, List.append_nil] at h1
      rw [← unlines_lines code, h1] at hc
      rcases of_mem_unlines hc with e | ⟨l, hl, e⟩
      · rw [e]; decide
      · rcases List.mem_append.1 hl with h | h
        · exact h3 l h c e
        · exact h4 l h c e
  cases shown with
  | false => simp [originalLines]
  | true =>
    rw [hcode]
    simp only [originalLines, h2]
    cases kept with
    | nil => simp [unlines]
    | cons k ks =>
      have hne : unlines (k :: ks) ≠ [] := by
        intro e
        have hk : k = [] := by
          cases ks with
          | nil => exact e
          | cons k' ks => rw [unlines, join_cons_cons] at e; simp at e
        exact h5 k (by simp) (by rw [hk]; intro c hc; cases hc)
      have hlen : (unlines (k :: ks)).length ≠ 0 := by simpa using hne
      have : lines (unlines (k :: ks)) ≠ [] := lines_ne_nil _
      cases hl : lines (unlines (k :: ks)) with
      | nil => exact absurd hl this
      | cons x xs => simp [hne, hl]

/-- C119: otherwise the lines from the first to the last that are not blank are shown, in order and each as a comment, with the mark at the end
of the first one. -/
theorem C119_original (code : Str) (h : ∃ c ∈ code, isSpace c = false) :
    ∃ before first others after, lines code = before ++ (first :: others) ++ after ∧
      (∀ l ∈ before, ∀ c ∈ l, isSpace c = true) ∧ (∀ l ∈ after, ∀ c ∈ l, isSpace c = true) ∧
      (∃ c ∈ first, isSpace c = false) ∧ (∀ l ∈ others.getLast?, ∃ c ∈ l, isSpace c = false) ∧
      originalLines true code =
        ("# ".toList ++ first ++ "    /* original C++ signature */".toList) :: others.map (fun l => "# ".toList ++ l) := by
  obtain ⟨a, kept, b, h1, h2, h3, h4, h5, h6⟩ := Lines.C02_strip_empty_lines code
  have hn : originalLines true code ≠ [] := by
    intro e
    rcases (C119_original_none true code).1 e with h' | h'
    · cases h'
    · obtain ⟨c, hc, hs⟩ := h
      rw [h' c hc] at hs; cases hs
  have notBlank : ∀ l : Str, ¬ Lines.Spec.Blank l → ∃ c ∈ l, isSpace c = false := by
    intro l hl
    simp only [Lines.Spec.Blank] at hl
    by_cases hex : ∃ c ∈ l, isSpace c = false
    · exact hex
    · exfalso; apply hl
      intro c hc
      cases hs : isSpace c with
      | true => rfl
      | false => exact absurd ⟨c, hc, hs⟩ hex
  cases kept with
  | nil =>
    exfalso; apply hn
    simp only [originalLines, h2]
    rfl
  | cons k ks =>
    refine ⟨a, k, ks, b, h1, h3, h4, notBlank k (h5 k (by simp)), ?_, ?_⟩
    · intro l hl
      apply notBlank
      apply h6 l
      cases ks with
      | nil => simp at hl
      | cons k' ks => simpa [List.getLast?_cons_cons] using hl
    · have hl : lines (unlines (k :: ks)) = k :: ks :=
        lines_unlines (by simp) (fun l hl => not_mem_of_mem_lines (s := code) (by
          rw [h1]; exact List.mem_append_left _ (List.mem_append_right _ hl)))
      have hlen : ¬ (unlines (k :: ks)).length = 0 := by
        intro e
        apply hn
        simp only [originalLines, h2]
        rw [if_pos e]; rfl
      simp only [originalLines, h2]
      rw [if_neg hlen, hl]
      rfl

example : originalLines true "\n  int f(\n\n    int a);\n \n".toList =
    ["#   int f(    /* original C++ signature */".toList, "# ".toList, "#     int a);".toList] := by decide +kernel

/-- C119: whatever the code, each line that is shown is a comment, and is one line. -/
theorem C119_original_comments (shown : Bool) (code l : Str) (h : l ∈ originalLines shown code) :
    "# ".toList <+: l ∧ '\n' ∉ l := by
  cases shown with
  | false => simp [originalLines] at h
  | true =>
    by_cases hc : ∃ c ∈ code, isSpace c = false
    · obtain ⟨a, first, others, b, h1, _, _, _, _, h2⟩ := C119_original code hc
      have hl : ∀ x ∈ first :: others, '\n' ∉ x := fun x hx =>
        not_mem_of_mem_lines (s := code) (by rw [h1]; exact List.mem_append_left _ (List.mem_append_right _ hx))
      rw [h2] at h
      rcases List.mem_cons.1 h with e | e
      · rw [e]
        refine ⟨⟨first ++ "    /* original C++ signature */".toList, by rw [List.append_assoc]⟩, ?_⟩
        intro hm
        rcases List.mem_append.1 hm with hm | hm
        · rcases List.mem_append.1 hm with hm | hm
          · revert hm; decide +kernel
          · exact hl first (List.mem_cons_self ..) hm
        · revert hm; decide +kernel
      · obtain ⟨x, hx, e⟩ := List.mem_map.1 e
        rw [← e]
        refine ⟨⟨x, rfl⟩, ?_⟩
        intro hm
        rcases List.mem_append.1 hm with hm | hm
        · revert hm; decide +kernel
        · exact hl x (List.mem_cons_of_mem _ hx) hm
    · have : originalLines true code = [] := (C119_original_none true code).2 (Or.inr (fun c hm => by
        cases hs : isSpace c with
        | true => rfl
        | false => exact absurd ⟨c, hm, hs⟩ hc))
      rw [this] at h; cases h

/-! ### The frame -/

theorem removeTrailing_last {l : Str} {c : Char} (h : c ≠ ' ') : Indent.removeTrailingSpaces (l ++ [c]) = l ++ [c] :=
  Indent.removeTrailing_eq_self (by simpa using h)

theorem frame_lines {x y : Str} {c d : Char} (hx : '\n' ∉ x) (hy : '\n' ∉ y) (hc : c ≠ ' ') (hd : d ≠ ' ')
    (hcs : isSpace c = false) (hds : isSpace d = false) :
    lines (Indent.unindentCode
      (['\n'] ++ (spaces 4 ++ ('#' :: x ++ [c])) ++ ['\n'] ++ (spaces 4 ++ ('#' :: y ++ [d])) ++ ['\n'] ++ spaces 4) true) =
      ['#' :: x ++ [c], '#' :: y ++ [d]] := by
  have hcn : c ≠ '\n' := by intro e; rw [e] at hcs; revert hcs; decide
  have hdn : d ≠ '\n' := by intro e; rw [e] at hds; revert hds; decide
  have hu : ['\n'] ++ (spaces 4 ++ ('#' :: x ++ [c])) ++ ['\n'] ++ (spaces 4 ++ ('#' :: y ++ [d])) ++ ['\n'] ++ spaces 4 =
      unlines [[], spaces 4 ++ ('#' :: x ++ [c]), spaces 4 ++ ('#' :: y ++ [d]), spaces 4] := by
    simp [unlines, join_cons_cons]
  have n1 : '\n' ∉ spaces 4 ++ ('#' :: x ++ [c]) := by
    simp [Indent.nl_not_mem_spaces, hx, hcn.symm]
  have n2 : '\n' ∉ spaces 4 ++ ('#' :: y ++ [d]) := by
    simp [Indent.nl_not_mem_spaces, hy, hdn.symm]
  have hlines : lines (unlines [[], spaces 4 ++ ('#' :: x ++ [c]), spaces 4 ++ ('#' :: y ++ [d]), spaces 4]) =
      [[], spaces 4 ++ ('#' :: x ++ [c]), spaces 4 ++ ('#' :: y ++ [d]), spaces 4] := by
    apply lines_unlines (by simp)
    intro l hl
    simp only [List.mem_cons, List.not_mem_nil, or_false] at hl
    rcases hl with e | e | e | e
    · rw [e]; simp
    · rw [e]; exact n1
    · rw [e]; exact n2
    · rw [e]; exact Indent.nl_not_mem_spaces 4
  have hsize : Indent.indentSizeOfLines [[], spaces 4 ++ ('#' :: x ++ [c]), spaces 4 ++ ('#' :: y ++ [d]), spaces 4] = 4 := by
    have hne : ¬ (replace (spaces 4 ++ ('#' :: x ++ [c])) [' '] []).length = 0 := by
      rw [Indent.replace_space_length]
      intro h
      exact absurd (h '#' (by simp)) (by decide)
    rw [Indent.indentSizeOfLines, if_pos (by rfl), Indent.indentSizeOfLines, if_neg hne]
    exact Indent.count_append_spaces 4 _ (by simp)
  have hun : ∀ z : Str, ∀ e : Char, e ≠ ' ' → Indent.unindentLine 4 (spaces 4 ++ ('#' :: z ++ [e])) = '#' :: z ++ [e] := by
    intro z e he
    rw [Indent.unindentLine, if_pos ((Indent.startsWith_spaces_iff _ _).2 ⟨_, rfl⟩)]
    have : (spaces 4 ++ ('#' :: z ++ [e])).drop 4 = ('#' :: z) ++ [e] := by
      rw [List.drop_left' (by simp)]
    rw [this]
    exact removeTrailing_last he
  have e1 : Indent.unindentLine 4 [] = [] := by decide +kernel
  have e2 : Indent.unindentLine 4 (spaces 4) = [] := by decide +kernel
  rw [hu, Indent.unindentCode, if_pos rfl, Indent.computeCodeIndentSize, hlines, hsize]
  simp only [List.map_cons, List.map_nil]
  rw [hun x c hc, hun y d hd, e1, e2, Lines.stripEmptyLines]
  have m1 : '\n' ∉ '#' :: x ++ [c] := by simp [hx, hcn.symm]
  have m2 : '\n' ∉ '#' :: y ++ [d] := by simp [hy, hdn.symm]
  have hlines2 : lines (unlines [[], '#' :: x ++ [c], '#' :: y ++ [d], []]) = [[], '#' :: x ++ [c], '#' :: y ++ [d], []] := by
    apply lines_unlines (by simp)
    intro l hl
    simp only [List.mem_cons, List.not_mem_nil, or_false] at hl
    rcases hl with e | e | e | e
    · rw [e]; simp
    · rw [e]; exact m1
    · rw [e]; exact m2
    · rw [e]; simp
  have blankF : ∀ z : Str, isBlank ('#' :: z) = false := by
    intro z
    cases h : isBlank ('#' :: z) with
    | false => rfl
    | true => exact absurd ((isBlank_iff _).1 h '#' (by simp)) (by decide)
  have blankT : isBlank [] = true := rfl
  have hstrip : Lines.stripEmptyLinesInList [[], '#' :: x ++ [c], '#' :: y ++ [d], []] = ['#' :: x ++ [c], '#' :: y ++ [d]] := by
    have b1 := blankF (x ++ [c])
    have b2 := blankF (y ++ [d])
    simp [Lines.stripEmptyLinesInList, List.dropWhile, blankT, b1, b2]
  rw [hlines2, hstrip]
  apply lines_unlines (by simp)
  intro l hl
  simp only [List.mem_cons, List.not_mem_nil, or_false] at hl
  rcases hl with e | e
  · rw [e]; exact m1
  · rw [e]; exact m2

/-- The two lines of the frame that hold the message, and its rule. -/
def opening (message : Str) : Str := "#      <".toList ++ message ++ ">".toList
def closing (message : Str) : Str := "#      </".toList ++ message ++ ">".toList
def dashes : Str := "#  ------------------------------------------------------------------------".toList

theorem dashes_eq : dashes = '#' :: ([' ', ' '] ++ List.replicate 71 '-') ++ ['-'] := by decide +kernel
theorem rule_eq : rule = '#' :: ([' ', ' '] ++ List.replicate 71 '-') ++ ['-'] := by decide +kernel

/-- Full statement: whatever the message, the code is surrounded by comments. -/
def C119_frame_statement : Prop :=
  ∀ (code : List Str) (message : Str), ∃ a b, surround code message = a ++ code ++ b ∧
    (∀ l ∈ a, ['#'] <+: l) ∧ (∀ l ∈ b, ['#'] <+: l)

/-- C119: for a message of one line, the frame is the rule and the message, the code as it is, the message and the rule. -/
theorem C119_frame_partial (code : List Str) (message : Str) (h : '\n' ∉ message) :
    surround code message = [dashes, opening message] ++ code ++ [closing message, dashes] := by
  have d1 : '\n' ∉ ([' ', ' '] ++ List.replicate 71 '-') := by decide +kernel
  have hi : intro message = [dashes, opening message] := by
    have := frame_lines (x := [' ', ' '] ++ List.replicate 71 '-') (y := spaces 6 ++ ['<'] ++ message) (c := '-') (d := '>')
      d1 (by simp [Indent.nl_not_mem_spaces, h]) (by decide) (by decide) (by decide) (by decide)
    rw [dashes_eq]
    have ho : opening message = '#' :: (spaces 6 ++ ['<'] ++ message) ++ ['>'] := rfl
    rw [ho, ← this, intro, rule_eq]
    refine congrArg (fun s => lines (Indent.unindentCode s true)) ?_
    generalize [' ', ' '] ++ List.replicate 71 '-' = q
    simp only [List.append_assoc, List.cons_append, List.nil_append]
  have ho : outro message = [closing message, dashes] := by
    have := frame_lines (x := spaces 6 ++ ['<', '/'] ++ message) (y := [' ', ' '] ++ List.replicate 71 '-') (c := '>') (d := '-')
      (by simp [Indent.nl_not_mem_spaces, h]) d1 (by decide) (by decide) (by decide) (by decide)
    rw [dashes_eq]
    have ho : closing message = '#' :: (spaces 6 ++ ['<', '/'] ++ message) ++ ['>'] := rfl
    rw [ho, ← this, outro, rule_eq]
    refine congrArg (fun s => lines (Indent.unindentCode s true)) ?_
    generalize [' ', ' '] ++ List.replicate 71 '-' = q
    simp only [List.append_assoc, List.cons_append, List.nil_append]
  rw [surround, hi, ho]

example : '\n' ∉ "template specializations for function f".toList ∧
    surround ["def f() -> None: ...".toList] "template specializations for function f".toList =
      [dashes, "#      <template specializations for function f>".toList, "def f() -> None: ...".toList,
       "#      </template specializations for function f>".toList, dashes] := by decide +kernel

/-- C119: the full statement is false: the second line of a message is not in a comment. -/
theorem C119_frame_fails : ¬ C119_frame_statement := by
  intro h
  obtain ⟨a, b, h1, h2, h3⟩ := h [] "f\ng".toList
  have hm : "g>".toList ∈ surround [] "f\ng".toList := by decide +kernel
  rw [h1, List.append_nil] at hm
  rcases List.mem_append.1 hm with hm | hm
  · exact absurd (h2 _ hm) (by decide +kernel)
  · exact absurd (h3 _ hm) (by decide +kernel)

/-! ### The specializations of a template -/

/-- What a reader expects: the blocks one after the other, with `n` empty lines between two of them. -/
def separated (n : Nat) : List (List Str) → List Str
  | [] => []
  | [b] => b
  | b :: c :: bs => b ++ List.replicate n [] ++ separated n (c :: bs)

theorem gather_cons (n : Nat) : ∀ (bs : List (List Str)) (r : List Str), r ≠ [] → gather n r bs = separated n (r :: bs)
  | [], r, _ => rfl
  | b :: bs, r, h => by
    have hl : r.length > 0 := List.length_pos_iff.2 h
    rw [gather, if_pos hl, gather_cons n bs _ (by simp [h])]
    cases bs with
    | nil => rfl
    | cons c bs => simp [separated]

/-- C119: the stubs of the instantiations are one after the other with `n` empty lines between two of them, from the first that has lines. -/
theorem C119_gather (n : Nat) (bs : List (List Str)) : gather n [] bs = separated n (bs.dropWhile (fun b => b.isEmpty)) := by
  induction bs with
  | nil => rfl
  | cons b bs ih =>
    cases b with
    | nil => rw [gather]; simpa using ih
    | cons l ls =>
      rw [gather]
      simp only [List.length_nil, Nat.lt_irrefl, gt_iff_lt, if_false, List.nil_append]
      rw [gather_cons n bs _ (by simp)]
      simp

example : gather 1 [] [[], ["a".toList, "b".toList], [], ["c".toList]] =
    ["a".toList, "b".toList, [], [], "c".toList] := by decide +kernel

/-- C119: the stub of a template function: nothing without instantiations; one empty line between methods, two between functions; the frame
names the function. -/
theorem C119_template_function (isMethod decorate : Bool) (name : Str) (bs : List (List Str)) (hn : '\n' ∉ name)
    (hb : ∀ b ∈ bs, b ≠ []) :
    templateFunctionStub isMethod decorate name bs =
      if bs = [] then []
      else
        let r := separated (if isMethod then 1 else 2) bs
        if decorate then
          [dashes, opening ("template specializations for function ".toList ++ name)] ++ r ++
            [closing ("template specializations for function ".toList ++ name), dashes]
        else r := by
  have hd : bs.dropWhile (fun b => b.isEmpty) = bs := by
    cases bs with
    | nil => rfl
    | cons b bs =>
      have := hb b (List.mem_cons_self ..)
      cases b with
      | nil => exact absurd rfl this
      | cons _ _ => rfl
  have hm : '\n' ∉ "template specializations for function ".toList ++ name := by
    intro h
    rcases List.mem_append.1 h with h | h
    · revert h; decide +kernel
    · exact hn h
  cases bs with
  | nil => rfl
  | cons b bs =>
    have hp : ¬ b :: bs = [] := fun e => List.cons_ne_nil _ _ e
    have hl : ¬ (b :: bs).length = 0 := fun e => by cases e
    rw [if_neg hp, templateFunctionStub, if_neg hl, C119_gather, hd]
    generalize "template specializations for function ".toList ++ name = message at hm ⊢
    cases decorate with
    | false => simp only [Bool.false_eq_true, if_false]
    | true =>
      simp only [if_true]
      exact C119_frame_partial _ _ hm

/-- C119: the stub of a template class: the classes with two empty lines between them, then the synonyms, each between two empty lines. -/
theorem C119_template_class (decorate : Bool) (name : Str) (bs : List (List Str)) (synonyms : List Str) (hn : '\n' ∉ name)
    (hb : ∀ b ∈ bs, b ≠ []) :
    templateClassStub decorate name bs synonyms =
      if bs = [] then []
      else
        let r := separated 2 bs ++ synonyms.flatMap (fun s => [[], s, []])
        if decorate then
          [dashes, opening ("template specializations for class ".toList ++ name)] ++ r ++
            [closing ("template specializations for class ".toList ++ name), dashes]
        else r := by
  have hd : bs.dropWhile (fun b => b.isEmpty) = bs := by
    cases bs with
    | nil => rfl
    | cons b bs =>
      have := hb b (List.mem_cons_self ..)
      cases b with
      | nil => exact absurd rfl this
      | cons _ _ => rfl
  have hm : '\n' ∉ "template specializations for class ".toList ++ name := by
    intro h
    rcases List.mem_append.1 h with h | h
    · revert h; decide +kernel
    · exact hn h
  cases bs with
  | nil => rfl
  | cons b bs =>
    have hp : ¬ b :: bs = [] := fun e => List.cons_ne_nil _ _ e
    have hl : ¬ (b :: bs).length = 0 := fun e => by cases e
    rw [if_neg hp, templateClassStub, if_neg hl, C119_gather, hd]
    generalize "template specializations for class ".toList ++ name = message at hm ⊢
    cases decorate with
    | false => simp only [Bool.false_eq_true, if_false]
    | true =>
      simp only [if_true]
      exact C119_frame_partial _ _ hm

example : templateFunctionStub true true "f".toList [["a".toList], ["b".toList]] =
    [dashes, "#      <template specializations for function f>".toList, "a".toList, [], "b".toList,
     "#      </template specializations for function f>".toList, dashes] ∧
    templateClassStub false "K".toList [["a".toList], ["b".toList]] ["s".toList] =
      ["a".toList, [], [], "b".toList, [], "s".toList, []] := by decide +kernel

/-! ### The texts -/

/-- C119: the lines of the two texts are the lines that were given; only the bindings end with the end of a line. -/
theorem C119_texts (ls : List Str) (hne : ls ≠ []) (h : ∀ l ∈ ls, '\n' ∉ l) :
    lines (strStub ls) = ls ∧ lines (strPydef ls) = ls ++ [[]] := by
  have hl : ¬ ls.length = 0 := by simpa using hne
  refine ⟨by rw [strStub, if_neg hl, lines_unlines hne h], ?_⟩
  have : unlines ls ++ ['\n'] = unlines (ls ++ [[]]) := by
    clear h hl
    induction ls with
    | nil => exact absurd rfl hne
    | cons l ls ih =>
      cases ls with
      | nil => simp [unlines, join_cons_cons]
      | cons m ls =>
        have := ih (by simp)
        simp only [unlines, List.cons_append, join_cons_cons] at this ⊢
        rw [List.append_assoc, this]
  rw [strPydef, if_neg hl, this]
  apply lines_unlines (by simp)
  intro l hm
  rcases List.mem_append.1 hm with hm | hm
  · exact h l hm
  · rw [List.mem_singleton.1 hm]; simp

/-- C119: no line gives no text. -/
theorem C119_texts_empty : strStub [] = [] ∧ strPydef [] = [] := ⟨rfl, rfl⟩

example : strStub ["a".toList, "b".toList] = "a\nb".toList ∧ strPydef ["a".toList, "b".toList] = "a\nb\n".toList := by decide +kernel

end Verif.Orig.Props
