import Verif.Enums.Spec
import Verif.Keyword.Props
import Verif.Comment.Lemmas
import Verif.Indent.Lemmas
import Verif.Name.Props

/-! Lemmas for the binding of enumerations. -/

namespace Verif.Enums
open Verif.Py Verif.Name Spec

theorem mem_rstrip {c : Char} {s : Str} (h : c ∈ rstrip s) : c ∈ s := by
  obtain ⟨w, e, _⟩ := rstrip_decomp s
  rw [e]; exact List.mem_append_left _ h

theorem lines_indentAll (code : Str) (k : Nat) (s : Str) (hs : '\n' ∉ s) :
    lines (Indent.indentAll code k (some s) true) = (lines code).map (Indent.indentLine s true) := by
  unfold Indent.indentAll
  simp only
  rw [lines_unlines (by simpa using lines_ne_nil code)]
  intro l hl
  obtain ⟨x, hx, rfl⟩ := List.mem_map.1 hl
  have hxn := not_mem_of_mem_lines hx
  unfold Indent.indentLine
  split
  · simp
  · rw [if_pos rfl]
    intro h
    rcases List.mem_append.1 h with h | h
    · exact hs h
    · exact hxn (mem_rstrip h)

theorem indentLines (ls : List Str) (s : Str) (hs : '\n' ∉ s) (hne : ls ≠ []) (hl : ∀ l ∈ ls, '\n' ∉ l) :
    Indent.indentCodeLines ls 1 false (some s) = ls.map (Indent.indentLine s true) := by
  unfold Indent.indentCodeLines
  show lines (Indent.indentAll (unlines ls) 1 (some s) true) = _
  rw [lines_indentAll _ _ _ hs, lines_unlines hne hl]

theorem indentLines_nil (s : Str) (hs : '\n' ∉ s) : Indent.indentCodeLines [] 1 false (some s) = [[]] := by
  unfold Indent.indentCodeLines
  show lines (Indent.indentAll [] 1 (some s) true) = _
  rw [lines_indentAll _ _ _ hs]; rfl

theorem indentLines_skip (f : Str) (ls : List Str) (s : Str) (hs : '\n' ∉ s) (hne : ls ≠ []) (hl : ∀ l ∈ f :: ls, '\n' ∉ l) :
    Indent.indentCodeLines (f :: ls) 1 true (some s) = rstrip f :: ls.map (Indent.indentLine s true) := by
  have hls : ∀ l ∈ ls, '\n' ∉ l := fun l h => hl l (List.mem_cons_of_mem _ h)
  unfold Indent.indentCodeLines Indent.indentCode
  rw [if_pos rfl, lines_unlines (by simp) hl]
  cases ls with
  | nil => exact absurd rfl hne
  | cons a ls =>
    simp only
    rw [if_pos trivial, List.append_assoc]
    show lines (rstrip f ++ '\n' :: Indent.indentAll (unlines (a :: ls)) 1 (some s) true) = _
    have hf : '\n' ∉ rstrip f := fun h => hl f (by simp) (mem_rstrip h)
    rw [show lines (rstrip f ++ '\n' :: Indent.indentAll (unlines (a :: ls)) 1 (some s) true) =
      rstrip f :: lines (Indent.indentAll (unlines (a :: ls)) 1 (some s) true) from splitOn_append_sep hf _]
    rw [lines_indentAll _ _ _ hs, lines_unlines (by simp) hls]

/-! ### Adding the semicolon -/

theorem scan_free (a rest : Str) (h : ∀ c ∈ a, c ≠ '"' ∧ c ≠ '/') : ∀ (b : Bool) (last : Option Char) (i : Nat), last ≠ some '/' → last ≠ some '\\' →
    (∀ c ∈ a, c ≠ '\\') →
    ∃ last', Comment.cppScan b last i (a ++ rest) = Comment.cppScan b last' (i + a.length) rest ∧ last' ≠ some '/' ∧ last' ≠ some '\\' := by
  induction a with
  | nil => intro b last i h1 h2 _; exact ⟨last, rfl, h1, h2⟩
  | cons c a ih =>
    intro b last i h1 h2 h3
    obtain ⟨l', e, h4⟩ := ih (fun x hx => h x (List.mem_cons_of_mem _ hx)) b (some c) (i + 1)
      (by simpa using (h c (by simp)).2) (by simpa using h3 c (by simp)) (fun x hx => h3 x (List.mem_cons_of_mem _ hx))
    refine ⟨l', ?_, h4⟩
    rw [List.cons_append, Comment.cppScan, if_neg (by rintro ⟨e, _⟩; exact (h c (by simp)).2 e)]
    have ht : Comment.cppToggle b last c = b := by
      unfold Comment.cppToggle; rw [if_neg (by rintro ⟨e, _⟩; exact (h c (by simp)).1 e)]
    rw [ht, e, List.length_cons, Nat.add_assoc, Nat.add_comm 1]

/-- Inside a literal nothing is a comment. -/
theorem scan_body (es : List Escape.Spec.Elem) (h : ∀ e ∈ es, e.WF) (rest : Str)
    (hr : ∀ last i, Comment.cppScan true last i rest = none) : ∀ (last : Option Char) (i : Nat),
    Comment.cppScan true last i (Escape.Spec.text es ++ rest) = none := by
  induction es with
  | nil => exact hr
  | cons e es ih =>
    intro last i
    have ih := ih (fun x hx => h x (List.mem_cons_of_mem _ hx))
    have hw := h e (by simp)
    cases e with
    | ordinary c =>
      show Comment.cppScan true last i (c :: (Escape.Spec.text es ++ rest)) = none
      have ht : Comment.cppToggle true last c = true := by
        unfold Comment.cppToggle; rw [if_neg (by rintro ⟨e, _⟩; exact hw.1 e)]
      rw [Comment.cppScan, ht, if_neg (by simp)]
      exact ih _ _
    | escape c =>
      show Comment.cppScan true last i ('\\' :: c :: (Escape.Spec.text es ++ rest)) = none
      have ht : Comment.cppToggle true last '\\' = true := by
        unfold Comment.cppToggle; rw [if_neg (by rintro ⟨e, _⟩; exact absurd e (by decide))]
      have ht2 : Comment.cppToggle true (some '\\') c = true := by
        unfold Comment.cppToggle; rw [if_neg (by rintro ⟨_, e⟩; exact e rfl)]
      rw [Comment.cppScan, ht, if_neg (by simp), Comment.cppScan, ht2, if_neg (by simp)]
      exact ih _ _

theorem scan_close (b : Bool) (last : Option Char) (i : Nat) : Comment.cppScan b last i "\")".toList = none := by
  show Comment.cppScan b last i ['"', ')'] = none
  rw [Comment.cppScan, if_neg (by rintro ⟨e, _⟩; exact absurd e (by decide)), Comment.cppScan,
    if_neg (by rintro ⟨e, _⟩; exact absurd e (by decide)), Comment.cppScan]

def Plain (s : Str) : Prop := ∀ c ∈ s, c ≠ '"' ∧ c ≠ '/' ∧ c ≠ '\\' ∧ c ≠ '\n'

instance (s : Str) : Decidable (Plain s) := inferInstanceAs (Decidable (∀ c ∈ s, _))

theorem plain_append {a b : Str} (ha : Plain a) (hb : Plain b) : Plain (a ++ b) :=
  fun c hc => (List.mem_append.1 hc).elim (ha c) (hb c)

theorem plain_identifier {s : Str} (h : Keyword.Spec.Identifier s) : Plain s := by
  intro c hc
  have h1 := h.2 c hc
  refine ⟨?_, ?_, ?_, ?_⟩ <;> (rintro rfl; revert h1; unfold Keyword.Spec.Letter Keyword.Spec.Digit; decide)

theorem plain_join (ls : List Str) (h : ∀ l ∈ ls, Keyword.Spec.Identifier l) : Plain (join "::".toList ls) := by
  induction ls with
  | nil => intro c hc; simp [join] at hc
  | cons a ls ih =>
    cases ls with
    | nil => exact plain_identifier (h a (by simp))
    | cons b ls =>
      rw [join_cons_cons]
      exact plain_append (plain_append (plain_identifier (h a (by simp))) (by decide)) (ih (fun l hl => h l (List.mem_cons_of_mem _ hl)))

/-- No comment is seen in the line of an entry, so that the semicolon is put at its end. -/
theorem entry_scan (ind py cpp comment : Str) (hi : Plain ind) (hp : Plain py) (hc : Plain cpp) (hm : Escape.Spec.LiteralBody comment) :
    Comment.lineCppCommentPosition (ind ++ (Entry.mk py cpp comment).line) = none := by
  obtain ⟨es, hes, rfl⟩ := hm
  have f : ∀ {s : Str}, Plain s → ∀ c ∈ s, c ≠ '"' ∧ c ≠ '/' := fun h c hc => ⟨(h c hc).1, (h c hc).2.1⟩
  have g : ∀ {s : Str}, Plain s → ∀ c ∈ s, c ≠ '\\' := fun h c hc => (h c hc).2.2.1
  have e : ind ++ (Entry.mk py cpp (Escape.Spec.text es)).line =
      (ind ++ ".value(".toList) ++ ('"' :: (py ++ ('"' :: ((", ".toList ++ cpp ++ ", ".toList) ++ ('"' :: (Escape.Spec.text es ++ "\")".toList)))))) := by
    unfold Entry.line
    rw [show ".value(\"".toList = ".value(".toList ++ ['"'] from rfl, show "\", ".toList = '"' :: ", ".toList from rfl,
      show ", \"".toList = ", ".toList ++ ['"'] from rfl]
    simp only [List.append_assoc, List.cons_append, List.nil_append]
  have quote : ∀ (b : Bool) (last : Option Char) (i : Nat) (rest : Str), last ≠ some '\\' →
      Comment.cppScan b last i ('"' :: rest) = Comment.cppScan (!b) (some '"') (i + 1) rest := by
    intro b last i rest h
    rw [Comment.cppScan, if_neg (by rintro ⟨e, _⟩; exact absurd e (by decide))]
    have : Comment.cppToggle b last '"' = !b := by unfold Comment.cppToggle; rw [if_pos ⟨rfl, h⟩]
    rw [this]
  have p1 : Plain (ind ++ ".value(".toList) := plain_append hi (by decide)
  have p3 : Plain (", ".toList ++ cpp ++ ", ".toList) := plain_append (plain_append (by decide) hc) (by decide)
  unfold Comment.lineCppCommentPosition
  rw [e]
  obtain ⟨l1, e1, _, n1⟩ := scan_free _ ('"' :: (py ++ ('"' :: ((", ".toList ++ cpp ++ ", ".toList) ++ ('"' :: (Escape.Spec.text es ++ "\")".toList))))))
    (f p1) false none 0 (by simp) (by simp) (g p1)
  rw [e1, quote _ _ _ _ n1]
  obtain ⟨l2, e2, _, n2⟩ := scan_free _ ('"' :: ((", ".toList ++ cpp ++ ", ".toList) ++ ('"' :: (Escape.Spec.text es ++ "\")".toList))))
    (f hp) (!false) (some '"') (0 + (ind ++ ".value(".toList).length + 1) (by simp) (by simp) (g hp)
  rw [e2, quote _ _ _ _ n2]
  obtain ⟨l3, e3, _, n3⟩ := scan_free _ ('"' :: (Escape.Spec.text es ++ "\")".toList))
    (f p3) (!!false) (some '"') (0 + (ind ++ ".value(".toList).length + 1 + py.length + 1) (by simp) (by simp) (g p3)
  rw [e3, quote _ _ _ _ n3]
  exact scan_body es hes _ (scan_close true) _ _

theorem rstrip_of_last {l : Str} (h : ∀ c ∈ l.getLast?, isSpace c = false) : rstrip l = l := by
  rcases List.eq_nil_or_concat l with rfl | ⟨a, c, rfl⟩
  · rfl
  · rw [List.concat_eq_append] at h ⊢
    exact rstrip_append_of_not (h c (by simp))

theorem add_semicolon (l : Str) (hne : l ≠ []) (hnl : '\n' ∉ l) (hlast : ∀ c ∈ l.getLast?, isSpace c = false)
    (hpos : Comment.lineCppCommentPosition l = none) : Comment.addItemBeforeCppComment l ";".toList = l ++ ";".toList := by
  unfold Comment.addItemBeforeCppComment
  rw [if_neg (by simpa using hne), show lines l = [l] from splitOn_of_not_mem hnl]
  simp only [List.getLast?_singleton, List.dropLast_singleton, List.nil_append]
  show join ['\n'] [_] = _
  rw [show join ['\n'] [Comment.addTokenToLine ";".toList l] = Comment.addTokenToLine ";".toList l from rfl]
  unfold Comment.addTokenToLine Comment.lastCodePositionBeforeCppComment
  rw [hpos]
  simp only
  rw [rstrip_of_last hlast, List.take_length, List.drop_length, List.append_nil]

end Verif.Enums
