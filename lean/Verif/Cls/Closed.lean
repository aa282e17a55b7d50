import Verif.Fn.Brackets
import Verif.Indent.Lemmas
import Verif.Cls.Text

/-! Indentation does not change how brackets, strings and comments are read. -/

namespace Verif.Cls
open Verif.Py
open Fn.Spec (Mode readCode readAll Closed)

/-- The modes in which a line can begin. -/
def AtLine (m : Mode) : Prop := m = .code ∨ m = .block ∨ m = .str ∨ m = .chr

theorem space_ne {c d : Char} (h : isSpace c = true) (hd : isSpace d = false) : c ≠ d := by
  rintro rfl; rw [h] at hd; cases hd

theorem read_blank {m : Mode} (hm : AtLine m) {c : Char} (hc : isSpace c = true) (hn : c ≠ '\n') (st : List Char) : Fn.Spec.read m st c = some (m, st) := by
  rcases hm with rfl | rfl | rfl | rfl
  · exact Fn.Spec.readCode_space hc st
  · simp [Fn.Spec.read, space_ne hc (d := '*') (by decide)]
  · simp [Fn.Spec.read, hn, space_ne hc (d := '"') (by decide), space_ne hc (d := '\\') (by decide)]
  · simp [Fn.Spec.read, hn, space_ne hc (d := '\'') (by decide), space_ne hc (d := '\\') (by decide)]

theorem readAll_blank {m : Mode} (hm : AtLine m) {v : Str} (hv : ∀ c ∈ v, isSpace c = true ∧ c ≠ '\n') (st : List Char) (r : Str) :
    readAll (m, st) (v ++ r) = readAll (m, st) r := by
  induction v with
  | nil => rfl
  | cons c v ih =>
    show (Fn.Spec.read m st c).bind _ = _
    rw [read_blank hm (hv c (by simp)).1 (hv c (by simp)).2, Option.bind_some]
    exact ih (fun x hx => hv x (by simp [hx]))

theorem atLine_after {m : Mode} {st : List Char} {t : Mode × List Char} (h : Fn.Spec.read m st '\n' = some t) : AtLine t.1 := by
  cases m <;> simp [Fn.Spec.read, readCode] at h
  all_goals first
    | (subst h; simp [AtLine])
    | skip

/-- Spaces at the end of a line. -/
theorem readAll_trailing (w : Str) (hw : ∀ c ∈ w, isSpace c = true ∧ c ≠ '\n') :
    ∀ (s X : Mode × List Char), readAll s (w ++ ['\n']) = some X → readAll s ['\n'] = some X := by
  induction w with
  | nil => intro s X h; exact h
  | cons c w ih =>
    rintro ⟨m, st⟩ X h
    have hc := (hw c (by simp)).1
    have hn := (hw c (by simp)).2
    have ih := ih (fun x hx => hw x (by simp [hx]))
    have h : (Fn.Spec.read m st c).bind (readAll · (w ++ ['\n'])) = some X := h
    have hr := Fn.Spec.readCode_space hc st
    have hnl := Fn.Spec.readCode_space (c := '\n') (by decide) st
    cases m with
    | code =>
      rw [show Fn.Spec.read .code st c = readCode st c from rfl, hr, Option.bind_some] at h
      exact ih _ _ h
    | slash =>
      rw [show Fn.Spec.read .slash st c = some (.code, st) by simp [Fn.Spec.read, space_ne hc (d := '/') (by decide), space_ne hc (d := '*') (by decide), hr],
        Option.bind_some] at h
      have := ih _ _ h
      simpa [readAll, Fn.Spec.read, hnl] using this
    | line =>
      rw [show Fn.Spec.read .line st c = some (.line, st) by simp [Fn.Spec.read, hn], Option.bind_some] at h
      exact ih _ _ h
    | block =>
      rw [show Fn.Spec.read .block st c = some (.block, st) by simp [Fn.Spec.read, space_ne hc (d := '*') (by decide)], Option.bind_some] at h
      exact ih _ _ h
    | blockStar =>
      rw [show Fn.Spec.read .blockStar st c = some (.block, st) by simp [Fn.Spec.read, space_ne hc (d := '*') (by decide), space_ne hc (d := '/') (by decide)],
        Option.bind_some] at h
      have := ih _ _ h
      simpa [readAll, Fn.Spec.read] using this
    | str =>
      rw [show Fn.Spec.read .str st c = some (.str, st) by
        simp [Fn.Spec.read, hn, space_ne hc (d := '"') (by decide), space_ne hc (d := '\\') (by decide)], Option.bind_some] at h
      exact ih _ _ h
    | strEsc =>
      have := ih _ _ h
      simp [readAll, Fn.Spec.read] at this
    | chr =>
      rw [show Fn.Spec.read .chr st c = some (.chr, st) by
        simp [Fn.Spec.read, hn, space_ne hc (d := '\'') (by decide), space_ne hc (d := '\\') (by decide)], Option.bind_some] at h
      exact ih _ _ h
    | chrEsc =>
      have := ih _ _ h
      simp [readAll, Fn.Spec.read] at this

theorem rstrip_split (l : Str) : ∃ w, l = rstrip l ++ w ∧ ∀ c ∈ w, isSpace c = true := by
  refine ⟨(l.reverse.takeWhile isSpace).reverse, ?_, ?_⟩
  · unfold rstrip
    rw [← List.reverse_append, List.takeWhile_append_dropWhile, List.reverse_reverse]
  · intro c hc
    exact List.all_eq_true.1 (List.all_takeWhile (p := isSpace) (l := l.reverse)) c (List.mem_reverse.1 hc)

/-- One line, indented. -/
theorem readAll_indentLine {m : Mode} (hm : AtLine m) (st : List Char) {v : Str} (hv : ∀ c ∈ v, isSpace c = true ∧ c ≠ '\n') {l : Str}
    (hl : '\n' ∉ l) {X : Mode × List Char} (h : readAll (m, st) (l ++ ['\n']) = some X) :
    readAll (m, st) (Indent.indentLine v true l ++ ['\n']) = some X := by
  unfold Indent.indentLine
  by_cases e : l.length = 0
  · rw [if_pos e]
    rw [List.length_eq_zero_iff.1 e] at h
    exact h
  · rw [if_neg e, if_pos rfl, List.append_assoc, readAll_blank hm hv]
    obtain ⟨w, hw, hs⟩ := rstrip_split l
    rw [hw, List.append_assoc, Fn.Spec.readAll_append] at h
    cases hr : readAll (m, st) (rstrip l) with
    | none => rw [hr] at h; cases h
    | some t =>
      rw [hr, Option.bind_some] at h
      rw [Fn.Spec.readAll_append, hr, Option.bind_some]
      refine readAll_trailing w (fun c hc => ⟨hs c hc, ?_⟩) t X h
      rintro rfl
      exact hl (by rw [hw]; exact List.mem_append_right _ hc)

theorem readAll_indentLines {v : Str} (hv : ∀ c ∈ v, isSpace c = true ∧ c ≠ '\n') (ls : List Str) (hl : ∀ l ∈ ls, '\n' ∉ l) :
    ∀ (m : Mode) (st : List Char) (X : Mode × List Char), AtLine m → readAll (m, st) (ls.flatMap (· ++ ['\n'])) = some X →
      readAll (m, st) ((ls.map (Indent.indentLine v true)).flatMap (· ++ ['\n'])) = some X ∧ AtLine X.1 := by
  induction ls with
  | nil => intro m st X hm h; cases h; exact ⟨rfl, hm⟩
  | cons l ls ih =>
    intro m st X hm h
    rw [List.flatMap_cons, Fn.Spec.readAll_append] at h
    cases hr : readAll (m, st) (l ++ ['\n']) with
    | none => rw [hr] at h; cases h
    | some t =>
      rw [hr, Option.bind_some] at h
      have ht : AtLine t.1 := by
        rw [Fn.Spec.readAll_append] at hr
        cases hr' : readAll (m, st) l with
        | none => rw [hr'] at hr; cases hr
        | some u =>
          rw [hr', Option.bind_some] at hr
          cases hu : Fn.Spec.read u.1 u.2 '\n' with
          | none => simp [readAll, hu] at hr
          | some z =>
            have : z = t := by simpa [readAll, hu] using hr
            exact this ▸ atLine_after hu
      have := ih (fun x hx => hl x (by simp [hx])) t.1 t.2 X ht h
      refine ⟨?_, this.2⟩
      rw [List.map_cons, List.flatMap_cons, Fn.Spec.readAll_append, readAll_indentLine hm st hv (hl l (by simp)) hr, Option.bind_some]
      exact this.1

theorem unlines_concat (ls : List Str) (x : Str) : unlines (ls ++ [x]) = ls.flatMap (· ++ ['\n']) ++ x := by
  induction ls with
  | nil => rfl
  | cons l ls ih =>
    rw [List.cons_append, List.flatMap_cons, List.append_assoc, ← ih]
    exact join_cons_of_ne_nil _ _ (by simp)

/-- A text whose last line has no spaces at its end. -/
def EndsWell (s : Str) : Prop := ∀ x ∈ (lines s).getLast?, rstrip x = x

/-- Indentation keeps brackets, strings and comments closed. -/
theorem closed_indent {s v : Str} (hv : ∀ c ∈ v, isSpace c = true ∧ c ≠ '\n') (h : Closed s) (he : EndsWell s) :
    Closed (unlines ((lines s).map (Indent.indentLine v true))) := by
  have hne : lines s ≠ [] := splitOn_ne_nil _ _
  obtain ⟨ls, x, hls⟩ : ∃ ls x, lines s = ls ++ [x] := ⟨_, _, (List.dropLast_concat_getLast hne).symm⟩
  have hs : s = ls.flatMap (· ++ ['\n']) ++ x := by rw [← unlines_concat, ← hls, unlines_lines]
  have hl : ∀ l ∈ ls, '\n' ∉ l := fun l hm => not_mem_of_mem_lines (s := s) (by rw [hls]; simp [hm])
  have hx : rstrip x = x := he x (by rw [hls]; simp)
  rw [hls, List.map_append, List.map_singleton, unlines_concat]
  unfold Closed at *
  rw [hs, Fn.Spec.readAll_append] at h
  rw [Fn.Spec.readAll_append]
  cases hr : readAll (.code, []) (ls.flatMap (· ++ ['\n'])) with
  | none => rw [hr] at h; cases h
  | some t =>
    rw [hr, Option.bind_some] at h
    have := readAll_indentLines hv ls hl .code [] t (.inl rfl) hr
    rw [this.1, Option.bind_some]
    unfold Indent.indentLine
    split
    · next e => rw [List.length_eq_zero_iff.1 e] at h; exact h
    · rw [if_pos rfl, hx]
      obtain ⟨m, st⟩ := t
      rw [readAll_blank this.2 hv]
      exact h

theorem endsWell_nl (s : Str) : EndsWell (s ++ ['\n']) := by
  intro x hx
  have : lines (s ++ '\n' :: []) = lines s ++ lines [] := Template.lines_append_nl s []
  rw [this] at hx
  have e : lines [] = [[]] := rfl
  rw [e, List.getLast?_concat, Option.mem_some_iff] at hx
  subst hx
  rfl

theorem endsWell_ink (s : Str) (c : Char) (hc : isSpace c = false) : EndsWell (s ++ [c]) := by
  obtain ⟨ls, y, hls⟩ : ∃ ls y, lines s = ls ++ [y] := ⟨_, _, (List.dropLast_concat_getLast (lines_ne_nil s)).symm⟩
  have hs : s ++ [c] = unlines (ls ++ [y ++ [c]]) := by
    rw [unlines_concat, ← List.append_assoc, ← unlines_concat, ← hls, unlines_lines]
  have hn : c ≠ '\n' := by rintro rfl; revert hc; decide
  have hall : ∀ l ∈ ls ++ [y], '\n' ∉ l := fun l hm => not_mem_of_mem_lines (s := s) (by rw [hls]; exact hm)
  have hl : lines (s ++ [c]) = ls ++ [y ++ [c]] := by
    rw [hs]
    refine lines_unlines (by simp) (fun l hm => ?_)
    rcases List.mem_append.1 hm with hm | hm
    · exact hall l (List.mem_append_left _ hm)
    · rw [List.mem_singleton] at hm
      subst hm
      intro h
      rcases List.mem_append.1 h with h | h
      · exact hall y (by simp) h
      · exact hn (List.mem_singleton.1 h).symm
  intro x hx
  rw [hl, List.getLast?_concat, Option.mem_some_iff] at hx
  subst hx
  exact rstrip_append_of_not hc

end Verif.Cls
