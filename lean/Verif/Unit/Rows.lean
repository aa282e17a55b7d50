import Verif.Unit.Spec
import Verif.Tree.Lemmas
import Verif.Scope.Lemmas

/-! The rows of texts: of concatenations, of indented code, and of the document of a tree of namespaces (see `Verif.Tree.Spec.document`). -/

namespace Verif.Unit
open Verif.Py Spec

theorem rows_nil : rows [] = [] := by decide

theorem rows_nl (a b : Str) : rows (a ++ '\n' :: b) = rows a ++ rows b := by
  unfold rows
  rw [Tree.lines_nl, List.map_append, List.filter_append]

theorem rows_append_nl (a : Str) : rows (a ++ ['\n']) = rows a := by
  rw [rows_nl, rows_nil, List.append_nil]

theorem rows_lead (b : Str) : rows ('\n' :: b) = rows b := by
  have := rows_nl [] b
  rwa [List.nil_append, rows_nil, List.nil_append] at this

theorem rows_append {a b : Str} (h : Tree.Lead b) : rows (a ++ b) = rows a ++ rows b := by
  rcases h with rfl | ⟨b, rfl⟩
  · rw [rows_nil, List.append_nil, List.append_nil]
  · rw [rows_nl, rows_lead]

theorem rows_flatten : ∀ {l : List Str}, (∀ s ∈ l, Tree.Lead s) → rows l.flatten = l.flatMap rows
  | [], _ => rfl
  | s :: l, h => by
    have h' : ∀ t ∈ l, Tree.Lead t := fun t ht => h t (by simp [ht])
    rw [List.flatten_cons, rows_append (Tree.lead_flatten h'), rows_flatten h', List.flatMap_cons]

theorem rows_unlines (ls : List Str) : rows (unlines ls) = rowsOf ls := by
  unfold rowsOf
  induction ls with
  | nil => exact rows_nil
  | cons l ls ih =>
    cases ls with
    | nil => simp [unlines, join]
    | cons m ls =>
      have e : unlines (l :: m :: ls) = l ++ '\n' :: unlines (m :: ls) := by
        unfold unlines; rw [join_cons_cons, List.append_assoc]; rfl
      rw [e, rows_nl, ih]
      rfl

theorem rowsOf_lines (s : Str) : rowsOf (lines s) = rows s := by rw [← rows_unlines, unlines_lines]

theorem rowsOf_append (a b : List Str) : rowsOf (a ++ b) = rowsOf a ++ rowsOf b := by unfold rowsOf; rw [List.flatMap_append]

theorem rowsOf_nil : rowsOf [] = [] := rfl

theorem rowsOf_blank : rowsOf [[]] = [] := by decide

theorem shift_append (i : Str) (a b : List Str) : shift i (a ++ b) = shift i a ++ shift i b := by unfold shift; rw [List.map_append]

theorem rstrip_indentLine {ind : Str} (hi : ∀ c ∈ ind, isSpace c = true) (l : Str) :
    rstrip (Indent.indentLine ind true l) = if rstrip l = [] then [] else ind ++ rstrip l := by
  unfold Indent.indentLine
  split
  · rename_i h
    rw [List.length_eq_zero_iff.1 h]
    rfl
  · rw [if_pos rfl]
    rcases rstrip_last l with h | ⟨a, c, h, hc⟩
    · rw [h, if_pos rfl, List.append_nil]
      exact (rstrip_eq_nil_iff ind).2 hi
    · rw [h, if_neg (by simp), ← List.append_assoc]
      exact rstrip_append_of_not hc

theorem rows_map_indent {ind : Str} (hi : ∀ c ∈ ind, isSpace c = true) (ls : List Str) :
    ((ls.map (Indent.indentLine ind true)).map rstrip).filter (fun l => l ≠ []) =
      shift ind ((ls.map rstrip).filter (fun l => l ≠ [])) := by
  induction ls with
  | nil => rfl
  | cons l ls ih =>
    rw [List.map_cons, List.map_cons, List.map_cons, List.filter_cons, List.filter_cons, ih, rstrip_indentLine hi]
    by_cases h : rstrip l = []
    · rw [if_pos h, if_neg (by simp), if_neg (by simp [h])]
    · rw [if_neg h, if_pos (by simp [h]), if_pos (by simp [h])]
      rfl

theorem rows_indent {ind : Str} (hi : ∀ c ∈ ind, isSpace c = true) (hn : '\n' ∉ ind) (s : Str) :
    rows (Indent.indentCode s (indentStr := some ind)) = shift ind (rows s) := by
  unfold rows
  have e : lines (Indent.indentCode s (indentStr := some ind)) = (lines s).map (Indent.indentLine ind true) :=
    Indent.lines_indentAll s 1 (some ind) true hn
  rw [e]
  exact rows_map_indent hi _

theorem rowsOf_indent {ind : Str} (hi : ∀ c ∈ ind, isSpace c = true) (hn : '\n' ∉ ind) (ls : List Str) :
    rowsOf (Indent.indentCodeLines ls 1 false (some ind)) = shift ind (rowsOf ls) := by
  unfold Indent.indentCodeLines
  rw [rowsOf_lines, rows_indent hi hn, rows_unlines]

theorem rows_addText (a b : Str) : rows (Tree.addText a b) = rows a ++ rows b := by
  unfold Tree.addText
  split
  · rw [List.append_assoc]; exact rows_nl a b
  · rename_i h
    rcases List.eq_nil_or_concat a with rfl | ⟨l, x, rfl⟩
    · rw [rows_nil]; rfl
    · rw [List.concat_eq_append] at h ⊢
      have hx : x = '\n' := by
        have h' : endsWith (l ++ [x]) ['\n'] = true := by
          cases hh : endsWith (l ++ [x]) ['\n'] with
          | true => rfl
          | false => exact absurd ⟨by simp, hh⟩ h
        unfold endsWith at h'
        rw [List.isSuffixOf_iff_suffix] at h'
        obtain ⟨t, ht⟩ := h'
        have := (List.append_inj' ht rfl).2
        simp at this; exact this.symm
      subst hx
      rw [List.append_assoc]
      show rows (l ++ '\n' :: b) = rows (l ++ '\n' :: []) ++ rows b
      rw [rows_nl, rows_nl, rows_nil, List.append_nil]

theorem rows_own (h : Tree.Spec.History) : rows (Tree.Spec.own h) = (Tree.Spec.codesAt [] h).flatMap rows := by
  induction h using Tree.snocInd with
  | h0 => decide
  | h1 l e ih =>
    obtain ⟨p, c⟩ := e
    rw [Tree.own_snoc]
    unfold Tree.Spec.codesAt at ih ⊢
    rw [List.filter_append]
    cases p with
    | nil =>
      simp only []
      rw [rows_addText, ih]
      simp
    | cons n p =>
      simp only []
      rw [ih]
      simp

/-! ### Documents -/

/-- What is stored under a path. -/
def under (h : Tree.Spec.History) : List Str → Tree.Spec.History
  | [] => h
  | n :: p => under (Tree.Spec.sub h n) p

theorem under_snoc (h : Tree.Spec.History) (p : List Str) (n : Str) : under h (p ++ [n]) = Tree.Spec.sub (under h p) n := by
  induction p generalizing h with
  | nil => rfl
  | cons m p ih => exact ih _

theorem named_under {h : Tree.Spec.History} (hc : Tree.Named h) (p : List Str) : Tree.Named (under h p) := by
  induction p generalizing h with
  | nil => exact hc
  | cons m p ih => exact ih (Tree.named_sub hc m)

theorem codesAt_under (h : Tree.Spec.History) (p : List Str) : Tree.Spec.codesAt [] (under h p) = Tree.Spec.codesAt p h := by
  induction p generalizing h with
  | nil => rfl
  | cons m p ih => rw [Tree.codesAt_cons]; exact ih _

theorem rows_line {l : Str} {c : Char} (hn : '\n' ∉ l) (hc : isSpace c = false) : rows (l ++ [c]) = [l ++ [c]] := by
  have hc' : c ≠ '\n' := by rintro rfl; revert hc; decide
  have : '\n' ∉ l ++ [c] := by
    intro h
    rcases List.mem_append.1 h with h | h
    · exact hn h
    · exact hc' (List.mem_singleton.1 h).symm
  unfold rows
  rw [show lines (l ++ [c]) = [l ++ [c]] from splitOn_of_not_mem this, List.map_singleton, rstrip_append_of_not hc, List.filter_cons, if_pos (by simp)]
  rfl

theorem opening_rows (cfg : Tree.Config) (n : Str) (h : '\n' ∉ Tree.Spec.shown cfg n) :
    rows (Tree.Spec.opening cfg n) = [Tree.Spec.opening cfg n] := by
  unfold Tree.Spec.opening
  refine rows_line ?_ (by decide)
  intro hm
  rcases List.mem_append.1 hm with hm | hm
  · revert hm
    split <;> decide +kernel
  · exact h hm

theorem closing_rows (cfg : Tree.Config) (n : Str) (h : '\n' ∉ Tree.Spec.shown cfg n) :
    rows (Tree.Spec.closing cfg n) = [Tree.Spec.closing cfg n] := by
  unfold Tree.Spec.closing
  refine rows_line ?_ (by decide)
  intro hm
  rcases List.mem_append.1 hm with hm | hm
  · revert hm
    split <;> decide +kernel
  · exact h hm

/-- The rows of the document of a namespace, by its name, the rows of its own code, and the namespaces inside it. -/
theorem rows_document (cfg : Tree.Config) (hi : ∀ c ∈ cfg.indent, isSpace c = true) (hn : '\n' ∉ cfg.indent) (h : Tree.Spec.History)
    (hN : Tree.Named h) (subs body : List Str → List Str) (module_ : Nat → List Str → Str → List Str)
    (hsubs : ∀ p, Tree.Spec.names (under h p) = subs p)
    (hbody : ∀ p n, n ∈ subs p → Tree.Spec.own (under h (p ++ [n])) ≠ [] ∧ rows (Tree.Spec.own (under h (p ++ [n]))) = body (p ++ [n]) ∧
      '\n' ∉ Tree.Spec.shown cfg n)
    (h0 : ∀ p n, module_ 0 p n = [])
    (hS : ∀ d p n, module_ (d + 1) p n = [Tree.Spec.opening cfg n] ++ body (p ++ [n]) ++
      shift cfg.indent ((subs (p ++ [n])).flatMap (module_ d (p ++ [n]))) ++ [Tree.Spec.closing cfg n]) :
    ∀ (d : Nat) (p : List Str) (n : Str), n ∈ subs p → rows (Tree.Spec.document cfg d n (under h (p ++ [n]))) = module_ d p n := by
  intro d
  induction d with
  | zero => intro p n _; rw [h0]; rfl
  | succ d ih =>
    intro p n hp
    obtain ⟨b1, b2, b3⟩ := hbody p n hp
    have hne : n ≠ [] := by
      rintro rfl
      rw [← hsubs p] at hp
      obtain ⟨q, c, hm⟩ := Tree.names_mem _ hp
      exact named_under hN p _ hm (by simp)
    rw [Tree.document_succ, if_neg (by rintro (h | h); exact hne h; exact b1 h), hS]
    have hlead : ∀ s ∈ ((Tree.Spec.names (under h (p ++ [n]))).map
        (fun m => Tree.Spec.document cfg d m (Tree.Spec.sub (under h (p ++ [n])) m))).map
        (fun s => Indent.indentCode s (indentStr := some cfg.indent)), Tree.Lead s := by
      intro s hs
      obtain ⟨t, ht, rfl⟩ := List.mem_map.1 hs
      obtain ⟨m, hm, rfl⟩ := List.mem_map.1 ht
      refine Tree.lead_indent _ (Tree.lead_document cfg d m _ (Tree.named_sub (named_under hN _) m) (Or.inl ?_))
      rintro rfl
      obtain ⟨q, c, hm⟩ := Tree.names_mem _ hm
      exact named_under hN _ _ hm (by simp)
    have e1 : ∀ (A B C D : Str), ['\n'] ++ A ++ ['\n'] ++ B ++ C ++ ['\n'] ++ D ++ ['\n'] =
        '\n' :: (A ++ '\n' :: ((B ++ C) ++ '\n' :: (D ++ ['\n']))) := by
      intro A B C D
      simp only [List.append_assoc, List.cons_append, List.nil_append]
    rw [e1, rows_lead, rows_nl, rows_nl, rows_append_nl, rows_append (Tree.lead_flatten hlead), rows_flatten hlead, b2, opening_rows _ _ b3,
      closing_rows _ _ b3, hsubs]
    have e2 : (((subs (p ++ [n])).map (fun m => Tree.Spec.document cfg d m (Tree.Spec.sub (under h (p ++ [n])) m))).map
        (fun s => Indent.indentCode s (indentStr := some cfg.indent))).flatMap rows =
        shift cfg.indent ((subs (p ++ [n])).flatMap (module_ d (p ++ [n]))) := by
      rw [List.map_map, List.flatMap_map]
      unfold shift
      rw [List.map_flatMap]
      refine Tree.flatMap_congr' (fun m hm => ?_)
      show rows (Indent.indentCode _ (indentStr := some cfg.indent)) = _
      rw [rows_indent hi hn]
      show shift cfg.indent (rows (Tree.Spec.document cfg d m (Tree.Spec.sub (under h (p ++ [n])) m))) = _
      rw [← under_snoc, ih _ _ hm]
      rfl
    rw [e2]
    simp only [List.append_assoc]

end Verif.Unit
