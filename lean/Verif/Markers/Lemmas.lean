import Verif.Indent.Lemmas
import Verif.Markers.Model
import Verif.Markers.Spec

namespace Verif.Markers
open Verif.Py

theorem leading_eq (l : Str) : spacesOrTabsAtLineStart l = Spec.leading l := by
  induction l with
  | nil => rfl
  | cons c cs ih =>
    unfold spacesOrTabsAtLineStart Spec.leading
    by_cases h : c = ' ' ∨ c = '\t'
    · rw [if_pos h, List.takeWhile_cons_of_pos (by simpa using h), ih]; rfl
    · rw [if_neg h, List.takeWhile_cons_of_neg (by simpa using h)]

theorem mem_leading {o : Str} {c : Char} (h : c ∈ Spec.leading o) : c = ' ' ∨ c = '\t' := by
  unfold Spec.leading at h
  induction o with
  | nil => simp at h
  | cons x xs ih =>
    by_cases hx : x = ' ' ∨ x = '\t'
    · rw [List.takeWhile_cons_of_pos (by simpa using hx)] at h
      rcases List.mem_cons.1 h with rfl | h
      · exact hx
      · exact ih h
    · rw [List.takeWhile_cons_of_neg (by simpa using hx)] at h; simp at h

theorem contains_mentions (l m : Str) : contains l m = true ↔ Spec.Mentions l m := by
  rw [contains_iff]
  constructor
  · rintro ⟨a, b, rfl⟩; exact ⟨a, b, rfl⟩
  · rintro ⟨a, b, rfl⟩; exact ⟨a, b, rfl⟩

theorem contains_false {l m : Str} (h : ¬ Spec.Mentions l m) : contains l m = false := by
  cases hc : contains l m with
  | true => exact absurd ((contains_mentions l m).1 hc) h
  | false => rfl

theorem markerIn_eq (tok : Str) : markerIn tok = Spec.opening tok := rfl
theorem markerOut_eq (tok : Str) : markerOut tok = Spec.closing tok := rfl

/-- Lines with their line ends. -/
def term (ls : List Str) : Str := ls.flatMap (· ++ ['\n'])

@[simp] theorem term_nil : term [] = [] := rfl
@[simp] theorem term_cons (l : Str) (ls : List Str) : term (l :: ls) = l ++ '\n' :: term ls := by
  simp [term]
@[simp] theorem term_append (a b : List Str) : term (a ++ b) = term a ++ term b := by
  simp [term]

theorem term_unlines {ls : List Str} (h : ls ≠ []) : unlines ls ++ ['\n'] = term ls := by
  induction ls with
  | nil => exact absurd rfl h
  | cons l ls ih =>
    cases ls with
    | nil => simp [unlines]
    | cons m ms =>
      have := ih (by simp)
      unfold unlines at this ⊢
      rw [join_cons_cons, term_cons, ← this]
      simp

theorem term_lines (s : Str) : s ++ ['\n'] = term (lines s) := by
  have := term_unlines (lines_ne_nil s)
  simpa using this

theorem chop_term {ls : List Str} (h : ls ≠ []) : chop (term ls) = unlines ls := by
  rw [← term_unlines h]; simp [chop]

/-- The code inserted in a region, from the leading blanks of its marker and the current code. -/
def ins (preserve : Bool) (o code : Str) : Str :=
  if preserve then Indent.indentCode code (indentStr := some (Spec.leading o)) else code

/-- What the loop writes: the code is re-indented at each region. -/
def fillCum (preserve : Bool) : Str → List Spec.Piece → List Spec.Piece
  | _, [] => []
  | code, .outside l :: ps => .outside l :: fillCum preserve code ps
  | code, .region o _ c :: ps =>
    .region o (lines (ins preserve o code)) c :: fillCum preserve (ins preserve o code) ps

def finalCode (preserve : Bool) : Str → List Spec.Piece → Str
  | code, [] => code
  | code, .outside _ :: ps => finalCode preserve code ps
  | code, .region o _ _ :: ps => finalCode preserve (ins preserve o code) ps

theorem loop_body (tok : Str) (preserve : Bool) (b : List Str) (rest : List Str) (st : State)
    (hin : st.inside = true)
    (hb : ∀ l ∈ b, ¬ Spec.Mentions l (Spec.opening tok) ∧ ¬ Spec.Mentions l (Spec.closing tok)) :
    loop (markerIn tok) (markerOut tok) preserve st (b ++ rest) =
      loop (markerIn tok) (markerOut tok) preserve st rest := by
  induction b with
  | nil => rfl
  | cons l b ih =>
    have hl := hb l (by simp)
    simp only [List.cons_append]
    conv => lhs; unfold loop
    simp only [stepOpen, markerIn_eq, contains_false hl.1, hin, stepClose, markerOut_eq,
      contains_false hl.2]
    exact ih (fun x hx => hb x (by simp [hx]))

theorem loop_pieces (tok : Str) (preserve : Bool) (rest : List Str) : ∀ (ps : List Spec.Piece)
    (st : State), (∀ p ∈ ps, p.WF tok) → st.inside = false →
    loop (markerIn tok) (markerOut tok) preserve st (ps.flatMap Spec.Piece.lines ++ rest) =
      loop (markerIn tok) (markerOut tok) preserve
        { output := st.output ++ term ((fillCum preserve st.code ps).flatMap Spec.Piece.lines)
          inside := false
          replaced := st.replaced || decide (0 < Spec.regions ps)
          code := finalCode preserve st.code ps } rest := by
  intro ps
  induction ps with
  | nil =>
    intro st _ hin
    have : st = { output := st.output ++ [], inside := false, replaced := st.replaced || false,
                  code := st.code } := by
      cases st; simp at hin; simp [hin]
    conv => lhs; rw [this]
    rfl
  | cons p ps ih =>
    intro st hwf hin
    have hp := hwf p (by simp)
    have hps : ∀ q ∈ ps, q.WF tok := fun q hq => hwf q (by simp [hq])
    cases p with
    | outside l =>
      obtain ⟨h1, h2⟩ := hp
      have step : loop (markerIn tok) (markerOut tok) preserve st
          (l :: (ps.flatMap Spec.Piece.lines ++ rest)) =
          loop (markerIn tok) (markerOut tok) preserve
            { st with output := st.output ++ l ++ ['\n'] } (ps.flatMap Spec.Piece.lines ++ rest) := by
        conv => lhs; unfold loop
        simp only [stepOpen, markerIn_eq, contains_false h1, hin, stepClose, markerOut_eq,
          contains_false h2]
        rfl
      simp only [List.flatMap_cons, Spec.Piece.lines, List.nil_append, List.cons_append]
      rw [step, ih { st with output := st.output ++ l ++ ['\n'] } hps hin]
      simp [fillCum, finalCode, Spec.regions, Spec.Piece.lines]
      rfl
    | region o b c =>
      obtain ⟨h1, h2, h3, h4, h5⟩ := hp
      have step : loop (markerIn tok) (markerOut tok) preserve st
          (o :: (b ++ c :: (ps.flatMap Spec.Piece.lines ++ rest))) =
          loop (markerIn tok) (markerOut tok) preserve
            { output := st.output ++ o ++ ['\n'] ++ ins preserve o st.code ++ ['\n'] ++ c ++ ['\n']
              inside := false, replaced := true, code := ins preserve o st.code }
            (ps.flatMap Spec.Piece.lines ++ rest) := by
        conv => lhs; unfold loop
        simp only [stepOpen, markerIn_eq, (contains_mentions o _).2 h1, hin, stepClose, markerOut_eq,
          contains_false h2, leading_eq]
        have hb := loop_body tok preserve b (c :: (ps.flatMap Spec.Piece.lines ++ rest))
          { output := st.output ++ o ++ ['\n'] ++ ins preserve o st.code, inside := true,
            replaced := true, code := ins preserve o st.code } rfl h3
        refine Eq.trans hb ?_
        conv => lhs; unfold loop
        simp only [stepOpen, markerIn_eq, contains_false h4, stepClose, markerOut_eq,
          (contains_mentions c _).2 h5]
        rfl
      have e : (Spec.Piece.region o b c :: ps).flatMap Spec.Piece.lines ++ rest =
          o :: (b ++ c :: (ps.flatMap Spec.Piece.lines ++ rest)) := by
        simp [Spec.Piece.lines]
      rw [e, step, ih _ hps rfl]
      have ht := term_lines (ins preserve o st.code)
      simp [fillCum, finalCode, Spec.regions, Spec.Piece.lines, ← ht]

theorem flatMap_lines_ne_nil {ps : List Spec.Piece} (h : ps ≠ []) :
    ps.flatMap Spec.Piece.lines ≠ [] := by
  cases ps with
  | nil => exact absurd rfl h
  | cons p ps => cases p <;> simp [Spec.Piece.lines]

theorem fillCum_ne_nil {ps : List Spec.Piece} (h : ps ≠ []) (pr : Bool) (code : Str) :
    fillCum pr code ps ≠ [] := by
  cases ps with
  | nil => exact absurd rfl h
  | cons p ps => cases p <;> simp [fillCum]

theorem regions_pos_ne_nil {ps : List Spec.Piece} (h : 0 < Spec.regions ps) : ps ≠ [] := by
  rintro rfl; simp [Spec.regions] at h

/-- The result of a call on a well-formed file. -/
theorem write_wf (tok code input : Str) (preserve : Bool) (ps : List Spec.Piece)
    (hwf : ∀ p ∈ ps, p.WF tok) (hreg : 0 < Spec.regions ps)
    (hin : lines input = ps.flatMap Spec.Piece.lines) :
    writeGeneratedCodeBetweenMarkers (some input) tok code preserve =
      ⟨some (Spec.fileText (fillCum preserve code ps)),
        decide (Spec.fileText (fillCum preserve code ps) ≠ input), none⟩ := by
  have h := loop_pieces tok preserve [] ps ⟨[], false, false, code⟩ hwf rfl
  simp only [List.append_nil] at h
  have hne := fillCum_ne_nil (regions_pos_ne_nil hreg) preserve code
  unfold writeGeneratedCodeBetweenMarkers
  simp only
  rw [hin, h]
  simp only [loop, List.nil_append, hreg, decide_true, Bool.or_true, if_true]
  rw [chop_term (flatMap_lines_ne_nil hne)]
  show (if Spec.fileText (fillCum preserve code ps) ≠ input then _ else _) = _
  by_cases he : Spec.fileText (fillCum preserve code ps) = input
  · simp [he]
  · simp [he]; rfl

/-! ### Bodies -/

theorem lines_ins (o code : Str) : lines (ins true o code) = Spec.indented (Spec.leading o) code := by
  have hnl : '\n' ∉ Spec.leading o := by
    intro h
    have := mem_leading h
    simp at this
  have e : ins true o code = Indent.indentAll code 1 (some (Spec.leading o)) true := rfl
  rw [e, Indent.lines_indentAll code 1 (some (Spec.leading o)) true hnl]
  unfold Spec.indented
  apply List.map_congr_left
  intro l _
  by_cases hl : l = []
  · simp [Indent.indentLine, hl]
  · have : l.length ≠ 0 := by simpa using hl
    simp [Indent.indentLine, hl, Indent.prefixOf]

theorem fillCum_raw (code : Str) (ps : List Spec.Piece) :
    fillCum false code ps = Spec.filledRaw code ps := by
  induction ps with
  | nil => rfl
  | cons p ps ih => cases p <;> simp [fillCum, Spec.filledRaw, ins, ih]

theorem fillCum_no_region (pr : Bool) (code : Str) (ps : List Spec.Piece)
    (h : Spec.regions ps = 0) (code' : Str) : fillCum pr code ps = Spec.filled code' ps := by
  induction ps with
  | nil => rfl
  | cons p ps ih =>
    cases p with
    | outside l => simp [Spec.regions] at h; simp [fillCum, Spec.filled, ih h]
    | region o b c => simp [Spec.regions] at h

theorem fillCum_one (code : Str) (ps : List Spec.Piece) (h : Spec.regions ps ≤ 1) :
    fillCum true code ps = Spec.filled code ps := by
  induction ps with
  | nil => rfl
  | cons p ps ih =>
    cases p with
    | outside l => simp [Spec.regions] at h; simp [fillCum, Spec.filled, ih h]
    | region o b c =>
      simp [Spec.regions] at h
      simp [fillCum, Spec.filled, lines_ins, fillCum_no_region true _ ps h code]

theorem indented_ins_nil (pre code : Str) (o : Str) (ho : Spec.leading o = []) :
    Spec.indented pre (ins true o code) = Spec.indented pre code ∨ pre ≠ [] := by
  by_cases hp : pre = []
  · left
    subst hp
    unfold Spec.indented
    rw [lines_ins, ho, Spec.indented, List.map_map]
    apply List.map_congr_left
    intro l _
    by_cases hl : l = []
    · simp [hl]
    · simp [hl, rstrip_rstrip]
  · right; exact hp

/-- Markers that are not indented: the code is only right-stripped, once and for all. -/
theorem fillCum_flat (code code' : Str) (ps : List Spec.Piece)
    (hc : Spec.indented [] code = Spec.indented [] code')
    (h : ∀ o b c, Spec.Piece.region o b c ∈ ps → Spec.leading o = []) :
    fillCum true code ps = Spec.filled code' ps := by
  induction ps generalizing code with
  | nil => rfl
  | cons p ps ih =>
    have hps : ∀ o b c, Spec.Piece.region o b c ∈ ps → Spec.leading o = [] :=
      fun o b c hm => h o b c (by simp [hm])
    cases p with
    | outside l => simp [fillCum, Spec.filled, ih code hc hps]
    | region o b c =>
      have ho := h o b c (by simp)
      simp only [fillCum, Spec.filled, lines_ins, ho, hc]
      rw [ih (ins true o code) ?_ hps]
      rcases indented_ins_nil [] code o ho with h1 | h1
      · rw [h1, hc]
      · exact absurd rfl h1

/-- The second run computes the same bodies as the first. -/
theorem fillCum_fillCum (pr : Bool) (code : Str) (ps : List Spec.Piece) :
    fillCum pr code (fillCum pr code ps) = fillCum pr code ps := by
  induction ps generalizing code with
  | nil => rfl
  | cons p ps ih => cases p <;> simp [fillCum, ih]

theorem regions_fillCum (pr : Bool) (code : Str) (ps : List Spec.Piece) :
    Spec.regions (fillCum pr code ps) = Spec.regions ps := by
  induction ps generalizing code with
  | nil => rfl
  | cons p ps ih => cases p <;> simp [fillCum, Spec.regions, ih]

/-! ### Inserted code keeps clear of the markers -/

/-- A marker found in a line found after leading blanks is in the line. -/
theorem mentions_pre {pre l m : Str} {c : Char} (hm : m.head? = some c) (hc : c ∉ pre)
    (h : Spec.Mentions (pre ++ l) m) : Spec.Mentions l m := by
  obtain ⟨a, b, h⟩ := h
  rw [List.append_assoc] at h
  rcases List.append_eq_append_iff.1 h with ⟨u, hu, hv⟩ | ⟨u, hu, hv⟩
  · cases u with
    | nil => rw [List.nil_append] at hv; exact ⟨[], b, by simpa using hv⟩
    | cons x xs =>
      exfalso
      cases m with
      | nil => simp at hm
      | cons y ys =>
        simp at hm; subst hm
        simp at hv
        apply hc; rw [hu]; simp [hv.1]
  · exact ⟨u, b, by rw [hv]; simp⟩

theorem mentions_mono {l l' m : Str} (h : l <:+: l') (hm : Spec.Mentions l m) : Spec.Mentions l' m :=
  List.IsInfix.trans hm h

theorem mem_join_infix {sep : Str} {ls : List Str} {l : Str} (h : l ∈ ls) : l <:+: join sep ls := by
  induction ls with
  | nil => simp at h
  | cons x xs ih =>
    cases xs with
    | nil => simp at h; subst h; exact List.infix_rfl
    | cons y ys =>
      rw [join_cons_cons]
      rcases List.mem_cons.1 h with rfl | h
      · exact ⟨[], sep ++ join sep (y :: ys), by simp⟩
      · obtain ⟨a, b, e⟩ := ih h
        exact ⟨x ++ sep ++ a, b, by rw [← e]; simp⟩

theorem mem_lines_infix {s l : Str} (h : l ∈ lines s) : l <:+: s := by
  have := mem_join_infix (sep := ['\n']) h
  rwa [show join ['\n'] (lines s) = s from unlines_lines s] at this

theorem lt_not_mem_leading (o : Str) : '<' ∉ Spec.leading o := by
  intro h
  have := mem_leading h
  simp at this

/-- No line of `code` mentions `m`. -/
def Clear (m code : Str) : Prop := ∀ l ∈ lines code, ¬ Spec.Mentions l m

theorem clear_ins {m code o : Str} {pr : Bool} (hm : m.head? = some '<') (h : Clear m code) :
    Clear m (ins pr o code) := by
  cases pr with
  | false => exact h
  | true =>
    intro l hl
    rw [lines_ins] at hl
    obtain ⟨x, hx, rfl⟩ := List.mem_map.1 hl
    intro hmen
    split at hmen
    · obtain ⟨a, b, e⟩ := hmen
      cases m with
      | nil => simp at hm
      | cons y ys => simp at e
    · have h1 := mentions_pre hm (lt_not_mem_leading o) hmen
      obtain ⟨w, e, _⟩ := rstrip_decomp x
      exact h x hx (mentions_mono ⟨[], w, by simpa using e.symm⟩ h1)

theorem wf_fillCum (tok : Str) (pr : Bool) (code : Str) (ps : List Spec.Piece)
    (hwf : ∀ p ∈ ps, p.WF tok) (h1 : Clear (Spec.opening tok) code)
    (h2 : Clear (Spec.closing tok) code) : ∀ p ∈ fillCum pr code ps, p.WF tok := by
  induction ps generalizing code with
  | nil => intro p hp; simp [fillCum] at hp
  | cons q ps ih =>
    have hq := hwf q (by simp)
    have hps : ∀ p ∈ ps, p.WF tok := fun p hp => hwf p (by simp [hp])
    intro p hp
    cases q with
    | outside l =>
      simp [fillCum] at hp
      rcases hp with rfl | hp
      · exact hq
      · exact ih code hps h1 h2 p hp
    | region o b c =>
      have k1 : Clear (Spec.opening tok) (ins pr o code) := clear_ins rfl h1
      have k2 : Clear (Spec.closing tok) (ins pr o code) := clear_ins rfl h2
      simp only [fillCum, List.mem_cons] at hp
      rcases hp with rfl | hp
      · exact ⟨hq.1, hq.2.1, fun l hl => ⟨k1 l hl, k2 l hl⟩, hq.2.2.2.1, hq.2.2.2.2⟩
      · exact ih _ hps k1 k2 p hp

theorem nl_fillCum (pr : Bool) (code : Str) (ps : List Spec.Piece)
    (h : ∀ l ∈ ps.flatMap Spec.Piece.lines, '\n' ∉ l) :
    ∀ l ∈ (fillCum pr code ps).flatMap Spec.Piece.lines, '\n' ∉ l := by
  induction ps generalizing code with
  | nil => intro l hl; simp [fillCum] at hl
  | cons q ps ih =>
    have hps : ∀ l ∈ ps.flatMap Spec.Piece.lines, '\n' ∉ l :=
      fun l hl => h l (by simp only [List.flatMap_cons, List.mem_append]; exact Or.inr hl)
    intro l hl
    cases q with
    | outside x =>
      simp only [fillCum, List.flatMap_cons, List.mem_append] at hl
      rcases hl with hl | hl
      · exact h l (by simp only [List.flatMap_cons, List.mem_append]; exact Or.inl hl)
      · exact ih code hps l hl
    | region o b c =>
      simp only [fillCum, List.flatMap_cons, List.mem_append] at hl
      rcases hl with hl | hl
      · simp only [Spec.Piece.lines, List.mem_append, List.mem_cons, List.not_mem_nil, or_false] at hl
        rcases hl with (rfl | hl) | rfl
        · exact h _ (by simp [Spec.Piece.lines])
        · exact not_mem_of_mem_lines hl
        · exact h _ (by simp [Spec.Piece.lines])
      · exact ih _ hps l hl

end Verif.Markers
