import Verif.Markers.Lemmas

/-! Properties C08 (only the regions are rewritten), C09 (writing twice), C10 (errors).

Reading guide: a file is a list of pieces (`Spec.Piece`): lines outside the regions, and regions (opening
marker line, body, closing marker line). `lines input = ps.flatMap Spec.Piece.lines` says that the
text `input` is made of the pieces `ps`. -/

namespace Verif.Markers
open Verif.Py

/-- A concrete file with one indented region, used in the examples. -/
def exPieces : List Spec.Piece :=
  [.outside "int a;".toList, .region "  // <tok>".toList ["old".toList] "  // </tok>".toList,
   .outside "int b;".toList]

theorem exPieces_wf : ∀ p ∈ exPieces, p.WF "tok".toList := by
  have k : ∀ l m : Str, contains l m = false → ¬ Spec.Mentions l m := by
    intro l m h h'
    rw [(contains_mentions l m).2 h'] at h; exact Bool.noConfusion h
  intro p hp
  simp [exPieces] at hp
  rcases hp with rfl | rfl | rfl
  · exact ⟨k _ _ (by decide), k _ _ (by decide)⟩
  · refine ⟨(contains_mentions _ _).1 (by decide), k _ _ (by decide), ?_, k _ _ (by decide),
      (contains_mentions _ _).1 (by decide)⟩
    intro l hl
    simp at hl; subst hl
    exact ⟨k _ _ (by decide), k _ _ (by decide)⟩
  · exact ⟨k _ _ (by decide), k _ _ (by decide)⟩

/-! ### C08 -/

/-- C08, full statement: on a file with well-formed regions, the file becomes the same pieces where
the body of each region is the code indented like its opening marker. -/
def C08_statement : Prop :=
  ∀ (tok code input : Str) (ps : List Spec.Piece), (∀ p ∈ ps, p.WF tok) → 0 < Spec.regions ps →
    lines input = ps.flatMap Spec.Piece.lines →
    (writeGeneratedCodeBetweenMarkers (some input) tok code).file =
      some (Spec.fileText (Spec.filled code ps))

/-- False of the code when a file holds several regions: the code to insert is re-indented at each
region on top of the previous indentation. Witness: two regions indented by one space. -/
theorem C08_fails : ¬ C08_statement := by
  intro h
  have k : ∀ l m : Str, contains l m = false → ¬ Spec.Mentions l m := by
    intro l m h h'
    rw [(contains_mentions l m).2 h'] at h; exact Bool.noConfusion h
  have := h "t".toList "x".toList " <t>\n </t>\n <t>\n </t>".toList
    [.region " <t>".toList [] " </t>".toList, .region " <t>".toList [] " </t>".toList]
    (by
      intro p hp
      simp at hp
      rcases hp with rfl | rfl <;>
        exact ⟨(contains_mentions _ _).1 (by decide), k _ _ (by decide), by simp, k _ _ (by decide),
          (contains_mentions _ _).1 (by decide)⟩)
    (by decide) (by decide)
  revert this; decide

/-- C08 (partial): the full statement for files with one region. Missing: several indented regions,
see `C08_fails`. -/
theorem C08_one_region_partial (tok code input : Str) (ps : List Spec.Piece)
    (hwf : ∀ p ∈ ps, p.WF tok) (hreg : Spec.regions ps = 1)
    (hin : lines input = ps.flatMap Spec.Piece.lines) :
    (writeGeneratedCodeBetweenMarkers (some input) tok code).file =
        some (Spec.fileText (Spec.filled code ps)) ∧
      (writeGeneratedCodeBetweenMarkers (some input) tok code).error = none := by
  rw [write_wf tok code input true ps hwf (by omega) hin, fillCum_one code ps (by omega)]
  exact ⟨rfl, rfl⟩

example : (∀ p ∈ exPieces, p.WF "tok".toList) ∧ Spec.regions exPieces = 1 ∧
    lines (Spec.fileText exPieces) = exPieces.flatMap Spec.Piece.lines :=
  ⟨exPieces_wf, by decide, by decide⟩

/-- C08 (partial): the full statement for files with any number of regions whose opening markers start
in column 0. -/
theorem C08_flat_regions_partial (tok code input : Str) (ps : List Spec.Piece)
    (hwf : ∀ p ∈ ps, p.WF tok) (hreg : 0 < Spec.regions ps)
    (hflat : ∀ o b c, Spec.Piece.region o b c ∈ ps → Spec.leading o = [])
    (hin : lines input = ps.flatMap Spec.Piece.lines) :
    (writeGeneratedCodeBetweenMarkers (some input) tok code).file =
        some (Spec.fileText (Spec.filled code ps)) ∧
      (writeGeneratedCodeBetweenMarkers (some input) tok code).error = none := by
  rw [write_wf tok code input true ps hwf hreg hin, fillCum_flat code code ps rfl hflat]
  exact ⟨rfl, rfl⟩

example : Spec.leading "// <tok>".toList = [] ∧ Spec.leading "  // <tok>".toList = [' ', ' '] := by
  decide

/-- C08: without `flag_preserve_indentation`, any number of regions: the body of each region becomes
the code as it is. -/
theorem C08_raw (tok code input : Str) (ps : List Spec.Piece)
    (hwf : ∀ p ∈ ps, p.WF tok) (hreg : 0 < Spec.regions ps)
    (hin : lines input = ps.flatMap Spec.Piece.lines) :
    (writeGeneratedCodeBetweenMarkers (some input) tok code false).file =
        some (Spec.fileText (Spec.filledRaw code ps)) ∧
      (writeGeneratedCodeBetweenMarkers (some input) tok code false).error = none := by
  rw [write_wf tok code input false ps hwf hreg hin, fillCum_raw]
  exact ⟨rfl, rfl⟩

/-- Pieces that differ only in the bodies of the regions. -/
inductive SameOutside : List Spec.Piece → List Spec.Piece → Prop where
  | nil : SameOutside [] []
  | outside (l : Str) {ps qs} : SameOutside ps qs →
      SameOutside (.outside l :: ps) (.outside l :: qs)
  | region (o : Str) (b b' : List Str) (c : Str) {ps qs} : SameOutside ps qs →
      SameOutside (.region o b c :: ps) (.region o b' c :: qs)

/-- C08: with any number of regions, indented or not, and whatever the code to insert: all lines
outside the regions and all marker lines are kept, in order; only bodies change. -/
theorem C08_outside_kept (tok code input : Str) (preserve : Bool) (ps : List Spec.Piece)
    (hwf : ∀ p ∈ ps, p.WF tok) (hreg : 0 < Spec.regions ps)
    (hin : lines input = ps.flatMap Spec.Piece.lines) :
    ∃ qs, SameOutside ps qs ∧
      (writeGeneratedCodeBetweenMarkers (some input) tok code preserve).file =
        some (Spec.fileText qs) := by
  refine ⟨fillCum preserve code ps, ?_, ?_⟩
  · clear hin hreg hwf
    induction ps generalizing code with
    | nil => exact SameOutside.nil
    | cons p ps ih =>
      cases p with
      | outside l => exact SameOutside.outside l (ih _)
      | region o b c => exact SameOutside.region o b _ c (ih _)
  · rw [write_wf tok code input preserve ps hwf hreg hin]

/-! ### C09 -/

/-- C09: if the code does not mention the markers, a second call with the same code leaves the file as
the first one did, does not write it and reports no error. -/
theorem C09_idempotent (tok code input : Str) (preserve : Bool) (ps : List Spec.Piece)
    (hwf : ∀ p ∈ ps, p.WF tok) (hreg : 0 < Spec.regions ps)
    (hin : lines input = ps.flatMap Spec.Piece.lines)
    (hopen : ¬ Spec.Mentions code (Spec.opening tok))
    (hclose : ¬ Spec.Mentions code (Spec.closing tok)) :
    let first := writeGeneratedCodeBetweenMarkers (some input) tok code preserve
    writeGeneratedCodeBetweenMarkers first.file tok code preserve = ⟨first.file, false, none⟩ := by
  simp only
  have c1 : Clear (Spec.opening tok) code :=
    fun l hl hm => hopen (mentions_mono (mem_lines_infix hl) hm)
  have c2 : Clear (Spec.closing tok) code :=
    fun l hl hm => hclose (mentions_mono (mem_lines_infix hl) hm)
  rw [write_wf tok code input preserve ps hwf hreg hin]
  simp only
  have hne := fillCum_ne_nil (regions_pos_ne_nil hreg) preserve code
  have hlines : lines (Spec.fileText (fillCum preserve code ps)) =
      (fillCum preserve code ps).flatMap Spec.Piece.lines :=
    lines_unlines (flatMap_lines_ne_nil hne) (nl_fillCum preserve code ps (by
      intro l hl; rw [← hin] at hl; exact not_mem_of_mem_lines hl))
  rw [write_wf tok code _ preserve (fillCum preserve code ps) (wf_fillCum tok preserve code ps hwf c1 c2)
    (by rw [regions_fillCum]; exact hreg) hlines, fillCum_fillCum]
  simp

example : (∀ p ∈ exPieces, p.WF "tok".toList) ∧ 0 < Spec.regions exPieces ∧
    lines (Spec.fileText exPieces) = exPieces.flatMap Spec.Piece.lines ∧
    ¬ Spec.Mentions "new code".toList (Spec.opening "tok".toList) ∧
    ¬ Spec.Mentions "new code".toList (Spec.closing "tok".toList) := by
  have k : ∀ l m : Str, contains l m = false → ¬ Spec.Mentions l m := by
    intro l m h h'
    rw [(contains_mentions l m).2 h'] at h; exact Bool.noConfusion h
  exact ⟨exPieces_wf, by decide, by decide, k _ _ (by decide), k _ _ (by decide)⟩

/-- C09: the file is written exactly when its content changes. -/
theorem C09_written_iff_changed (tok code input : Str) (preserve : Bool) :
    let r := writeGeneratedCodeBetweenMarkers (some input) tok code preserve
    r.written = true ↔ r.file ≠ some input := by
  simp only [writeGeneratedCodeBetweenMarkers]
  split
  · simp
  · split
    · split
      · rename_i h; simpa using h
      · simp
    · simp

/-! ### C10 -/

/-- C10: when an error is reported, the file is what it was and was not written. -/
theorem C10_error_leaves_file (file : Option Str) (tok code : Str) (preserve : Bool)
    (h : (writeGeneratedCodeBetweenMarkers file tok code preserve).error ≠ none) :
    (writeGeneratedCodeBetweenMarkers file tok code preserve).file = file ∧
    (writeGeneratedCodeBetweenMarkers file tok code preserve).written = false := by
  revert h
  cases file with
  | none => simp [writeGeneratedCodeBetweenMarkers]
  | some input =>
    simp only [writeGeneratedCodeBetweenMarkers]
    split
    · simp
    · split
      · split <;> simp
      · simp

example : (writeGeneratedCodeBetweenMarkers (some "a".toList) "t".toList "x".toList).error ≠ none := by
  decide

/-- C10: a missing file is an error. -/
theorem C10_missing_file (tok code : Str) (preserve : Bool) :
    (writeGeneratedCodeBetweenMarkers none tok code preserve).error = some .fileNotFound := rfl

theorem loop_no_open (tok : Str) (preserve : Bool) (ls : List Str) : ∀ st : State,
    (∀ l ∈ ls, ¬ Spec.Mentions l (Spec.opening tok)) →
    ∃ st', loop (markerIn tok) (markerOut tok) preserve st ls = .ok st' ∧
      st'.replaced = st.replaced := by
  induction ls with
  | nil => intro st _; exact ⟨st, rfl, rfl⟩
  | cons l ls ih =>
    intro st h
    have hl := h l (by simp)
    have hls : ∀ x ∈ ls, ¬ Spec.Mentions x (Spec.opening tok) := fun x hx => h x (by simp [hx])
    unfold loop
    simp only [stepOpen, markerIn_eq, contains_false hl]
    cases hin : st.inside with
    | true =>
      obtain ⟨st', h1, h2⟩ := ih (stepClose (markerOut tok) st l) hls
      refine ⟨st', by simpa [markerIn_eq] using h1, ?_⟩
      rw [h2]; unfold stepClose; split <;> rfl
    | false =>
      obtain ⟨st', h1, h2⟩ := ih (stepClose (markerOut tok)
        { st with output := st.output ++ l ++ ['\n'] } l) hls
      refine ⟨st', by simpa [markerIn_eq, hin] using h1, ?_⟩
      rw [h2]; unfold stepClose; split <;> rfl

/-- C10: a file whose lines do not hold the opening marker is reported. -/
theorem C10_no_opening_marker (input tok code : Str) (preserve : Bool)
    (h : ∀ l ∈ lines input, ¬ Spec.Mentions l (Spec.opening tok)) :
    (writeGeneratedCodeBetweenMarkers (some input) tok code preserve).error = some .missingMarker := by
  obtain ⟨st', h1, h2⟩ := loop_no_open tok preserve (lines input) ⟨[], false, false, code⟩ h
  simp only at h2
  simp [writeGeneratedCodeBetweenMarkers, h1, h2]

example : ∀ l ∈ lines "a\n</t>".toList, ¬ Spec.Mentions l (Spec.opening "t".toList) := by
  intro l hl h
  rw [← contains_mentions] at h
  revert h; revert l; decide

/-- C10: an opening marker found again in an open region is reported, whatever precedes (well-formed
pieces) and follows. -/
theorem C10_nested_opening_marker (input tok code : Str) (preserve : Bool) (ps : List Spec.Piece)
    (o o' : Str) (body rest : List Str) (hwf : ∀ p ∈ ps, p.WF tok)
    (ho : Spec.Mentions o (Spec.opening tok)) (ho2 : ¬ Spec.Mentions o (Spec.closing tok))
    (hbody : ∀ l ∈ body, ¬ Spec.Mentions l (Spec.opening tok) ∧ ¬ Spec.Mentions l (Spec.closing tok))
    (ho' : Spec.Mentions o' (Spec.opening tok))
    (hin : lines input = ps.flatMap Spec.Piece.lines ++ o :: (body ++ o' :: rest)) :
    (writeGeneratedCodeBetweenMarkers (some input) tok code preserve).error =
      some .moreThanOneMarker := by
  have h1 := loop_pieces tok preserve (o :: (body ++ o' :: rest)) ps ⟨[], false, false, code⟩ hwf rfl
  have h2 : ∀ st : State, st.inside = false →
      loop (markerIn tok) (markerOut tok) preserve st (o :: (body ++ o' :: rest)) =
        .error .moreThanOneMarker := by
    intro st hin
    unfold loop
    simp only [stepOpen, markerIn_eq, (contains_mentions o _).2 ho, hin, stepClose, markerOut_eq,
      contains_false ho2]
    have hb := loop_body tok preserve body (o' :: rest)
      { output := st.output ++ o ++ ['\n'] ++ ins preserve o st.code, inside := true,
        replaced := true, code := ins preserve o st.code } rfl hbody
    have hb2 : loop (markerIn tok) (markerOut tok) preserve
        { output := st.output ++ o ++ ['\n'] ++ ins preserve o st.code, inside := true,
          replaced := true, code := ins preserve o st.code } (o' :: rest) =
        .error .moreThanOneMarker := by
      unfold loop
      simp [stepOpen, markerIn_eq, (contains_mentions o' _).2 ho']
    rw [hb2] at hb
    simp only [leading_eq]
    exact hb
  unfold writeGeneratedCodeBetweenMarkers
  simp only
  rw [hin, h1, h2 _ rfl]

example : lines "<t>\na\n<t>\n</t>".toList =
    ([] : List Spec.Piece).flatMap Spec.Piece.lines ++
      "<t>".toList :: (["a".toList] ++ "<t>".toList :: ["</t>".toList]) := by decide

/-- C10, the last clause in full: a call that reports no error keeps every line that is not between an
opening marker and the closing marker that ends its region. -/
def C10_no_loss_statement : Prop :=
  ∀ (input tok code out : Str) (before after : List Str) (o l : Str),
    lines input = before ++ o :: after → Spec.Mentions o (Spec.opening tok) → l ∈ after →
    (∀ x ∈ lines input, ¬ Spec.Mentions x (Spec.closing tok)) →
    writeGeneratedCodeBetweenMarkers (some input) tok code = ⟨some out, true, none⟩ →
    l ∈ lines out

/-- It is false: without a closing marker the rest of the file is dropped without an error. Witness:
the file `<t>`, `int keep_me;`. -/
theorem C10_no_loss_fails : ¬ C10_no_loss_statement := by
  intro h
  have := h "<t>\nkeep".toList "t".toList "x".toList "<t>\nx".toList [] ["keep".toList]
    "<t>".toList "keep".toList (by decide) ((contains_mentions _ _).1 (by decide)) (by decide)
    (by
      intro x hx hm
      rw [← contains_mentions] at hm
      revert hm; revert x; decide)
    (by decide)
  revert this; decide

/-- Another malformed file that is not reported: a stray closing marker is duplicated at each call. -/
theorem C10_stray_closing_marker_fails :
    (writeGeneratedCodeBetweenMarkers (some "</t>\n<t>\n</t>".toList) "t".toList "x".toList).file =
      some "</t>\n\n</t>\n<t>\nx\n</t>".toList := by decide

/-- C10 (partial): on well-formed files nothing outside the regions is lost and no error is reported.
Missing: files with an opening marker that is never closed, see `C10_no_loss_fails`. -/
theorem C10_no_loss_partial (tok code input : Str) (preserve : Bool) (ps : List Spec.Piece)
    (hwf : ∀ p ∈ ps, p.WF tok) (hreg : 0 < Spec.regions ps)
    (hin : lines input = ps.flatMap Spec.Piece.lines) (l : Str) (hl : Spec.Piece.outside l ∈ ps) :
    ∃ out, (writeGeneratedCodeBetweenMarkers (some input) tok code preserve).file = some out ∧
      (writeGeneratedCodeBetweenMarkers (some input) tok code preserve).error = none ∧
      l ∈ lines out := by
  rw [write_wf tok code input preserve ps hwf hreg hin]
  refine ⟨_, rfl, rfl, ?_⟩
  have hne := fillCum_ne_nil (regions_pos_ne_nil hreg) preserve code
  rw [show lines (Spec.fileText (fillCum preserve code ps)) =
      (fillCum preserve code ps).flatMap Spec.Piece.lines from
    lines_unlines (flatMap_lines_ne_nil hne) (nl_fillCum preserve code ps (by
      intro l hl; rw [← hin] at hl; exact not_mem_of_mem_lines hl))]
  clear hin hreg hwf hne
  induction ps generalizing code with
  | nil => simp at hl
  | cons p ps ih =>
    cases p with
    | outside x =>
      simp only [fillCum, List.flatMap_cons, Spec.Piece.lines, List.mem_append]
      rcases List.mem_cons.1 hl with e | e
      · left; cases e; simp
      · right; exact ih _ e
    | region o b c =>
      simp only [fillCum, List.flatMap_cons, List.mem_append]
      rcases List.mem_cons.1 hl with e | e
      · cases e
      · right; exact ih _ e

end Verif.Markers
