import Verif.Gen.Props
import Verif.Markers.Props

/-! C47: the text of the generated codes, and the exceptions. -/

namespace Verif.Gen.Props
open Verif.Py Verif.Gen.Spec

variable {C : Type}

/-! ### The codes of the headers -/

theorem lines_split (a b : Str) : lines (a ++ '\n' :: b) = lines a ++ lines b := by
  unfold lines
  induction a with
  | nil => simp [splitOn]
  | cons x a ih =>
    by_cases h : x = '\n'
    · simp only [List.cons_append, splitOn, h, if_true, ih]
    · rw [List.cons_append]
      have e : ∀ s : Str, splitOn '\n' (x :: s) = (x :: (splitOn '\n' s).headD []) :: (splitOn '\n' s).tail := by
        intro s
        cases hs : splitOn '\n' s with
        | nil => exact absurd hs (splitOn_ne_nil _ s)
        | cons l ls => simp [splitOn, h, hs]
      rw [e, e, ih]
      cases hs : splitOn '\n' a with
      | nil => exact absurd hs (splitOn_ne_nil _ a)
      | cons l ls => simp

theorem codeLines_split (a b : Str) : codeLines (a ++ '\n' :: b) = codeLines a ++ codeLines b := by
  unfold codeLines; rw [lines_split, List.filter_append]

theorem codeLines_nil : codeLines [] = [] := by decide

theorem codeLines_line (l : Str) (h : '\n' ∉ l) (hb : ∃ c ∈ l, isSpace c = false) : codeLines l = [l] := by
  unfold codeLines
  have : lines l = [l] := by
    have := lines_unlines (ls := [l]) (by simp) (by simpa using h)
    simpa [unlines, join] using this
  rw [this, List.filter_cons, if_pos]
  · rfl
  · rw [Bool.not_eq_true', Bool.eq_false_iff]
    intro hbl
    obtain ⟨c, hc, hcs⟩ := hb
    have := (isBlank_iff l).1 hbl c hc
    rw [hcs] at this; simp at this

theorem codeLines_shorten (code : Str) : codeLines (shortenBlankLines code) = codeLines code := by
  unfold codeLines shortenBlankLines
  rw [lines_unlines]
  · induction lines code with
    | nil => rfl
    | cons l ls ih =>
      rw [List.map_cons, List.filter_cons, List.filter_cons, ih]
      have hb : isBlank l = decide ((strip l).length = 0) := by unfold isBlank; rw [Bool.eq_iff_iff]; simp
      by_cases h : (strip l).length = 0
      · have : ¬ (strip l).length > 0 := by omega
        rw [if_neg this, hb]
        simp [h, (by decide : isBlank [] = true)]
      · have : (strip l).length > 0 := by omega
        rw [if_pos this, hb]
  · intro h
    exact lines_ne_nil code (List.map_eq_nil_iff.1 h)
  · intro l hl
    obtain ⟨x, hx, rfl⟩ := List.mem_map.1 hl
    split
    · exact not_mem_of_mem_lines hx
    · simp

theorem codeLines_join (bs : List Str) : codeLines (join "\n\n".toList bs) = bs.flatMap codeLines := by
  induction bs with
  | nil => exact codeLines_nil
  | cons b bs ih =>
    cases bs with
    | nil => simp [join]
    | cons b' bs =>
      rw [join_cons_cons, List.append_assoc]
      have : b ++ ("\n\n".toList ++ join "\n\n".toList (b' :: bs)) = b ++ '\n' :: ([] ++ '\n' :: join "\n\n".toList (b' :: bs)) := rfl
      rw [this, codeLines_split, codeLines_split, codeLines_nil, List.nil_append, ih]; rfl

theorem decorate_eq (deco : Char) (short : Str) (isEnd : Bool) :
    decorate [deco] short isEnd = (if isEnd then outroLine deco short else introLine deco short) ++ ['\n'] := by
  have h20 : (List.replicate 20 [deco]).flatten = List.replicate 20 deco := by rfl
  unfold decorate introLine outroLine
  simp only [h20]
  cases isEnd with
  | true =>
    simp only [if_true, List.append_assoc]
    rfl
  | false =>
    simp only [Bool.false_eq_true, if_false, List.append_assoc, List.nil_append]
    rfl

theorem mem_pathParts (f p : Str) (h : p ∈ pathParts f) (hn : '\n' ∉ f) : '\n' ∉ p := by
  have hf : ∀ q ∈ (splitOn '/' f).filter (fun p => p ≠ [] ∧ p ≠ ".".toList), '\n' ∉ q := by
    intro q hq hm
    have h1 := (List.mem_filter.1 hq).1
    apply hn
    rw [← join_splitOn '/' f]
    exact (Markers.mem_join_infix (sep := ['/']) h1).subset hm
  unfold pathParts at h
  simp only at h
  split at h
  · rcases List.mem_cons.1 h with rfl | h
    · decide
    · exact hf p h
  · split at h
    · rcases List.mem_cons.1 h with rfl | h
      · decide
      · exact hf p h
    · split at h
      · rcases List.mem_cons.1 h with rfl | h
        · decide
        · exact hf p h
      · exact hf p h

theorem mem_join {sep : Str} {ls : List Str} {c : Char} (h : c ∈ join sep ls) : c ∈ sep ∨ ∃ l ∈ ls, c ∈ l := by
  induction ls with
  | nil => simp [join] at h
  | cons l ls ih =>
    cases ls with
    | nil => exact .inr ⟨l, by simp, by simpa [join] using h⟩
    | cons l' ls =>
      rw [join_cons_cons, List.append_assoc, List.mem_append, List.mem_append] at h
      rcases h with h | h | h
      · exact .inr ⟨l, by simp, h⟩
      · exact .inl h
      · rcases ih h with h | ⟨x, hx, hc⟩
        · exact .inl h
        · exact .inr ⟨x, List.mem_cons_of_mem _ hx, hc⟩

theorem short_no_newline (f : Str) (n : Int) (hn : '\n' ∉ f) : '\n' ∉ filenameWithNParents f n := by
  unfold filenameWithNParents
  split
  · exact hn
  · intro h
    rcases mem_join h with h | ⟨l, hl, hc⟩
    · revert h; decide
    · exact mem_pathParts f l (List.mem_of_mem_drop hl) hn hc

theorem codeLines_surround (n : Int) (f code : Str) (deco : Char) (hd : deco = '/' ∨ deco = '#') (hf : f ≠ []) (hnl : '\n' ∉ f)
    (hc : code = [] ∨ code.getLast? = some '\n') :
    codeLines (surround n f code [deco]) =
      introLine deco (filenameWithNParents f n) :: (codeLines code ++ [outroLine deco (filenameWithNParents f n)]) := by
  have hs := short_no_newline f n hnl
  have hdn : deco ≠ '\n' := by rcases hd with rfl | rfl <;> decide
  have hds : isSpace deco = false := by rcases hd with rfl | rfl <;> decide
  have hin : ∀ mid : Str, '\n' ∉ mid → '\n' ∉ List.replicate 20 deco ++ mid ++ filenameWithNParents f n ++ ">    ".toList ++ List.replicate 20 deco := by
    intro mid hm h
    simp only [List.mem_append] at h
    have hr : '\n' ∉ List.replicate 20 deco := fun h => hdn (List.eq_of_mem_replicate h).symm
    rcases h with (((h | h) | h) | h) | h
    · exact hr h
    · exact hm h
    · exact hs h
    · revert h; decide
    · exact hr h
  have hb : ∀ mid : Str, ∃ c ∈ List.replicate 20 deco ++ mid ++ filenameWithNParents f n ++ ">    ".toList ++ List.replicate 20 deco,
      isSpace c = false := by
    intro mid
    exact ⟨deco, by simp, hds⟩
  have hl1 := codeLines_line (introLine deco (filenameWithNParents f n)) (hin _ (by decide)) (hb _)
  have hl2 := codeLines_line (outroLine deco (filenameWithNParents f n)) (hin _ (by decide)) (hb _)
  have hlen : f.length ≠ 0 := by simpa using hf
  unfold surround
  rw [if_neg hlen]
  simp only
  rw [decorate_eq, decorate_eq]
  simp only [Bool.false_eq_true, if_false, if_true]
  generalize introLine deco (filenameWithNParents f n) = i at *
  generalize outroLine deco (filenameWithNParents f n) = o at *
  have htail : codeLines (code ++ (o ++ ['\n'])) = codeLines code ++ [o] := by
    rcases hc with rfl | hc
    · rw [List.nil_append, codeLines_nil, List.nil_append, codeLines_split, hl2, codeLines_nil]; rfl
    · have hcode : code = code.dropLast ++ ['\n'] := by
        obtain ⟨ys, hys⟩ := List.getLast?_eq_some_iff.1 hc
        rw [hys]; simp
      have e1 : code ++ (o ++ ['\n']) = code.dropLast ++ '\n' :: (o ++ '\n' :: []) := by
        exact (congrArg (· ++ (o ++ ['\n'])) hcode).trans (by simp)
      have e2 : codeLines code = codeLines code.dropLast := by
        exact (congrArg codeLines hcode).trans (by rw [codeLines_split, codeLines_nil, List.append_nil])
      rw [e1, codeLines_split, codeLines_split, hl2, codeLines_nil, List.append_nil, e2]
  have : i ++ ['\n'] ++ code ++ (o ++ ['\n']) = i ++ '\n' :: (code ++ (o ++ ['\n'])) := by simp
  rw [this, codeLines_split, hl1, htail]
  rfl

/-- The lines of a generated code: those of the codes of the headers, in order, each between its two marks. -/
def C47_lines_statement : Prop := ∀ (C : Type) (e : Env C) (g : Generator C), e.postprocessStub = none →
  (∀ x ∈ codesWithBoxed e g, x.source ≠ [] ∧ '\n' ∉ x.source) →
  codeLines (stubCode e g) = (codesWithBoxed e g).flatMap (fun x =>
    introLine '#' (filenameWithNParents x.source e.nbParents) ::
      (codeLines x.stub ++ [outroLine '#' (filenameWithNParents x.source e.nbParents)]))

/-- C47. It fails for a stub that does not end with a line end (as when the last element of the header is a function): the closing mark is
glued to the last line of the code. -/
theorem C47_lines_fails : ¬ C47_lines_statement := by
  intro h
  have := h Unit ⟨fun _ _ _ => (([], []), ()), fun _ => none, fun _ => [], fun _ => [], fun _ => [], id, false, 0, none, none, false⟩
    ⟨(), [⟨"a.h".toList, [], "def f(): pass".toList⟩]⟩ rfl (by decide +kernel)
  exact absurd this (by decide +kernel)

/-- C47. It holds for the codes that are empty or end with a line end, in the stubs and in the bindings (where all of them do). -/
theorem C47_lines_partial (e : Env C) (g : Generator C) (hsrc : ∀ x ∈ codesWithBoxed e g, x.source ≠ [] ∧ '\n' ∉ x.source) :
    (e.postprocessStub = none → (∀ x ∈ codesWithBoxed e g, x.stub = [] ∨ x.stub.getLast? = some '\n') →
      codeLines (stubCode e g) = (codesWithBoxed e g).flatMap (fun x =>
        introLine '#' (filenameWithNParents x.source e.nbParents) ::
          (codeLines x.stub ++ [outroLine '#' (filenameWithNParents x.source e.nbParents)]))) ∧
    (e.postprocessPydef = none → (∀ x ∈ codesWithBoxed e g, x.pydef = [] ∨ x.pydef.getLast? = some '\n') →
      codeLines (pydefCode e g) = (codesWithBoxed e g).flatMap (fun x =>
        introLine '/' (filenameWithNParents x.source e.nbParents) ::
          (codeLines x.pydef ++ [outroLine '/' (filenameWithNParents x.source e.nbParents)]))) := by
  constructor
  · intro hp hc
    unfold stubCode
    rw [hp]
    rw [show ∀ c, postprocess none c = c from fun _ => rfl, codeLines_shorten, codeLines_join]
    revert hsrc hc
    induction codesWithBoxed e g with
    | nil => intro _ _; rfl
    | cons x xs ih =>
      intro hsrc hc
      rw [List.map_cons, List.flatMap_cons, List.flatMap_cons]
      obtain ⟨h1, h2⟩ := hsrc x (by simp)
      rw [ih (fun y hy => hsrc y (List.mem_cons_of_mem _ hy)) (fun y hy => hc y (List.mem_cons_of_mem _ hy))]
      congr 1
      exact codeLines_surround e.nbParents x.source x.stub '#' (.inr rfl) h1 h2 (hc x (by simp))
  · intro hp hc
    unfold pydefCode
    rw [hp]
    rw [show ∀ c, postprocess none c = c from fun _ => rfl, codeLines_shorten, codeLines_join]
    revert hsrc hc
    induction codesWithBoxed e g with
    | nil => intro _ _; rfl
    | cons x xs ih =>
      intro hsrc hc
      rw [List.map_cons, List.flatMap_cons, List.flatMap_cons]
      obtain ⟨h1, h2⟩ := hsrc x (by simp)
      rw [ih (fun y hy => hsrc y (List.mem_cons_of_mem _ hy)) (fun y hy => hc y (List.mem_cons_of_mem _ hy))]
      congr 1
      exact codeLines_surround e.nbParents x.source x.pydef '/' (.inl rfl) h1 h2 (hc x (by simp))

example : ∀ x ∈ codesWithBoxed env ⟨2, gens[1]⟩, (x.source ≠ [] ∧ '\n' ∉ x.source) ∧ (x.stub = [] ∨ x.stub.getLast? = some '\n') := by
  decide +kernel

/-- C47. The name shown in the marks is the name of the file with the last folders, as many as asked for. -/
theorem C47_filename (names : List Str) (n : Nat) (hne : names ≠ []) (h : ∀ p ∈ names, p ≠ [] ∧ p ≠ ".".toList ∧ '/' ∉ p) :
    filenameWithNParents (join "/".toList names) n = join "/".toList (names.drop (names.length - (n + 1))) := by
  have hs : splitOn '/' (join "/".toList names) = names := splitOn_join hne (fun l hl => (h l hl).2.2)
  have hf : names.filter (fun p => p ≠ [] ∧ p ≠ ".".toList) = names := by
    rw [List.filter_eq_self]
    intro p hp
    simp only [decide_eq_true_eq]
    exact ⟨(h p hp).1, (h p hp).2.1⟩
  have hstart : ∀ r, startsWith (join "/".toList names) ('/' :: r) = false := by
    intro r
    cases names with
    | nil => exact absurd rfl hne
    | cons p ps =>
      obtain ⟨h1, h2, h3⟩ := h p (by simp)
      cases p with
      | nil => exact absurd rfl h1
      | cons c p =>
        have hc : c ≠ '/' := fun e => h3 (by simp [e])
        have : ∃ t, join "/".toList ((c :: p) :: ps) = c :: t := by
          cases ps with
          | nil => exact ⟨p, rfl⟩
          | cons q qs => exact ⟨_, by rw [join_cons_cons]; rfl⟩
        obtain ⟨t, ht⟩ := this
        rw [ht]
        unfold startsWith
        rw [List.isPrefixOf, beq_eq_false_iff_ne.2 (Ne.symm hc), Bool.false_and]
  unfold filenameWithNParents pathParts
  rw [if_neg (by omega), hs, hf]
  rw [show "///".toList = '/' :: "//".toList from rfl, show "//".toList = '/' :: "/".toList from rfl]
  rw [show "/".toList = '/' :: [] from rfl] at *
  simp only [hstart, Bool.false_eq_true, if_false]
  congr 2
  omega

example : filenameWithNParents "include/imgui/imgui.h".toList 1 = "imgui/imgui.h".toList := by decide +kernel

/-! ### Exceptions -/

/-- When a code cannot be written because the file or its markers are missing, there is an exception. -/
def C47_error_statement : Prop := ∀ (C : Type) (e : Env C) (g : Generator C) (fs : Fs) (p s gl : Str),
  fs (gluePath p gl) = none → (writeGenerated e g fs p s gl).2 ≠ none

/-- C47. It fails for a separate file for the glue code: only a warning is logged, and the glue code is lost. -/
theorem C47_error_fails : ¬ C47_error_statement := by
  intro h
  exact h Nat env ⟨2, gens[1]⟩ disk "py.cpp".toList "m.pyi".toList "glue.h".toList rfl (by decide +kernel)

/-- C47. It holds for the two other files. Missing: a glue code in the file of the bindings (the exception is raised too, but only when the
code just written there has no marker). -/
theorem C47_error_partial (e : Env C) (g : Generator C) (fs : Fs) (p s gl : Str) (hsp : s ≠ p)
    (h : fs p = none ∨ fs s = none ∨ (∃ text, fs p = some text ∧ ∀ l ∈ lines text, ¬ Markers.Spec.Mentions l "<litgen_pydef>".toList) ∨
      (∃ text, fs s = some text ∧ ∀ l ∈ lines text, ¬ Markers.Spec.Mentions l "<litgen_stub>".toList)) :
    (writeGenerated e g fs p s gl).2 ≠ none := by
  have hp : (fs p = none ∨ ∃ text, fs p = some text ∧ ∀ l ∈ lines text, ¬ Markers.Spec.Mentions l "<litgen_pydef>".toList) →
      (writeGenerated e g fs p s gl).2 ≠ none := by
    intro h
    have : (writeRegion fs p "litgen_pydef".toList (pydefCode e g)).2 ≠ none := by
      unfold writeRegion
      rcases h with h | ⟨t, h, hl⟩
      · rw [h]; simp [Markers.writeGeneratedCodeBetweenMarkers]
      · rw [h]
        simp only
        rw [Markers.C10_no_opening_marker t "litgen_pydef".toList _ true hl]
        simp
    unfold writeGenerated
    simp only
    split
    · simp
    · rename_i hn; exact absurd hn this
  have hs : (fs s = none ∨ ∃ text, fs s = some text ∧ ∀ l ∈ lines text, ¬ Markers.Spec.Mentions l "<litgen_stub>".toList) →
      (writeGenerated e g fs p s gl).2 ≠ none := by
    intro h
    unfold writeGenerated
    simp only
    split
    · simp
    · have hset : (writeRegion fs p "litgen_pydef".toList (pydefCode e g)).1 s = fs s := by
        unfold writeRegion; exact set_ne _ _ _ _ hsp
      have : (writeRegion (writeRegion fs p "litgen_pydef".toList (pydefCode e g)).1 s "litgen_stub".toList (stubCode e g)).2 ≠ none := by
        generalize (writeRegion fs p "litgen_pydef".toList (pydefCode e g)).1 = fs1 at hset
        unfold writeRegion
        rw [hset]
        rcases h with h | ⟨t, h, hl⟩
        · rw [h]; simp [Markers.writeGeneratedCodeBetweenMarkers]
        · rw [h]
          simp only
          rw [Markers.C10_no_opening_marker t "litgen_stub".toList _ true hl]
          simp
      split
      · simp
      · rename_i hn; exact absurd hn this
  rcases h with h | h | h | h
  · exact hp (.inl h)
  · exact hs (.inl h)
  · exact hp (.inr h)
  · exact hs (.inr h)

example : (writeGenerated env ⟨2, gens[1]⟩ disk "py.cpp".toList "none.pyi".toList []).2 = some (.write .fileNotFound) := by decide +kernel

/-- When there is an exception, no file has been changed. -/
def C47_atomic_statement : Prop := ∀ (C : Type) (e : Env C) (g : Generator C) (fs : Fs) (p s gl : Str),
  (writeGenerated e g fs p s gl).2 ≠ none → (writeGenerated e g fs p s gl).1 = fs

/-- C47. It fails: when the stub file is missing, the bindings are already written. -/
theorem C47_atomic_fails : ¬ C47_atomic_statement := by
  intro h
  have := congrFun (h Nat env ⟨2, gens[1]⟩ disk "py.cpp".toList "none.pyi".toList [] (by decide +kernel)) "py.cpp".toList
  exact absurd this (by decide +kernel)

/-- C47. It holds when the file of the bindings is the wrong one. -/
theorem C47_atomic_partial (e : Env C) (g : Generator C) (fs : Fs) (p s gl : Str)
    (h : (Markers.writeGeneratedCodeBetweenMarkers (fs p) "litgen_pydef".toList (pydefCode e g)).error ≠ none) :
    (writeGenerated e g fs p s gl).1 = fs ∧ (writeGenerated e g fs p s gl).2 ≠ none := by
  obtain ⟨h1, _⟩ := Markers.C10_error_leaves_file _ _ _ _ h
  unfold writeGenerated writeRegion
  simp only
  split
  · refine ⟨?_, by simp⟩
    rw [h1]
    funext x
    show (if x = p then fs p else fs x) = fs x
    split
    · rename_i hx; rw [hx]
    · rfl
  · rename_i hn; exact absurd hn h

example : (Markers.writeGeneratedCodeBetweenMarkers none "litgen_pydef".toList []).error ≠ none := by decide

end Verif.Gen.Props
