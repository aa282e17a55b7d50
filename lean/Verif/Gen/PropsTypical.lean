import Verif.Gen.TypicalPieces

/-! Property C106: the files proposed by the help messages are accepted by the writer. -/

namespace Verif.Gen.Props
open Verif.Py Verif.Gen Verif.Gen.Spec
variable {C : Type}

/-- The output files of a project have the content proposed by the help messages: the glue code is in the file of the bindings (`sep = []`) or in
a file of its own. -/
structure Started (fs : Fs) (nb : Bool) (pydefFile stubFile sep : Str) : Prop where
  pydef : fs pydefFile = some (typicalPybind nb)
  stub : fs stubFile = some typicalStub
  glue : sep ≠ [] → fs sep = some typicalGlue ∧ sep ≠ pydefFile ∧ sep ≠ stubFile
  stub_ne : stubFile ≠ pydefFile

/-- The pieces of the output files. -/
def startPieces (nb : Bool) (pydefFile stubFile : Str) (x : Str) : List Piece :=
  if x = pydefFile then pybindPieces nb else if x = stubFile then stubPieces else gluePieces

theorem start_outputs {e : Env C} {fs : Fs} {nb : Bool} {pydefFile stubFile sep : Str} (h : Started fs nb pydefFile stubFile sep)
    (hb : e.runBlack = false) : Outputs e fs pydefFile stubFile sep (startPieces nb pydefFile stubFile) := by
  have hp : startPieces nb pydefFile stubFile pydefFile = pybindPieces nb := if_pos rfl
  have hs : startPieces nb pydefFile stubFile stubFile = stubPieces := by
    unfold startPieces
    rw [if_neg h.stub_ne, if_pos rfl]
  refine ⟨?_, ?_, ?_, h.stub_ne, ?_, fun hr => absurd (hr.symm.trans hb) (by decide)⟩
  · rw [hp]
    refine ⟨by rw [h.pydef, pybind_text], (pybind_wf nb).1, (pybind_wf nb).2, ?_⟩
    intro t ht
    rw [List.mem_singleton.1 ht]
    cases nb
    · exact ⟨_, _, _, List.mem_append.2 (.inr (.tail _ (List.mem_append.2 (.inr (.head _)))))⟩
    · exact ⟨_, _, _, List.mem_append.2 (.inr (.tail _ (List.mem_append.2 (.inr (.head _)))))⟩
  · rw [hs]
    refine ⟨by rw [h.stub, stub_text], stub_wf.1, stub_wf.2, ?_⟩
    intro t ht
    rw [List.mem_singleton.1 ht]
    exact ⟨_, _, _, List.mem_append.2 (.inr (.head _))⟩
  · unfold gluePath
    by_cases e0 : sep = []
    · rw [if_pos e0, hp]
      refine ⟨by rw [h.pydef, pybind_text], (pybind_wf nb).1, (pybind_wf nb).2, ?_⟩
      intro t ht
      rw [List.mem_singleton.1 ht]
      cases nb
      · exact ⟨_, _, _, List.mem_append.2 (.inr (.head _))⟩
      · exact ⟨_, _, _, List.mem_append.2 (.inr (.head _))⟩
    · obtain ⟨h1, h2, h3⟩ := h.glue e0
      have hg : startPieces nb pydefFile stubFile sep = gluePieces := by
        unfold startPieces
        rw [if_neg h2, if_neg h3]
      rw [if_neg e0, hg]
      refine ⟨by rw [h1, glue_text], glue_wf.1, glue_wf.2, ?_⟩
      intro t ht
      rw [List.mem_singleton.1 ht]
      exact ⟨_, _, _, List.mem_append.2 (.inr (.head _))⟩
  · unfold gluePath
    by_cases e0 : sep = []
    · rw [if_pos e0]; exact h.stub_ne
    · rw [if_neg e0]; exact fun k => (h.glue e0).2.2 k.symm

theorem one_pydef (nb : Bool) : AtMostOne "litgen_pydef".toList (pybindPieces nb) := by
  cases nb
  · refine atMostOne_plain _ _ (.other _ _ _ _ _ (by decide) ?_)
    exact atMostOne_plain _ _ (.this _ _ _ _ (fun _ _ _ => not_region_plain _ _ _ _ _))
  · refine atMostOne_plain _ _ (.other _ _ _ _ _ (by decide) ?_)
    exact atMostOne_plain _ _ (.this _ _ _ _ (fun _ _ _ => not_region_plain _ _ _ _ _))

theorem not_region_two {tok u o o' : Str} {b b' : List Str} {c c' : Str} {x y : List Str} (h : u ≠ tok) :
    Piece.region tok o b c ∉ x.map Piece.outside ++ .region u o' b' c' :: y.map Piece.outside := by
  intro hm
  rcases List.mem_append.1 hm with k | k
  · exact not_region_plain _ _ _ _ _ k
  · rcases List.mem_cons.1 k with k | k
    · injection k with k1
      exact h k1.symm
    · exact not_region_plain _ _ _ _ _ k

theorem one_glue (nb : Bool) : AtMostOne "litgen_glue_code".toList (pybindPieces nb) := by
  cases nb
  · refine atMostOne_plain _ _ (.this _ _ _ _ ?_)
    exact fun _ _ _ => not_region_two (by decide)
  · refine atMostOne_plain _ _ (.this _ _ _ _ ?_)
    exact fun _ _ _ => not_region_two (by decide)

theorem one_stub : AtMostOne "litgen_stub".toList stubPieces :=
  atMostOne_plain _ _ (.this _ _ _ _ (fun _ _ _ => not_region_plain _ _ _ _ _))

theorem one_glue_file : AtMostOne "litgen_glue_code".toList gluePieces :=
  atMostOne_plain _ _ (.this _ _ _ _ (fun _ _ _ => not_region_plain _ _ _ _ _))

/-- C106: from the proposed files the generation of any headers ends without error, with the binding code, the glue code and the stub of all the
headers in the files, where nothing else is changed. -/
theorem C106_start (e : Env C) (c : C) (fs : Fs) (nb : Bool) (headers : List Str) (pydefFile stubFile sep : Str) (gen : Generator C)
    (hs : Started fs nb pydefFile stubFile sep) (hb : e.runBlack = false) (hne : headers ≠ [])
    (hh : ∀ h ∈ headers, h ∉ [pydefFile, stubFile, gluePath pydefFile sep]) (hall : processAll e fs ⟨c, []⟩ headers = some gen)
    (hclear : ∀ pre, pre ≠ [] → pre <+: headers → ∀ g, processAll e fs ⟨c, []⟩ pre = some g → CodesClear e g) :
    (writeForFiles e c fs headers pydefFile stubFile sep).2 = none ∧
    (∃ qs, (writeForFiles e c fs headers pydefFile stubFile sep).1 pydefFile = some (text qs) ∧
      SameBut tokens (pybindPieces nb) qs ∧ Filled "litgen_pydef".toList (pydefCode e gen) qs) ∧
    (∃ qs, (writeForFiles e c fs headers pydefFile stubFile sep).1 (gluePath pydefFile sep) = some (text qs) ∧
      SameBut tokens (if sep = [] then pybindPieces nb else gluePieces) qs ∧ Filled "litgen_glue_code".toList (glueCode e gen) qs) ∧
    ∃ qs, (writeForFiles e c fs headers pydefFile stubFile sep).1 stubFile = some (text qs) ∧
      SameBut tokens stubPieces qs ∧ Filled "litgen_stub".toList (stubCode e gen) qs := by
  have ho := start_outputs (e := e) hs hb
  have hp : startPieces nb pydefFile stubFile pydefFile = pybindPieces nb := if_pos rfl
  have hst : startPieces nb pydefFile stubFile stubFile = stubPieces := by
    unfold startPieces
    rw [if_neg hs.stub_ne, if_pos rfl]
  have hg : startPieces nb pydefFile stubFile (gluePath pydefFile sep) = if sep = [] then pybindPieces nb else gluePieces := by
    unfold gluePath
    by_cases e0 : sep = []
    · rw [if_pos e0, if_pos e0, hp]
    · obtain ⟨_, h2, h3⟩ := hs.glue e0
      rw [if_neg e0, if_neg e0]
      unfold startPieces
      rw [if_neg h2, if_neg h3]
  have k := C47_content e c fs headers pydefFile stubFile sep _ gen ho hne hh hall hclear (hp ▸ one_pydef nb)
    (by rw [hg]; by_cases e0 : sep = []
        · rw [if_pos e0]; exact one_glue nb
        · rw [if_neg e0]; exact one_glue_file) (hst ▸ one_stub)
  rw [hp, hg, hst] at k
  refine ⟨?_, k.1, k.2.1, k.2.2 hb⟩
  have := C47_history e c fs headers pydefFile stubFile sep _ gen ho hne hh hall hclear
  exact this.2

/-- A project with the proposed files and two headers. -/
def started : Fs := fun x =>
  if x = "py.cpp".toList then some (typicalPybind false) else if x = "m.pyi".toList then some typicalStub else disk x

example : Started started false "py.cpp".toList "m.pyi".toList [] ∧ env.runBlack = false ∧
    (∀ h ∈ ["a.h".toList, "b.h".toList], h ∉ ["py.cpp".toList, "m.pyi".toList, gluePath "py.cpp".toList []]) ∧
    (processAll env started ⟨0, []⟩ ["a.h".toList, "b.h".toList]).isSome = true ∧
    (writeForFiles env 0 started ["a.h".toList, "b.h".toList] "py.cpp".toList "m.pyi".toList []).2 = none :=
  ⟨⟨rfl, rfl, fun h => absurd rfl h, by decide⟩, rfl, by decide +kernel, by decide +kernel, by decide +kernel⟩

/-- The full statement: the braces of the proposed C++ files are closed. -/
def C106_braces_statement : Prop := ∀ f ∈ [typicalPybind false, typicalPybind true, typicalGlue], f.count '{' = f.count '}'

/-- C106: the proposed file for the glue code has a brace `}` which closes nothing. -/
theorem C106_braces_fails : ¬ C106_braces_statement := by
  intro h
  have := h typicalGlue (by simp)
  revert this
  decide +kernel

/-- C106: those of the bindings are closed. -/
theorem C106_braces_partial : ∀ f ∈ [typicalPybind false, typicalPybind true], f.count '{' = f.count '}' := by
  intro f hf
  rcases List.mem_cons.1 hf with rfl | hf
  · decide +kernel
  · rw [List.mem_singleton.1 hf]; decide +kernel

/-- The full statement: the lines of the stub that announce the generated code and its end stay in the file. -/
def C106_banner_statement : Prop := ∀ (l : Str), l ∈ stubLines → contains l "AUTOGENERATED CODE".toList = true → Piece.outside l ∈ stubPieces

/-- C106: the one that announces the end is before the closing marker: it is removed by the first generation. -/
theorem C106_banner_fails : ¬ C106_banner_statement := by
  intro h
  have h1 : ∀ l ∈ stubLines, contains l "AUTOGENERATED CODE".toList = true → l ∈ stubPieces.filterMap
      (fun p => match p with | .outside x => some x | .region .. => none) :=
    fun l hl hc => List.mem_filterMap.2 ⟨_, h l hl hc, rfl⟩
  revert h1
  decide +kernel

end Verif.Gen.Props
