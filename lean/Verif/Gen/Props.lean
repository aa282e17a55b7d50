import Verif.Gen.LemmasRun

/-! C47: generating the code of several headers. -/

namespace Verif.Gen.Props
open Verif.Py Verif.Gen.Spec

variable {C : Type}

/-! ### Writing after each header -/

/-- C47. Whatever the headers, writing the three codes after each of them leaves in the files what a single write after the last one would:
for every context and every adaptation of the headers, provided that the files are well-formed, that the headers are not among them, that
no generated code mentions the markers, and that the formatter of stubs only changes what is between the markers. There is no
exception. -/
theorem C47_history (e : Env C) (c : C) (fs : Fs) (headers : List Str) (pydefFile stubFile glueFile : Str) (F : Str → List Piece)
    (gen : Generator C) (ho : Outputs e fs pydefFile stubFile glueFile F) (hne : headers ≠ [])
    (hh : ∀ h ∈ headers, h ∉ [pydefFile, stubFile, gluePath pydefFile glueFile])
    (hall : processAll e fs ⟨c, []⟩ headers = some gen)
    (hclear : ∀ pre, pre ≠ [] → pre <+: headers → ∀ g, processAll e fs ⟨c, []⟩ pre = some g → CodesClear e g) :
    writeForFiles e c fs headers pydefFile stubFile glueFile = writeGenerated e gen fs pydefFile stubFile glueFile ∧
    (writeForFiles e c fs headers pydefFile stubFile glueFile).2 = none := by
  have h := (run_files ho headers ⟨c, []⟩ gen fs (inv_init ho) hh hall hclear hne).1
  have hc : CodesClear e gen := hclear headers hne (List.prefix_refl _) gen hall
  have hw := (write_step ho gen hc fs (inv_init ho)).1
  unfold writeForFiles
  rw [h]
  exact ⟨Prod.ext rfl hw.symm, rfl⟩

/-- C47. Without headers, nothing is written. -/
theorem C47_no_header (e : Env C) (c : C) (fs : Fs) (p s g : Str) : writeForFiles e c fs [] p s g = (fs, none) := rfl

/-- C47. The files other than the output files are left alone, and in the output files only the bodies of the regions change. -/
theorem C47_outside (e : Env C) (c : C) (fs : Fs) (headers : List Str) (pydefFile stubFile glueFile : Str) (F : Str → List Piece)
    (gen : Generator C) (ho : Outputs e fs pydefFile stubFile glueFile F) (hne : headers ≠ [])
    (hh : ∀ h ∈ headers, h ∉ [pydefFile, stubFile, gluePath pydefFile glueFile])
    (hall : processAll e fs ⟨c, []⟩ headers = some gen)
    (hclear : ∀ pre, pre ≠ [] → pre <+: headers → ∀ g, processAll e fs ⟨c, []⟩ pre = some g → CodesClear e g) (x : Str) :
    (x ∉ [pydefFile, stubFile, gluePath pydefFile glueFile] →
      (writeForFiles e c fs headers pydefFile stubFile glueFile).1 x = fs x) ∧
    (x ∈ [pydefFile, stubFile, gluePath pydefFile glueFile] → ∃ qs,
      (writeForFiles e c fs headers pydefFile stubFile glueFile).1 x = some (text qs) ∧ SameBut tokens (F x) qs) := by
  have h := (run_files ho headers ⟨c, []⟩ gen fs (inv_init ho) hh hall hclear hne).2
  rw [(C47_history e c fs headers pydefFile stubFile glueFile F gen ho hne hh hall hclear).1]
  refine ⟨fun hx => h.rest x hx, fun hx => ?_⟩
  obtain ⟨qs, h1, h2, _⟩ := h.out x hx
  refine ⟨qs, h1, sameBut_mono ?_ h2⟩
  intro t ht
  unfold written at ht
  simp only [List.mem_append] at ht
  rcases ht with (ht | ht) | ht
  · split at ht
    · rw [List.mem_singleton.1 ht]; decide
    · simp at ht
  · split at ht
    · rw [List.mem_singleton.1 ht]; decide
    · simp at ht
  · split at ht
    · rw [List.mem_singleton.1 ht]; decide
    · simp at ht

/-! A run with two headers: the context counts the functions. -/

def env : Env Nat where
  process := fun n code _ => ((code ++ " stub\n".toList, code ++ " pydef\n".toList), n + 1)
  boxed := fun n => if n > 1 then some ("box stub\n".toList, "box pydef\n".toList) else none
  boxedCpp := fun n => if n > 1 then "struct Box {};\n".toList else []
  virtualGlue := fun _ => []
  protectedGlue := fun _ => []
  black := id
  runBlack := false
  nbParents := 0
  postprocessPydef := none
  postprocessStub := none
  omitBoxed := false

def files : Str → List Piece := fun x =>
  if x = "py.cpp".toList then
    [.region "litgen_glue_code".toList "// <litgen_glue_code>".toList [] "// </litgen_glue_code>".toList,
     .outside "void init() {".toList,
     .region "litgen_pydef".toList "  // <litgen_pydef>".toList ["  old".toList] "  // </litgen_pydef>".toList, .outside "}".toList]
  else [.region "litgen_stub".toList "# <litgen_stub>".toList [] "# </litgen_stub>".toList]

def disk : Fs := fun x =>
  if x = "py.cpp".toList then some (text (files x)) else if x = "m.pyi".toList then some (text (files x))
  else if x = "a.h".toList then some "f".toList else if x = "b.h".toList then some "g".toList else none

instance (l m : Str) : Decidable (Markers.Spec.Mentions l m) :=
  decidable_of_iff (contains l m = true) (Markers.contains_mentions l m)
instance (l : Str) : Decidable (NoMarker l) := inferInstanceAs (Decidable (∀ t ∈ tokens, _))
instance (l m : Str) : Decidable (Only l m) := inferInstanceAs (Decidable (_ ∧ ∀ t ∈ tokens, _))

instance : (p : Piece) → Decidable p.WF
  | .outside l => inferInstanceAs (Decidable (NoMarker l))
  | .region t o b c => inferInstanceAs (Decidable (t ∈ tokens ∧ Only o (Markers.Spec.opening t) ∧ (∀ l ∈ b, NoMarker l) ∧
      Only c (Markers.Spec.closing t)))

theorem files_cpp : files "py.cpp".toList =
    [.region "litgen_glue_code".toList "// <litgen_glue_code>".toList [] "// </litgen_glue_code>".toList,
     .outside "void init() {".toList,
     .region "litgen_pydef".toList "  // <litgen_pydef>".toList ["  old".toList] "  // </litgen_pydef>".toList, .outside "}".toList] := rfl

theorem files_pyi : files "m.pyi".toList =
    [.region "litgen_stub".toList "# <litgen_stub>".toList [] "# </litgen_stub>".toList] := rfl

theorem disk_outputs : Outputs env disk "py.cpp".toList "m.pyi".toList [] files := by
  have w : ∀ p ∈ files "py.cpp".toList, p.WF := by decide +kernel
  have n : ∀ l ∈ (files "py.cpp".toList).flatMap Piece.lines, '\n' ∉ l := by decide +kernel
  have w' : ∀ p ∈ files "m.pyi".toList, p.WF := by decide +kernel
  have n' : ∀ l ∈ (files "m.pyi".toList).flatMap Piece.lines, '\n' ∉ l := by decide +kernel
  refine ⟨⟨by decide +kernel, w, n, ?_⟩, ⟨by decide +kernel, w', n', ?_⟩, ⟨by decide +kernel, w, n, ?_⟩, by decide, by decide,
    fun h => absurd h (by decide)⟩
  · intro t ht; rw [List.mem_singleton.1 ht, files_cpp]; exact ⟨_, _, _, .tail _ (.tail _ (.head _))⟩
  · intro t ht; rw [List.mem_singleton.1 ht, files_pyi]; exact ⟨_, _, _, .head _⟩
  · intro t ht; rw [List.mem_singleton.1 ht]; exact ⟨_, _, _, by rw [show gluePath "py.cpp".toList [] = "py.cpp".toList from rfl, files_cpp]; exact .head _⟩

def gens : List (List GeneratedCode) :=
  [[⟨"a.h".toList, "f pydef\n".toList, "f stub\n".toList⟩],
   [⟨"a.h".toList, "f pydef\n".toList, "f stub\n".toList⟩, ⟨"b.h".toList, "g pydef\n".toList, "g stub\n".toList⟩]]

example : (∀ h ∈ ["a.h".toList, "b.h".toList], h ∉ ["py.cpp".toList, "m.pyi".toList, gluePath "py.cpp".toList []]) ∧
    (∀ pre, pre ≠ [] → pre <+: ["a.h".toList, "b.h".toList] → ∀ g, processAll env disk ⟨0, []⟩ pre = some g → CodesClear env g) ∧
    (writeForFiles env 0 disk ["a.h".toList, "b.h".toList] "py.cpp".toList "m.pyi".toList []).1 "py.cpp".toList = some (text
      [.region "litgen_glue_code".toList "// <litgen_glue_code>".toList ["struct Box {};".toList, []] "// </litgen_glue_code>".toList,
       .outside "void init() {".toList,
       .region "litgen_pydef".toList "  // <litgen_pydef>".toList
         ["  ////////////////////    <generated_from:BoxedTypes>    ////////////////////".toList, "  box pydef".toList,
          "  ////////////////////    </generated_from:BoxedTypes>    ////////////////////".toList, [], [],
          "  ////////////////////    <generated_from:a.h>    ////////////////////".toList, "  f pydef".toList,
          "  ////////////////////    </generated_from:a.h>    ////////////////////".toList, [], [],
          "  ////////////////////    <generated_from:b.h>    ////////////////////".toList, "  g pydef".toList,
          "  ////////////////////    </generated_from:b.h>    ////////////////////".toList, []] "  // </litgen_pydef>".toList,
       .outside "}".toList]) := by
  refine ⟨by decide +kernel, ?_, by decide +kernel⟩
  intro pre hne hpre g hg
  have : pre = ["a.h".toList] ∨ pre = ["a.h".toList, "b.h".toList] := by
    obtain ⟨t, ht⟩ := hpre
    cases pre with
    | nil => exact absurd rfl hne
    | cons x pre =>
      injection ht with h1 h2
      cases pre with
      | nil => left; rw [h1]
      | cons y pre =>
        injection h2 with h2 h3
        cases pre with
        | nil => right; rw [h1, h2]
        | cons z pre => simp at h3
  rcases this with rfl | rfl
  · have e : processAll env disk ⟨0, []⟩ ["a.h".toList] = some ⟨1, gens[0]⟩ := rfl
    rw [e] at hg
    obtain rfl := Option.some.inj hg
    exact ⟨by decide +kernel, by decide +kernel, by decide +kernel⟩
  · have e : processAll env disk ⟨0, []⟩ ["a.h".toList, "b.h".toList] = some ⟨2, gens[1]⟩ := rfl
    rw [e] at hg
    obtain rfl := Option.some.inj hg
    exact ⟨by decide +kernel, by decide +kernel, by decide +kernel⟩

/-! ### The contents -/

theorem filled_none (t code : Str) (ps : List Piece) (h : ∀ o b c, Piece.region t o b c ∉ ps) : Filled t code (fillM t code ps) ∧
    ∀ d, fillM t d ps = ps := by
  induction ps with
  | nil => exact ⟨.nil, fun _ => rfl⟩
  | cons p ps ih =>
    obtain ⟨h1, h2⟩ := ih (fun o b c hm => h o b c (List.mem_cons_of_mem _ hm))
    cases p with
    | outside l => exact ⟨.outside l _ h1, fun d => by rw [fillM, h2]⟩
    | region u o b c =>
      have hu : u ≠ t := fun e => h o b c (by rw [e]; exact List.mem_cons_self)
      exact ⟨by rw [fillM, if_neg hu]; exact .other u o b c _ hu h1, fun d => by rw [fillM, if_neg hu, h2]⟩

theorem filled_fill (t code : Str) (ps : List Piece) (h : AtMostOne t ps) : Filled t code (fillM t code ps) := by
  induction h with
  | nil => exact .nil
  | outside l _ _ ih => exact .outside l _ ih
  | other u o b c _ hu _ ih => rw [fillM, if_neg hu]; exact .other u o b c _ hu ih
  | this o b c ps hn =>
    rw [fillM, if_pos rfl, Markers.lines_ins]
    refine .region o c _ ?_
    obtain ⟨h1, h2⟩ := filled_none t code ps hn
    rw [h2] at h1 ⊢
    exact h1

theorem filled_other (t u code d : Str) (hut : u ≠ t) (ps : List Piece) (h : Filled t code ps) : Filled t code (fillM u d ps) := by
  induction h generalizing d with
  | nil => exact .nil
  | outside l _ _ ih => exact .outside l _ (ih d)
  | other v o b c _ hv _ ih =>
    rw [fillM]
    split
    · exact .other v o _ c _ hv (ih _)
    · exact .other v o b c _ hv (ih d)
  | region o c _ _ ih => rw [fillM, if_neg (Ne.symm hut)]; exact .region o c _ (ih d)

/-- C47. When the C++ files have one region of each kind, the region of the bindings holds the binding code of all the headers, and that of
the glue code the whole glue code. -/
theorem C47_content (e : Env C) (c : C) (fs : Fs) (headers : List Str) (pydefFile stubFile glueFile : Str) (F : Str → List Piece)
    (gen : Generator C) (ho : Outputs e fs pydefFile stubFile glueFile F) (hne : headers ≠ [])
    (hh : ∀ h ∈ headers, h ∉ [pydefFile, stubFile, gluePath pydefFile glueFile])
    (hall : processAll e fs ⟨c, []⟩ headers = some gen)
    (hclear : ∀ pre, pre ≠ [] → pre <+: headers → ∀ g, processAll e fs ⟨c, []⟩ pre = some g → CodesClear e g)
    (h1 : AtMostOne "litgen_pydef".toList (F pydefFile)) (h2 : AtMostOne "litgen_glue_code".toList (F (gluePath pydefFile glueFile)))
    (h3 : AtMostOne "litgen_stub".toList (F stubFile)) :
    (∃ qs, (writeForFiles e c fs headers pydefFile stubFile glueFile).1 pydefFile = some (text qs) ∧
      SameBut tokens (F pydefFile) qs ∧ Filled "litgen_pydef".toList (pydefCode e gen) qs) ∧
    (∃ qs, (writeForFiles e c fs headers pydefFile stubFile glueFile).1 (gluePath pydefFile glueFile) = some (text qs) ∧
      SameBut tokens (F (gluePath pydefFile glueFile)) qs ∧ Filled "litgen_glue_code".toList (glueCode e gen) qs) ∧
    (e.runBlack = false → ∃ qs, (writeForFiles e c fs headers pydefFile stubFile glueFile).1 stubFile = some (text qs) ∧
      SameBut tokens (F stubFile) qs ∧ Filled "litgen_stub".toList (stubCode e gen) qs) := by
  have hc : CodesClear e gen := hclear headers hne (List.prefix_refl _) gen hall
  rw [(C47_history e c fs headers pydefFile stubFile glueFile F gen ho hne hh hall hclear).1]
  have hr := write_result e gen fs pydefFile stubFile glueFile (F pydefFile) (F stubFile) (F (gluePath pydefFile glueFile)) ho.stub_ne_pydef
    ho.stub_ne_glue ho.pydef.1 ho.pydef.2 ho.stub.1 ho.stub.2 ho.glue.1 ho.glue.2 (fun h => by rw [h]) hc.1
  rw [hr]
  have hsp := ho.stub_ne_pydef
  have hsg := ho.stub_ne_glue
  clear hr ho hh hall hclear
  generalize gluePath pydefFile glueFile = g at *
  simp only [result]
  have m1 : ∀ t ∈ [tokP], t ∈ tokens := by decide
  have m2 : ∀ t ∈ [tokG], t ∈ tokens := by decide
  have m3 : ∀ t ∈ [tokS], t ∈ tokens := by decide
  have hGP : tokG ≠ tokP := by decide
  refine ⟨?_, ?_, ?_⟩
  · by_cases hg : g = pydefFile
    · subst hg
      rw [set_same, if_pos rfl]
      exact ⟨_, rfl, sameBut_trans (sameBut_mono m1 (sameBut_fill tokP _ _)) (sameBut_mono m2 (sameBut_fill tokG _ _)),
        filled_other tokP tokG _ _ hGP _ (filled_fill tokP _ _ h1)⟩
    · rw [set_ne _ _ _ _ (Ne.symm hg), set_ne _ _ _ _ (Ne.symm hsp), set_same]
      exact ⟨_, rfl, sameBut_mono m1 (sameBut_fill tokP _ _), filled_fill tokP _ _ h1⟩
  · rw [set_same]
    split
    · have ha : AtMostOne tokG (fillM tokP (pydefCode e gen) (F g)) := by
        have key : ∀ (ps : List Piece) (d : Str), AtMostOne tokG ps → AtMostOne tokG (fillM tokP d ps) := by
          intro ps d h
          induction h generalizing d with
          | nil => exact .nil
          | outside l _ _ ih => exact .outside l _ (ih d)
          | other v o b c _ hv _ ih =>
            rw [fillM]
            split
            · exact .other v o _ c _ hv (ih _)
            · exact .other v o b c _ hv (ih d)
          | this o b c ps hn =>
            rw [fillM, if_neg hGP]
            refine .this o b c _ (fun o' b' c' hm => ?_)
            obtain ⟨o2, b2, c2, h2⟩ := sameBut_regions (sameBut_symm (sameBut_fill tokP d ps)) tokG ⟨o', b', c', hm⟩
            exact hn o2 b2 c2 h2
        exact key _ _ h2
      exact ⟨_, rfl, sameBut_trans (sameBut_mono m1 (sameBut_fill tokP _ _)) (sameBut_mono m2 (sameBut_fill tokG _ _)),
        filled_fill tokG _ _ ha⟩
    · exact ⟨_, rfl, sameBut_mono m2 (sameBut_fill tokG _ _), filled_fill tokG _ _ h2⟩
  · intro hb
    rw [set_ne _ _ _ _ hsg, set_same, hb]
    exact ⟨_, rfl, sameBut_mono m3 (sameBut_fill tokS _ _), filled_fill tokS _ _ h3⟩

example : AtMostOne "litgen_pydef".toList (files "py.cpp".toList) := by
  unfold files
  rw [if_pos rfl]
  exact .other _ _ _ _ _ (by decide) (.outside _ _ (.this _ _ _ _ (by simp)))

/-- C47. The generator holds one code for each header, in the order of the headers: the one made with the context that the previous headers
left. The codes of the boxed types come first. -/
theorem C47_blocks (e : Env C) (c : C) (fs : Fs) (headers : List Str) (gen : Generator C)
    (hall : processAll e fs ⟨c, []⟩ headers = some gen) :
    gen.codes.map GeneratedCode.source = headers ∧
    (∀ pre h post, headers = pre ++ h :: post → ∃ g code, processAll e fs ⟨c, []⟩ pre = some g ∧ fs h = some code ∧
      gen.codes[pre.length]? = some ⟨h, (e.process g.ctx code h).1.2, (e.process g.ctx code h).1.1⟩) ∧
    ∃ boxed, codesWithBoxed e gen = boxed ++ gen.codes ∧ boxed.length ≤ 1 ∧
      (boxed ≠ [] ↔ e.omitBoxed = false ∧ (e.boxed gen.ctx).isSome = true) := by
  have key : ∀ (hs : List Str) (g0 g1 : Generator C), processAll e fs g0 hs = some g1 →
      g1.codes.map GeneratedCode.source = g0.codes.map GeneratedCode.source ++ hs ∧
      g0.codes <+: g1.codes ∧
      ∀ pre h post, hs = pre ++ h :: post → ∃ g code, processAll e fs g0 pre = some g ∧ fs h = some code ∧
        g1.codes[g0.codes.length + pre.length]? = some ⟨h, (e.process g.ctx code h).1.2, (e.process g.ctx code h).1.1⟩ := by
    intro hs
    induction hs with
    | nil =>
      intro g0 g1 h
      rw [processAll] at h
      obtain rfl := Option.some.inj h
      exact ⟨by simp, List.prefix_refl _, fun pre h post he => by simp at he⟩
    | cons x xs ih =>
      intro g0 g1 h
      rw [processAll] at h
      cases hx : fs x with
      | none => rw [hx] at h; simp at h
      | some code =>
        rw [hx] at h
        obtain ⟨i1, i2, i3⟩ := ih _ _ h
        refine ⟨?_, ?_, ?_⟩
        · rw [i1]; simp [processCode]
        · exact (List.prefix_append _ _).trans i2
        · intro pre y post he
          cases pre with
          | nil =>
            injection he with he1 he2
            subst he1
            refine ⟨g0, code, rfl, hx, ?_⟩
            obtain ⟨t, ht⟩ := i2
            rw [← ht]
            simp [processCode]
          | cons z pre =>
            injection he with he1 he2
            subst he1
            obtain ⟨g, code', j1, j2, j3⟩ := i3 pre y post he2
            refine ⟨g, code', by rw [processAll, hx]; exact j1, j2, ?_⟩
            rw [← j3]
            congr 1
            simp [processCode]; omega
  obtain ⟨k1, _, k3⟩ := key headers ⟨c, []⟩ gen hall
  refine ⟨by simpa using k1, fun pre h post he => ?_, ?_⟩
  · have := k3 pre h post he
    simpa using this
  · unfold codesWithBoxed
    cases e.omitBoxed with
    | true => exact ⟨[], by simp, by simp, by simp⟩
    | false =>
      cases e.boxed gen.ctx with
      | none => exact ⟨[], by simp, by simp, by simp⟩
      | some r => exact ⟨[⟨"BoxedTypes".toList, r.2, r.1⟩], by simp, by simp, by simp⟩

end Verif.Gen.Props
