import Verif.PimplFile.Model
import Verif.Markers.Props

/-! C117: what `pimpl_my_file` does to the files. -/

namespace Verif.PimplFile.Props
open Verif.Py Verif.PimplFile

/-! ### The name of the header -/

/-- An extension: a point, then characters that are no points. -/
def IsExt (e : Str) : Prop := ∃ t, e = '.' :: t ∧ '.' ∉ t

theorem extensions_isExt : ∀ e ∈ extensions, IsExt e := by
  intro e he
  simp only [extensions, List.mem_cons, List.not_mem_nil, or_false] at he
  rcases he with h | h | h | h | h | h <;> subst h <;> exact ⟨_, rfl, by decide⟩

theorem ext_unique {s s' e e' : Str} (he : IsExt e) (he' : IsExt e') (h : s ++ e = s' ++ e') :
    s = s' ∧ e = e' := by
  obtain ⟨t, rfl, ht⟩ := he
  obtain ⟨t', rfl, ht'⟩ := he'
  rcases List.append_eq_append_iff.1 h with ⟨a, h1, h2⟩ | ⟨a, h1, h2⟩
  · cases a with
    | nil => simp at h1 h2; exact ⟨h1.symm, by rw [h2]⟩
    | cons c a =>
      simp only [List.cons_append, List.cons.injEq] at h2
      exact absurd (by rw [h2.2]; simp) ht
  · cases a with
    | nil => simp at h1 h2; exact ⟨h1, by rw [h2]⟩
    | cons c a =>
      simp only [List.cons_append, List.cons.injEq] at h2
      exact absurd (by rw [h2.2]; simp) ht'

theorem search_found (s e : Str) (he : IsExt e) : ∀ l : List Str, (∀ x ∈ l, IsExt x) → e ∈ l →
    searchHeader (s ++ e) l = some (s ++ ['.', 'h'])
  | [], _, h => by cases h
  | x :: l, hl, h => by
    unfold searchHeader
    by_cases hx : endsWith (s ++ e) x = true
    · rw [if_pos hx]
      obtain ⟨s', hs'⟩ := List.isSuffixOf_iff_suffix.1 hx
      obtain ⟨h1, h2⟩ := ext_unique (hl x (by simp)) he hs'
      subst h2
      simp
    · rw [if_neg hx]
      rcases List.mem_cons.1 h with h | h
      · subst h; exact absurd (List.isSuffixOf_iff_suffix.2 ⟨s, rfl⟩) hx
      · exact search_found s e he l (fun y hy => hl y (by simp [hy])) h

theorem search_none (s : Str) : ∀ l : List Str, searchHeader s l = none ↔ ∀ e ∈ l, ¬ e <:+ s
  | [] => by simp [searchHeader]
  | x :: l => by
    unfold searchHeader
    by_cases hx : endsWith s x = true
    · rw [if_pos hx]
      simp only [reduceCtorEq, false_iff]
      intro h
      exact h x (by simp) (List.isSuffixOf_iff_suffix.1 hx)
    · rw [if_neg hx, search_none s l]
      simp only [List.mem_cons, forall_eq_or_imp]
      exact ⟨fun h => ⟨fun k => hx (List.isSuffixOf_iff_suffix.2 k), h⟩, fun h => h.2⟩

/-- The extensions of the C++ files, as the documentation lists them. -/
def cppExtensions : List Str :=
  [".cpp".toList, ".cc".toList, ".cxx".toList, ".c++".toList, ".c".toList, ".C".toList]

theorem cppExtensions_eq : cppExtensions = extensions := rfl

/-- C117: a name given for the header is used; without one, a name with one of the extensions of C++ gets
`.h` in place of it, whatever precedes; any other name has no header. -/
theorem C117_header (cpp : Str) :
    (∀ h, headerName cpp (some h) = some h) ∧
    (∀ s, ∀ e ∈ cppExtensions, cpp = s ++ e → headerName cpp none = some (s ++ ".h".toList)) ∧
    (headerName cpp none = none ↔ ∀ e ∈ cppExtensions, ¬ e <:+ cpp) := by
  refine ⟨fun _ => rfl, ?_, ?_⟩
  · rintro s e he rfl
    rw [cppExtensions_eq] at he
    exact search_found s e (extensions_isExt e he) extensions extensions_isExt he
  · rw [cppExtensions_eq]
    exact search_none cpp extensions

example : headerName "src/my.class.c++".toList none = some "src/my.class.h".toList ∧
    headerName "src/my_class.hpp".toList none = none := by decide +kernel

/-! ### The files -/

theorem put_same (fs : Files) (n : Str) (c : Option Str) : put fs n c n = c := by simp [put]

theorem put_other (fs : Files) {n m : Str} (c : Option Str) (h : m ≠ n) : put fs n c m = fs m := by
  simp [put, h]

theorem put_id (fs : Files) (n : Str) (c : Option Str) (h : fs n = c) : put fs n c = fs := by
  funext m
  by_cases hm : m = n
  · subst hm; rw [put_same, h]
  · rw [put_other _ _ hm]

/-- C117: whatever happens, exceptions included, only the C++ file and its header may change, and neither
appears nor disappears. -/
theorem C117_others (pimpl : Str → Found) (fs : Files) (cpp : Str) (header : Option Str) (n : Str) :
    (n ≠ cpp → headerName cpp header ≠ some n → (pimplMyFile pimpl fs cpp header).1 n = fs n) ∧
    (((pimplMyFile pimpl fs cpp header).1 n).isSome = (fs n).isSome) := by
  have keep : ∀ (f : Option Str) (tok code : Str),
      (Markers.writeGeneratedCodeBetweenMarkers f tok code).file.isSome = f.isSome := by
    intro f tok code
    cases f with
    | none => rfl
    | some i =>
      simp only [Markers.writeGeneratedCodeBetweenMarkers]
      split
      · rfl
      · split
        · split <;> rfl
        · rfl
  unfold pimplMyFile
  cases hh : headerName cpp header with
  | none => exact ⟨fun _ _ => rfl, rfl⟩
  | some h =>
    simp only
    split
    · exact ⟨fun _ _ => rfl, rfl⟩
    · split
      · exact ⟨fun _ _ => rfl, rfl⟩
      · split
        · exact ⟨fun _ _ => rfl, rfl⟩
        · exact ⟨fun _ _ => rfl, rfl⟩
        · rename_i r _
          have put_some : ∀ (fs : Files) (a : Str) (tok code : Str),
              (put fs a (Markers.writeGeneratedCodeBetweenMarkers (fs a) tok code).file n).isSome =
                (fs n).isSome := by
            intro fs a tok code
            by_cases hn : n = a
            · subst hn; rw [put_same, keep]
            · rw [put_other _ _ hn]
          unfold writeBoth
          simp only
          split
          · exact ⟨fun _ _ => rfl, rfl⟩
          · split
            · exact ⟨fun h1 _ => put_other _ _ h1, put_some _ _ _ _⟩
            · refine ⟨fun h1 h2 => ?_, ?_⟩
              · have hnh : n ≠ h := fun e => h2 (congrArg some e.symm)
                exact (put_other _ _ hnh).trans (put_other _ _ h1)
              · exact (put_some _ _ _ _).trans (put_some _ _ _ _)

/-- C117: when the name of the header is not known, when one of the files does not exist, when the code has
no class, when reading it raises, or when the C++ file cannot be filled, no file changes. -/
theorem C117_nothing_written (pimpl : Str → Found) (fs : Files) (cpp : Str) (header : Option Str)
    (h : (∀ e, (pimplMyFile pimpl fs cpp header).2 ≠ .headerRaised e) ∧
      (pimplMyFile pimpl fs cpp header).2 ≠ .done) :
    (pimplMyFile pimpl fs cpp header).1 = fs := by
  revert h
  unfold pimplMyFile
  split
  · intro _; rfl
  · split
    · intro _; rfl
    · split
      · intro _; rfl
      · split
        · intro _; rfl
        · intro _; rfl
        · unfold writeBoth
          simp only
          split
          · intro _; rfl
          · split
            · rename_i e _; intro h; exact absurd rfl (h.1 e)
            · intro h; exact absurd rfl h.2

/-- C117: which end is reported: the name of the header first, then the header, then the C++ file. -/
theorem C117_missing (pimpl : Str → Found) (fs : Files) (cpp : Str) (header : Option Str) :
    (headerName cpp header = none → (pimplMyFile pimpl fs cpp header).2 = .noHeaderName) ∧
    (∀ h, headerName cpp header = some h → fs h = none →
      (pimplMyFile pimpl fs cpp header).2 = .headerMissing) ∧
    (∀ h t, headerName cpp header = some h → fs h = some t → fs cpp = none →
      (pimplMyFile pimpl fs cpp header).2 = .cppMissing) ∧
    (∀ h t c, headerName cpp header = some h → fs h = some t → fs cpp = some c →
      pimpl c = .noClass → (pimplMyFile pimpl fs cpp header).2 = .nothingFound) := by
  refine ⟨?_, ?_, ?_, ?_⟩
  · intro h; simp [pimplMyFile, h]
  · intro h h1 h2; simp [pimplMyFile, h1, h2]
  · intro h t h1 h2 h3; simp [pimplMyFile, h1, h2, h3]
  · intro h t c h1 h2 h3 h4; simp [pimplMyFile, h1, h2, h3, h4]

example : (pimplMyFile (fun _ => .noClass) (fun n => if n = "a.h".toList then some [] else none)
    "a.cpp".toList none).2 = .cppMissing := by decide +kernel

/-- A well-formed file for a token: its lines are pieces with at least one region. -/
def Regions (tok text : Str) (ps : List Markers.Spec.Piece) : Prop :=
  (∀ p ∈ ps, p.WF tok) ∧ 0 < Markers.Spec.regions ps ∧ lines text = ps.flatMap Markers.Spec.Piece.lines

/-- The tokens, as the documentation of the tool gives them. -/
def glueTok : Str := "pimpl_glue_code".toList
def headerTok : Str := "pimpl_header_code".toList

theorem glueTok_eq : glueTok = glueToken := rfl
theorem headerTok_eq : headerTok = headerToken := rfl

/-- What the two calls leave, for two different files that can be filled. -/
theorem run_eq (pimpl : Str → Found) (fs : Files) (cpp : Str) (header : Option Str) (h ct ht : Str)
    (r : Result) (hh : headerName cpp header = some h) (hne : h ≠ cpp)
    (hc : fs cpp = some ct) (hht : fs h = some ht) (hp : pimpl ct = .codes r)
    (e1 : (Markers.writeGeneratedCodeBetweenMarkers (some ct) glueTok r.glue).error = none)
    (e2 : (Markers.writeGeneratedCodeBetweenMarkers (some ht) headerTok r.header).error = none) :
    pimplMyFile pimpl fs cpp header =
      (put (put fs cpp (Markers.writeGeneratedCodeBetweenMarkers (some ct) glueTok r.glue).file) h
        (Markers.writeGeneratedCodeBetweenMarkers (some ht) headerTok r.header).file, .done) := by
  rw [glueTok_eq] at e1 ⊢
  rw [headerTok_eq] at e2 ⊢
  simp only [pimplMyFile, hh, hht, hc, hp, writeBoth, e1, put_other _ _ hne, e2]

/-- C117: on two files with regions for their codes, the call succeeds; all lines outside the regions are
kept in both files; with one region per file, the body of the region of the C++ file is the glue code and
the body of the region of the header is the header code, indented like the markers. -/
theorem C117_filled (pimpl : Str → Found) (fs : Files) (cpp : Str) (header : Option Str) (h ct ht : Str)
    (r : Result) (ps qs : List Markers.Spec.Piece)
    (hh : headerName cpp header = some h) (hne : h ≠ cpp)
    (hc : fs cpp = some ct) (hht : fs h = some ht) (hp : pimpl ct = .codes r)
    (h1 : Regions glueTok ct ps) (h2 : Regions headerTok ht qs) :
    (pimplMyFile pimpl fs cpp header).2 = .done ∧
    (∃ ps' qs', Markers.SameOutside ps ps' ∧ Markers.SameOutside qs qs' ∧
      (pimplMyFile pimpl fs cpp header).1 cpp = some (Markers.Spec.fileText ps') ∧
      (pimplMyFile pimpl fs cpp header).1 h = some (Markers.Spec.fileText qs')) ∧
    (Markers.Spec.regions ps = 1 → Markers.Spec.regions qs = 1 →
      (pimplMyFile pimpl fs cpp header).1 cpp =
        some (Markers.Spec.fileText (Markers.Spec.filled r.glue ps)) ∧
      (pimplMyFile pimpl fs cpp header).1 h =
        some (Markers.Spec.fileText (Markers.Spec.filled r.header qs))) := by
  have e1 := (congrArg Markers.Outcome.error (Markers.write_wf glueTok r.glue ct true ps h1.1 h1.2.1 h1.2.2))
  have e2 := (congrArg Markers.Outcome.error
    (Markers.write_wf headerTok r.header ht true qs h2.1 h2.2.1 h2.2.2))
  have hr := run_eq pimpl fs cpp header h ct ht r hh hne hc hht hp e1 e2
  have f1 : (pimplMyFile pimpl fs cpp header).1 cpp =
      (Markers.writeGeneratedCodeBetweenMarkers (some ct) glueTok r.glue).file := by
    rw [hr]; simp only; rw [put_other _ _ (Ne.symm hne), put_same]
  have f2 : (pimplMyFile pimpl fs cpp header).1 h =
      (Markers.writeGeneratedCodeBetweenMarkers (some ht) headerTok r.header).file := by
    rw [hr]; simp only; rw [put_same]
  refine ⟨by rw [hr], ?_, ?_⟩
  · obtain ⟨ps', s1, t1⟩ := Markers.C08_outside_kept glueTok r.glue ct true ps h1.1 h1.2.1 h1.2.2
    obtain ⟨qs', s2, t2⟩ := Markers.C08_outside_kept headerTok r.header ht true qs h2.1 h2.2.1 h2.2.2
    exact ⟨ps', qs', s1, s2, by rw [f1, t1], by rw [f2, t2]⟩
  · intro k1 k2
    rw [f1, f2]
    exact ⟨(Markers.C08_one_region_partial glueTok r.glue ct ps h1.1 k1 h1.2.2).1,
      (Markers.C08_one_region_partial headerTok r.header ht qs h2.1 k2 h2.2.2).1⟩

/-- C117: if the codes mention no marker of their file and the glue code in the C++ file does not change
what is found there, a second call changes no file and succeeds. -/
theorem C117_twice (pimpl : Str → Found) (fs : Files) (cpp : Str) (header : Option Str) (h ct ht : Str)
    (r : Result) (ps qs : List Markers.Spec.Piece)
    (hh : headerName cpp header = some h) (hne : h ≠ cpp)
    (hc : fs cpp = some ct) (hht : fs h = some ht) (hp : pimpl ct = .codes r)
    (h1 : Regions glueTok ct ps) (h2 : Regions headerTok ht qs)
    (m1 : ¬ Markers.Spec.Mentions r.glue (Markers.Spec.opening glueTok) ∧
      ¬ Markers.Spec.Mentions r.glue (Markers.Spec.closing glueTok))
    (m2 : ¬ Markers.Spec.Mentions r.header (Markers.Spec.opening headerTok) ∧
      ¬ Markers.Spec.Mentions r.header (Markers.Spec.closing headerTok))
    (again : ∀ t, (pimplMyFile pimpl fs cpp header).1 cpp = some t → pimpl t = .codes r) :
    pimplMyFile pimpl (pimplMyFile pimpl fs cpp header).1 cpp header =
      ((pimplMyFile pimpl fs cpp header).1, .done) := by
  obtain ⟨_, ⟨ps', qs', _, _, g1, g2⟩, _⟩ :=
    C117_filled pimpl fs cpp header h ct ht r ps qs hh hne hc hht hp h1 h2
  have e1 := (congrArg Markers.Outcome.error (Markers.write_wf glueTok r.glue ct true ps h1.1 h1.2.1 h1.2.2))
  have e2 := (congrArg Markers.Outcome.error
    (Markers.write_wf headerTok r.header ht true qs h2.1 h2.2.1 h2.2.2))
  have hr := run_eq pimpl fs cpp header h ct ht r hh hne hc hht hp e1 e2
  have i1 := Markers.C09_idempotent glueTok r.glue ct true ps h1.1 h1.2.1 h1.2.2 m1.1 m1.2
  have i2 := Markers.C09_idempotent headerTok r.header ht true qs h2.1 h2.2.1 h2.2.2 m2.1 m2.2
  have f1 : (Markers.writeGeneratedCodeBetweenMarkers (some ct) glueTok r.glue).file =
      some (Markers.Spec.fileText ps') := by
    rw [← g1, hr]; simp only; rw [put_other _ _ (Ne.symm hne), put_same]
  have f2 : (Markers.writeGeneratedCodeBetweenMarkers (some ht) headerTok r.header).file =
      some (Markers.Spec.fileText qs') := by
    rw [← g2, hr]; simp only; rw [put_same]
  simp only [f1] at i1
  simp only [f2] at i2
  rw [run_eq pimpl _ cpp header h (Markers.Spec.fileText ps') (Markers.Spec.fileText qs') r hh hne g1 g2
    (again _ g1) (by rw [i1]) (by rw [i2]), i1, i2]
  simp only
  rw [put_id _ cpp _ g1, put_id _ h _ g2]

/-- Two small files with their regions. -/
def exCpp : List Markers.Spec.Piece :=
  [.outside "struct A {};".toList, .region "// <pimpl_glue_code>".toList [] "// </pimpl_glue_code>".toList]
def exHeader : List Markers.Spec.Piece :=
  [.region "  // <pimpl_header_code>".toList ["old".toList] "  // </pimpl_header_code>".toList]

theorem not_mentions {l m : Str} (h : contains l m = false) : ¬ Markers.Spec.Mentions l m := by
  intro h'
  rw [(Markers.contains_mentions l m).2 h'] at h
  exact Bool.noConfusion h

theorem exCpp_regions : Regions glueTok (Markers.Spec.fileText exCpp) exCpp := by
  refine ⟨?_, by decide, by decide +kernel⟩
  intro p hp
  rcases List.mem_cons.1 hp with h | h
  · subst h
    exact ⟨not_mentions (by decide +kernel), not_mentions (by decide +kernel)⟩
  · rcases List.mem_cons.1 h with h | h
    · subst h
      exact ⟨(Markers.contains_mentions _ _).1 (by decide +kernel), not_mentions (by decide +kernel),
        (fun l hl => by cases hl), not_mentions (by decide +kernel),
        (Markers.contains_mentions _ _).1 (by decide +kernel)⟩
    · cases h

theorem exHeader_regions : Regions headerTok (Markers.Spec.fileText exHeader) exHeader := by
  refine ⟨?_, by decide, by decide +kernel⟩
  intro p hp
  rcases List.mem_cons.1 hp with h | h
  · subst h
    refine ⟨(Markers.contains_mentions _ _).1 (by decide +kernel), not_mentions (by decide +kernel), ?_,
      not_mentions (by decide +kernel), (Markers.contains_mentions _ _).1 (by decide +kernel)⟩
    intro l hl
    rcases List.mem_cons.1 hl with h | h
    · subst h; exact ⟨not_mentions (by decide +kernel), not_mentions (by decide +kernel)⟩
    · cases h
  · cases h

/-- The files of the example. -/
def exFiles : Files := fun n =>
  if n = "a.cpp".toList then some (Markers.Spec.fileText exCpp)
  else if n = "a.h".toList then some (Markers.Spec.fileText exHeader) else none

def exPimpl : Str → Found := fun _ => .codes ⟨"int f() {}".toList, "int f();".toList⟩

example : headerName "a.cpp".toList none = some "a.h".toList ∧ "a.h".toList ≠ "a.cpp".toList ∧
    exFiles "a.cpp".toList = some (Markers.Spec.fileText exCpp) ∧
    exFiles "a.h".toList = some (Markers.Spec.fileText exHeader) ∧
    Regions glueTok (Markers.Spec.fileText exCpp) exCpp ∧
    Regions headerTok (Markers.Spec.fileText exHeader) exHeader ∧
    ¬ Markers.Spec.Mentions "int f() {}".toList (Markers.Spec.opening glueTok) ∧
    ¬ Markers.Spec.Mentions "int f() {}".toList (Markers.Spec.closing glueTok) ∧
    (pimplMyFile exPimpl exFiles "a.cpp".toList none).1 "a.h".toList =
      some "  // <pimpl_header_code>\n  int f();\n  // </pimpl_header_code>".toList :=
  ⟨by decide +kernel, by decide, by decide +kernel, by decide +kernel, exCpp_regions, exHeader_regions,
    not_mentions (by decide +kernel), not_mentions (by decide +kernel), by decide +kernel⟩

/-! ### Both files or none -/

/-- C117, full statement: a call that raises changes no file. -/
def C117_atomic_statement : Prop :=
  ∀ (pimpl : Str → Found) (fs : Files) (cpp : Str) (header : Option Str),
    (pimplMyFile pimpl fs cpp header).2 ≠ .done → (pimplMyFile pimpl fs cpp header).1 = fs

/-- False of the code: the C++ file is written before the markers of the header are looked for. -/
theorem C117_atomic_fails : ¬ C117_atomic_statement := by
  intro h
  have h1 := h exPimpl (fun n => if n = "a.cpp".toList then some (Markers.Spec.fileText exCpp)
    else if n = "a.h".toList then some "struct A;".toList else none) "a.cpp".toList none
    (by decide +kernel)
  have h2 := congrFun h1 "a.cpp".toList
  revert h2
  decide +kernel

/-- C117 (partial): the full statement when the header has a region. Missing: headers without well-formed
regions, see `C117_atomic_fails`. -/
theorem C117_atomic_partial (pimpl : Str → Found) (fs : Files) (cpp : Str) (header : Option Str)
    (h ht : Str) (qs : List Markers.Spec.Piece)
    (hh : headerName cpp header = some h) (hne : h ≠ cpp) (hht : fs h = some ht)
    (h2 : Regions headerTok ht qs) (hend : (pimplMyFile pimpl fs cpp header).2 ≠ .done) :
    (pimplMyFile pimpl fs cpp header).1 = fs := by
  refine C117_nothing_written pimpl fs cpp header ⟨?_, hend⟩
  intro e he
  revert he
  simp only [pimplMyFile, hh, hht]
  split
  · exact fun k => by cases k
  · split
    · exact fun k => by cases k
    · exact fun k => by cases k
    · rename_i r _
      have e2 := (congrArg Markers.Outcome.error
        (Markers.write_wf headerTok r.header ht true qs h2.1 h2.2.1 h2.2.2))
      rw [headerTok_eq] at e2
      unfold writeBoth
      simp only
      split
      · exact fun k => by cases k
      · rw [put_other _ _ hne, hht, e2]
        exact fun k => by cases k

end Verif.PimplFile.Props
