import Verif.Amalg.Lemmas

/-! Properties C15 (termination, files expanded once), C16 (lines kept), C17 (missing files) of the
amalgamation of headers.

`kindOf o fs` (see `Spec.lean`) is how the options and the file system classify the lines; what
counts as a local or an external include is described by `C16_local_include_line`,
`C16_external_include_line` and `C17_search`. -/

namespace Verif.Amalg
open Verif.Py Spec
open scoped List

/-- A small project with a cycle, a diamond, an external include used twice, a last line without
newline. -/
def exOptions : Options :=
  { baseDir := "/src".toList, localIncludesStartwith := "lib/".toList, includeSubdirs := ["inc".toList],
    mainHeaderFile := "lib/a.h".toList, onlyQuotedIncludesAreLocal := true }

def exFS : FS := fun p =>
  if p = "/src/lib/a.h".toList then
    some "#pragma once\n#include <vector>\n#include \"lib/b.h\"\n#include \"lib/c.h\"\nint a;".toList
  else if p = "/src/inc/lib/b.h".toList then
    some "#include <vector>\n#include \"lib/c.h\"\n\nint b;".toList
  else if p = "/src/lib/c.h".toList then some "#include \"lib/a.h\"\nint c;\n".toList
  else none

def exFiles : List Str := ["/src/lib/a.h".toList, "/src/inc/lib/b.h".toList, "/src/lib/c.h".toList]

/-! ### C15 -/

/-- C15: on a file system with finitely many files, whatever the include graph, the amalgamation
never needs more nested expansions than there are files: it terminates. (`.fuel` is the outcome of a
computation that exceeds the number of nested expansions it is given.) -/
theorem C15_terminates (o : Options) (fs : FS) (files : List Str)
    (hfs : ∀ p, fs p ≠ none → p ∈ files) (hmain : '\n' ∉ o.mainHeaderFile) :
    amalgamationContent o fs files.length ≠ .fuel := by
  have h := call_no_fuel o fs files hfs files.length o.mainHeaderFile [] hmain (by simp) ⟨[], []⟩
    (by unfold remaining; exact List.length_filter_le _ _)
  unfold amalgamationContent
  split
  · simp
  · cases hr : amalgamateOneFile o fs files.length o.mainHeaderFile [] ⟨[], []⟩ with
    | fuel => exact absurd hr h
    | missing n => simp
    | ok t s => simp

example : (∀ p, exFS p ≠ none → p ∈ exFiles) ∧ '\n' ∉ exOptions.mainHeaderFile := by
  refine ⟨?_, by decide⟩
  intro p h
  unfold exFS at h
  unfold exFiles
  by_cases h1 : p = "/src/lib/a.h".toList
  · rw [h1]; exact List.mem_cons_self
  · by_cases h2 : p = "/src/inc/lib/b.h".toList
    · rw [h2]; exact List.mem_cons_of_mem _ List.mem_cons_self
    · by_cases h3 : p = "/src/lib/c.h".toList
      · rw [h3]; exact List.mem_cons_of_mem _ (List.mem_cons_of_mem _ List.mem_cons_self)
      · rw [if_neg h1, if_neg h2, if_neg h3] at h; exact absurd rfl h

/-- C15: once the computation has enough steps the result does not depend on their number. -/
theorem C15_result_unique (o : Options) (fs : FS) (n m : Nat) (hnm : n ≤ m)
    (h : amalgamationContent o fs n ≠ .fuel) :
    amalgamationContent o fs m = amalgamationContent o fs n := by
  induction hnm with
  | refl => rfl
  | @step m _ ih =>
    rw [← ih]
    rw [← ih] at h
    unfold amalgamationContent at h ⊢
    split
    · rfl
    · rename_i hv
      rw [if_neg hv] at h
      rw [call_fuel_succ]
      intro hc
      rw [hc] at h
      exact h rfl

theorem content_ok {o : Options} {fs : FS} {n : Nat} {out : Str}
    (h : amalgamationContent o fs n = .ok out) :
    ∃ t st, amalgamateOneFile o fs n o.mainHeaderFile [] ⟨[], []⟩ = .ok t st ∧
      out = trimTrailingSpaces (autogeneratedHeader ++ t) := by
  unfold amalgamationContent at h
  split at h
  · cases h
  · cases hr : amalgamateOneFile o fs n o.mainHeaderFile [] ⟨[], []⟩ with
    | fuel => rw [hr] at h; cases h
    | missing n => rw [hr] at h; cases h
    | ok t s =>
      rw [hr] at h
      injection h with h
      exact ⟨t, s, rfl, h.symm⟩

/-- C15, C16: a successful amalgamation is a tree of files. The root is the main header. Each node
has exactly the lines of its file; ordinary lines are kept; local includes are replaced by the
expansion of the file, unless it is expanded elsewhere in the tree; only `#pragma once` and includes
of system headers may be dropped. No file is expanded twice. The text is made of the kept source
lines in the order of the tree, and of banners (comment lines); trailing white space is trimmed. A
system header is included once by the kept lines, and every system header included by a source line
is included by a kept line. -/
theorem C16_tree (o : Options) (fs : FS) (n : Nat) (out : Str) (hmain : '\n' ∉ o.mainHeaderFile)
    (h : amalgamationContent o fs n = .ok out) :
    ∃ (root : Node) (cs : List Chunk),
      resolve o fs o.mainHeaderFile = some root.path ∧ root.Fits (kindOf o fs) ∧
      root.paths.Nodup ∧ (∀ p ∈ root.others, p ∈ root.paths) ∧
      out = unlines ((lines (autogeneratedHeader ++ text cs)).map rstrip) ∧
      sources cs = root.output ∧ (∀ b, .banner b ∈ cs → IsBanner b) ∧ Glued false cs ∧
      (root.output.filterMap (kindOf o fs).external).Nodup ∧
      (∀ x ∈ root.externals (kindOf o fs), x ∈ root.output.filterMap (kindOf o fs).external) := by
  obtain ⟨t, st, h1, h2⟩ := content_ok h
  obtain ⟨full, hr, hc | ⟨_, _, node, b, cs, n1, n2, n3, n4, n5, n6, n7, n8, ⟨e, n9, n10⟩, n11, n12⟩⟩ :=
    call_ok o fs n o.mainHeaderFile [] ⟨[], []⟩ t st hmain (by simp) h1
  · exact absurd hc.1 (by simp)
  · simp only [List.nil_append] at n6 n9
    refine ⟨node, .banner b :: cs, by rw [n1]; exact hr, n2, ?_, ?_, ?_, n5, ?_, n4, ?_, ?_⟩
    · rw [← n6]; exact n7 List.nodup_nil
    · intro p hp; rw [← n6]; exact n8 p hp
    · rw [h2, n3]; rfl
    · have gb : ∀ (cs : List Chunk) (c : Bool), Glued c cs → ∀ b, .banner b ∈ cs → IsBanner b := by
        intro cs
        induction cs with
        | nil => intro _ _ _ h; cases h
        | cons x xs ih =>
          intro c hg b hb
          cases x with
          | source l =>
            rcases List.mem_cons.1 hb with hb | hb
            · cases hb
            · exact ih _ hg.2 b hb
          | banner t =>
            rcases List.mem_cons.1 hb with hb | hb
            · injection hb with hb; rw [hb]; exact hg.1
            · exact ih _ hg.2 b hb
      exact gb _ _ n4
    · rw [← n10, ← n9]; exact n11 List.nodup_nil
    · intro x hx; rw [← n10, ← n9]; exact n12 x hx

/-- The example meets the hypothesis. -/
example : ∃ out, amalgamationContent exOptions exFS 3 = .ok out := by
  have h : (match amalgamationContent exOptions exFS 3 with | .ok _ => true | _ => false) = true := by
    decide +kernel
  cases hc : amalgamationContent exOptions exFS 3 with
  | ok t => exact ⟨t, rfl⟩
  | fuel => rw [hc] at h; cases h
  | valueError => rw [hc] at h; cases h
  | fileNotFound n => rw [hc] at h; cases h

/-- C15: the files that are expanded are exactly the files reached from the main header through local
includes, each of them once. -/
theorem C15_each_reached_file_once (o : Options) (fs : FS) (n : Nat) (out : Str)
    (hmain : '\n' ∉ o.mainHeaderFile) (h : amalgamationContent o fs n = .ok out) :
    ∃ (root : Node) (cs : List Chunk), resolve o fs o.mainHeaderFile = some root.path ∧
      root.Fits (kindOf o fs) ∧ root.paths.Nodup ∧
      (∀ p, p ∈ root.paths ↔ Reached (kindOf o fs) root.path p) ∧
      out = unlines ((lines (autogeneratedHeader ++ text cs)).map rstrip) ∧
      sources cs = root.output := by
  obtain ⟨root, cs, h1, h2, h3, h4, h5, h6, _⟩ := C16_tree o fs n out hmain h
  refine ⟨root, cs, h1, h2, h3, ?_, h5, h6⟩
  intro p
  constructor
  · exact node_reached _ _ root h2 .start p
  · intro hr
    induction hr with
    | start => exact node_path_mem root
    | step p q l ls _ hf hl hi ih =>
      obtain ⟨s, g1, g2, g3, g4, g5, g6⟩ := node_find _ root h2 p ih
      rw [g1] at hf
      injection hf with hf
      subst hf
      obtain ⟨p', e, hp⟩ := slots_local _ s g2 l hl _ hi
      injection e with e
      subst e
      rcases hp with hp | hp
      · exact g3 _ hp
      · exact h4 _ (g4 _ hp)

/-! ### C16 -/

open Classical in
/-- C16: the ordinary (non blank) lines of every reached file are lines of the output (up to trailing
white space), all of them, in their original order. In particular the last line of a file that does
not end with a newline is not merged with what follows. -/
theorem C16_lines_kept (o : Options) (fs : FS) (n : Nat) (out full : Str)
    (hmain : '\n' ∉ o.mainHeaderFile) (h : amalgamationContent o fs n = .ok out)
    (hfull : resolve o fs o.mainHeaderFile = some full) (p : Str)
    (hp : Reached (kindOf o fs) full p) (content : Str) (hc : fs p = some content) :
    ((readlines content).filter
        (fun l => decide (Ordinary (kindOf o fs) l ∧ strip l ≠ []))).map rstrip <+ lines out := by
  obtain ⟨root, cs, h1, h2, _, h4, h5, h6, _, h8, _⟩ := C16_tree o fs n out hmain h
  rw [hfull] at h1
  injection h1 with h1
  subst h1
  have hmem : p ∈ root.paths := by
    clear hc
    induction hp with
    | start => exact node_path_mem root
    | step p q l ls _ hf hl hi ih =>
      obtain ⟨s, g1, g2, g3, g4, g5, g6⟩ := node_find _ root h2 p ih
      rw [g1] at hf
      injection hf with hf
      subst hf
      obtain ⟨p', e, hp⟩ := slots_local _ s g2 l hl _ hi
      injection e with e
      subst e
      rcases hp with hp | hp
      · exact g3 _ hp
      · exact h4 _ (g4 _ hp)
  obtain ⟨s, g1, g2, _, _, g5, _⟩ := node_find _ root h2 p hmem
  have g1' : s.lines = readlines content := by
    simp only [kindOf, hc, Option.map_some, Option.some.injEq] at g1
    exact g1.symm
  -- the lines kept by the tree
  have hsub : (readlines content).filter (fun l => decide (Ordinary (kindOf o fs) l)) <+ sources cs := by
    rw [h6, ← g1']
    exact (slots_ordinary _ s g2).trans g5
  have hlines : ∀ l ∈ sources cs, IsLine l := by
    rw [h6]; exact node_output_lines o fs root h2
  have hglued := glued_lines cs false [] (by simp) (fun _ => rfl) h8 hlines
  have hp0 : pending [] = [] := by decide
  rw [hp0] at hglued
  simp only [List.nil_append] at hglued
  -- the lines of the output
  have hout : lines out = (lines (autogeneratedHeader ++ text cs)).map rstrip := by
    rw [h5]
    apply lines_unlines
    · simp [lines_ne_nil]
    · intro l hl
      obtain ⟨m, hm, rfl⟩ := List.mem_map.1 hl
      intro hmem
      have hno := not_mem_of_mem_lines hm
      obtain ⟨w, hw, _⟩ := rstrip_decomp m
      rw [hw] at hno
      exact hno (List.mem_append_left _ hmem)
  have hhead : lines (text cs) <+ lines (autogeneratedHeader ++ text cs) := by
    have e : autogeneratedHeader ++ text cs =
        "// THIS FILE WAS GENERATED AUTOMATICALLY. DO NOT EDIT.".toList ++ '\n' :: text cs := by
      have e0 : autogeneratedHeader =
          "// THIS FILE WAS GENERATED AUTOMATICALLY. DO NOT EDIT.".toList ++ ['\n'] := by
        unfold autogeneratedHeader; decide
      rw [e0, List.append_assoc]; rfl
    rw [e]
    exact lines_suffix _ _
  rw [hout]
  refine List.Sublist.trans ?_ (hglued.trans (hhead.map rstrip))
  apply List.Sublist.map
  have := hsub.filter nonBlank
  rw [List.filter_filter] at this
  have e : (fun l => decide (Ordinary (kindOf o fs) l ∧ strip l ≠ [])) =
      (fun l => nonBlank l && decide (Ordinary (kindOf o fs) l)) := by
    funext l
    unfold nonBlank
    by_cases ho : Ordinary (kindOf o fs) l <;> by_cases hs : strip l = [] <;>
      simp [ho, hs, List.length_pos_iff]
  rw [e]
  exact this

example : resolve exOptions exFS exOptions.mainHeaderFile = some "/src/lib/a.h".toList := by
  decide +kernel

/-- C16: what is recognised as a local include: `#include "name"`, possibly surrounded by white space,
when the name starts with the configured prefix; the file included is the one between the quotes. -/
theorem C16_local_include_line (o : Options) (w1 w2 name : Str)
    (hw1 : ∀ c ∈ w1, isSpace c = true) (hw2 : ∀ c ∈ w2, isSpace c = true)
    (hpre : o.localIncludesStartwith <+: name) (hn : '"' ∉ name) (hg : '>' ∉ name) (hs : '#' ∉ name) :
    isLocalIncludeLine o (w1 ++ ("#include \"".toList ++ name ++ ['"']) ++ w2) = true ∧
    isExternalIncludeLine o (w1 ++ ("#include \"".toList ++ name ++ ['"']) ++ w2) = false ∧
    extractLocalIncludeFile (w1 ++ ("#include \"".toList ++ name ++ ['"']) ++ w2) = name := by
  have hst : strip (w1 ++ ("#include \"".toList ++ name ++ ['"']) ++ w2) =
      "#include \"".toList ++ name ++ ['"'] := by
    rw [Escape.strip_append hw1 hw2]
    apply Space.strip_of_ends
    constructor
    · intro c hc
      simp at hc
      subst hc; decide
    · intro c hc
      rw [List.getLast?_append] at hc
      simp only [List.getLast?_singleton, Option.some_or, Option.mem_def, Option.some.injEq] at hc
      subst hc; decide
  have hloc : isLocalIncludeLine o (w1 ++ ("#include \"".toList ++ name ++ ['"']) ++ w2) = true := by
    unfold isLocalIncludeLine
    simp only [hst, Bool.or_eq_true]
    left
    unfold startsWith
    rw [List.isPrefixOf_iff_prefix]
    obtain ⟨r, hr⟩ := hpre
    exact ⟨r ++ ['"'], by rw [← hr]; simp⟩
  refine ⟨hloc, ?_, ?_⟩
  · cases he : isExternalIncludeLine o (w1 ++ ("#include \"".toList ++ name ++ ['"']) ++ w2) with
    | false => rfl
    | true => rw [not_local_of_external he] at hloc; cases hloc
  · unfold extractLocalIncludeFile
    rw [hst]
    have hnc : ∀ (old t : Str), '#' ∈ old → '#' ∉ t → contains t old = false := by
      intro old t h1 h2
      rw [Bool.eq_false_iff]
      intro hc
      obtain ⟨a, b, rfl⟩ := (contains_iff _ _).1 hc
      exact h2 (by simp [h1])
    have hq : '#' ∉ name ++ ['"'] := by
      simp [hs]
    rw [List.append_assoc, replace_match (by decide), List.nil_append,
      replace_of_not_contains (hnc _ _ (by decide) hq), replace_of_not_contains (hnc _ _ (by decide) hq)]
    have hf : ∀ (d : Char) (t : Str), d ∉ t → t.flatMap (fun x => if x = d then [] else [x]) = t := by
      intro d t
      induction t with
      | nil => intro _; rfl
      | cons x xs ih =>
        intro hd
        simp only [List.mem_cons, not_or] at hd
        rw [List.flatMap_cons, ih hd.2, if_neg (fun e => hd.1 e.symm)]
        rfl
    have e1 : replace (name ++ ['"']) ['"'] [] = name := by
      rw [replace_char, List.flatMap_append, hf _ _ hn]
      have : (['"'] : Str).flatMap (fun x => if x = '"' then [] else [x]) = [] := by decide
      rw [this, List.append_nil]
    rw [e1, replace_char, hf _ _ hg]

example : exOptions.localIncludesStartwith <+: "lib/b.h".toList ∧ '"' ∉ "lib/b.h".toList ∧
    '>' ∉ "lib/b.h".toList ∧ '#' ∉ "lib/b.h".toList := by
  refine ⟨⟨"b.h".toList, by decide⟩, by decide, by decide, by decide⟩

/-- C16: `#include <name>` is the include of a system header when only quoted includes are local, or
when the name does not start with the configured prefix. -/
theorem C16_external_include_line (o : Options) (w1 w2 name : Str)
    (hw1 : ∀ c ∈ w1, isSpace c = true) (hw2 : ∀ c ∈ w2, isSpace c = true) (hs : '#' ∉ name)
    (h : o.onlyQuotedIncludesAreLocal = true ∨ ¬ o.localIncludesStartwith <+: name ++ ['>']) :
    isExternalIncludeLine o (w1 ++ ("#include <".toList ++ name ++ ['>']) ++ w2) = true ∧
    extractExternalIncludeFile (w1 ++ ("#include <".toList ++ name ++ ['>']) ++ w2) =
      '<' :: name ++ ['>'] := by
  have hst : strip (w1 ++ ("#include <".toList ++ name ++ ['>']) ++ w2) =
      "#include <".toList ++ name ++ ['>'] := by
    rw [Escape.strip_append hw1 hw2]
    apply Space.strip_of_ends
    constructor
    · intro c hc
      simp at hc
      subst hc; decide
    · intro c hc
      rw [List.getLast?_append] at hc
      simp only [List.getLast?_singleton, Option.some_or, Option.mem_def, Option.some.injEq] at hc
      subst hc; decide
  constructor
  · have hst2 : strip ("#include <".toList ++ name ++ ['>']) = "#include <".toList ++ name ++ ['>'] := by
      rw [← hst, strip_strip]
    unfold isExternalIncludeLine isLocalIncludeLine
    simp only [hst, hst2]
    have h1 : startsWith ("#include <".toList ++ name ++ ['>']) "#include ".toList = true := by
      unfold startsWith
      rw [List.isPrefixOf_iff_prefix]
      exact ⟨'<' :: name ++ ['>'], by simp⟩
    have h2 : startsWith ("#include <".toList ++ name ++ ['>'])
        ("#include \"".toList ++ o.localIncludesStartwith) = false := by
      unfold startsWith
      rw [Bool.eq_false_iff]
      intro hc
      rw [List.isPrefixOf_iff_prefix] at hc
      obtain ⟨r, hr⟩ := hc
      simp at hr
    have h3 : (!o.onlyQuotedIncludesAreLocal && startsWith ("#include <".toList ++ name ++ ['>'])
        ("#include <".toList ++ o.localIncludesStartwith)) = false := by
      rcases h with h | h
      · simp [h]
      · rw [Bool.eq_false_iff]
        intro hc
        simp only [Bool.and_eq_true] at hc
        have hc := hc.2
        unfold startsWith at hc
        rw [List.isPrefixOf_iff_prefix] at hc
        obtain ⟨r, hr⟩ := hc
        apply h
        refine ⟨r, ?_⟩
        simpa using hr
    rw [h1, h2, h3]; rfl
  · unfold extractExternalIncludeFile
    rw [hst]
    have e : "#include <".toList ++ name ++ ['>'] = "#include ".toList ++ ('<' :: name ++ ['>']) := by
      simp
    have hno : '#' ∉ '<' :: name ++ ['>'] := by simp [hs]
    have hnc : contains ('<' :: name ++ ['>']) "#include ".toList = false := by
      rw [Bool.eq_false_iff]
      intro hc
      obtain ⟨a, b, hab⟩ := (contains_iff _ _).1 hc
      rw [hab] at hno
      exact hno (by simp)
    rw [e, replace_match (by decide), List.nil_append, replace_of_not_contains hnc]
    have tw : ∀ (t : Str), '#' ∉ t → t.takeWhile (fun c => decide (c ≠ '#')) = t := by
      intro t
      induction t with
      | nil => intro _; rfl
      | cons x xs ih =>
        intro hd
        simp only [List.mem_cons, not_or] at hd
        rw [List.takeWhile_cons, ih hd.2]
        have : x ≠ '#' := fun e => hd.1 e.symm
        simp [this]
    exact tw _ hno

example : exOptions.onlyQuotedIncludesAreLocal = true ∧ '#' ∉ "vector".toList := by decide

/-- C16: system headers. The names of the system headers included by the output are distinct; a
system header included by a line of a reached file is among them. -/
theorem C16_externals_once (o : Options) (fs : FS) (n : Nat) (out full : Str)
    (hmain : '\n' ∉ o.mainHeaderFile) (h : amalgamationContent o fs n = .ok out)
    (hfull : resolve o fs o.mainHeaderFile = some full) :
    ∃ cs, out = unlines ((lines (autogeneratedHeader ++ text cs)).map rstrip) ∧
      ((sources cs).filterMap (kindOf o fs).external).Nodup ∧
      ∀ p content l x, Reached (kindOf o fs) full p → fs p = some content → l ∈ readlines content →
        (kindOf o fs).external l = some x → x ∈ (sources cs).filterMap (kindOf o fs).external := by
  obtain ⟨root, cs, h1, h2, _, h4, h5, h6, _, _, h9, h10⟩ := C16_tree o fs n out hmain h
  rw [hfull] at h1
  injection h1 with h1
  subst h1
  refine ⟨cs, h5, by rw [h6]; exact h9, ?_⟩
  intro p content l x hp hc hl hx
  have hmem : p ∈ root.paths := by
    clear hc
    induction hp with
    | start => exact node_path_mem root
    | step p q l ls _ hf hl hi ih =>
      obtain ⟨s, g1, g2, g3, g4, g5, g6⟩ := node_find _ root h2 p ih
      rw [g1] at hf
      injection hf with hf
      subst hf
      obtain ⟨p', e, hp⟩ := slots_local _ s g2 l hl _ hi
      injection e with e
      subst e
      rcases hp with hp | hp
      · exact g3 _ hp
      · exact h4 _ (g4 _ hp)
  obtain ⟨s, g1, g2, _, _, _, g6⟩ := node_find _ root h2 p hmem
  have g1' : s.lines = readlines content := by
    simp only [kindOf, hc, Option.map_some, Option.some.injEq] at g1
    exact g1.symm
  have hloc : (kindOf o fs).localInclude l = none := by
    have he : isExternalIncludeLine o l = true := by
      cases hh : isExternalIncludeLine o l with
      | true => rfl
      | false => simp [kindOf, hh] at hx
    simp [kindOf, not_local_of_external he]
  rw [h6]
  exact h10 _ (g6 _ (slots_external _ s l x (by rw [g1']; exact hl) hloc g2 hx))

/-! ### C17 -/

/-- C17: the search for an included file: an absolute name is used as it is; otherwise the first
directory that has it among the base directory and the include sub-directories (relative to the base
directory unless absolute); otherwise the name relative to the working directory. -/
theorem C17_search (o : Options) (fs : FS) (name p : Str) :
    resolve o fs name = some p ↔
      fs p ≠ none ∧
      ((name.head? = some '/' ∧ p = name) ∨
       (name.head? ≠ some '/' ∧
        ((∃ before d after, o.baseDir :: o.includeSubdirs.map
              (fun d => if isAbs d then d else joinPath o.baseDir d) = before ++ d :: after ∧
            p = joinPath d name ∧ ∀ e ∈ before, fs (joinPath e name) = none) ∨
         (p = name ∧ ∀ d ∈ o.baseDir :: o.includeSubdirs.map
              (fun d => if isAbs d then d else joinPath o.baseDir d), fs (joinPath d name) = none)))) := by
  have habs : isAbs name = true ↔ name.head? = some '/' := by
    cases name with
    | nil => simp [isAbs, startsWith]
    | cons c cs => simp [isAbs, startsWith]; exact eq_comm
  have hfile : ∀ q, isFile fs q = true ↔ fs q ≠ none := by
    intro q; unfold isFile; cases fs q <;> simp
  have hfile' : ∀ q, isFile fs q = false ↔ fs q = none := by
    intro q; unfold isFile; cases fs q <;> simp
  unfold resolve
  simp only
  by_cases ha : isAbs name = true
  · rw [if_pos ha]
    have hh := habs.1 ha
    simp only [hh, ne_eq, not_true_eq_false, false_and, or_false, true_and]
    by_cases hf : isFile fs name = true
    · rw [if_pos hf]
      simp only [Option.some.injEq]
      constructor
      · rintro rfl; exact ⟨(hfile _).1 hf, rfl⟩
      · rintro ⟨_, rfl⟩; rfl
    · rw [if_neg hf]
      simp only [reduceCtorEq, false_iff, not_and]
      intro h1 h2
      subst h2
      exact hf ((hfile _).2 h1)
  · rw [if_neg ha]
    have hh : name.head? ≠ some '/' := fun h => ha (habs.2 h)
    generalize o.baseDir :: o.includeSubdirs.map (fun d => if isAbs d = true then d else joinPath o.baseDir d) = dirs
    simp only [hh, false_and, false_or, ne_eq, not_false_eq_true, true_and]
    cases hfind : (dirs.map (fun d => joinPath d name)).find? (isFile fs) with
    | some q =>
      have hq := List.find?_some hfind
      simp only [Option.getD_some, hq, if_true, Option.some.injEq]
      rw [List.find?_map] at hfind
      obtain ⟨d, hd, hdq⟩ := Option.map_eq_some_iff.1 hfind
      obtain ⟨hd1, before, after, hd2, hd3⟩ := List.find?_eq_some_iff_append.1 hd
      constructor
      · rintro rfl
        refine ⟨(hfile _).1 hq, Or.inl ⟨before, d, after, hd2, hdq.symm, ?_⟩⟩
        intro e he
        have := hd3 e he
        simp only [Function.comp, Bool.not_eq_true'] at this
        exact (hfile' _).1 this
      · rintro ⟨hp, ⟨b', d', a', h1, h2, h3⟩ | ⟨h1, h2⟩⟩
        · have : dirs.find? (isFile fs ∘ fun d => joinPath d name) = some d' := by
            rw [List.find?_eq_some_iff_append]
            refine ⟨?_, b', a', h1, ?_⟩
            · simp only [Function.comp]; rw [← h2]; exact (hfile _).2 hp
            · intro e he
              simp only [Function.comp, Bool.not_eq_true']
              exact (hfile' _).2 (h3 e he)
          rw [hd] at this
          injection this with this
          subst this
          rw [h2, ← hdq]
        · exfalso
          have := h2 d (by rw [hd2]; simp)
          rw [hdq] at this
          exact absurd this ((hfile _).1 hq)
    | none =>
      simp only [Option.getD_none]
      rw [List.find?_eq_none] at hfind
      have hall : ∀ d ∈ dirs, fs (joinPath d name) = none := by
        intro d hd
        have := hfind (joinPath d name) (List.mem_map.2 ⟨d, hd, rfl⟩)
        exact (hfile' _).1 (by simpa using this)
      by_cases hf : isFile fs name = true
      · rw [if_pos hf]
        simp only [Option.some.injEq]
        constructor
        · rintro rfl
          exact ⟨(hfile _).1 hf, Or.inr ⟨rfl, hall⟩⟩
        · rintro ⟨hp, ⟨b', d', a', h1, h2, h3⟩ | ⟨h1, h2⟩⟩
          · exfalso
            apply hp
            rw [h2]
            exact hall d' (by rw [h1]; simp)
          · exact h1.symm
      · rw [if_neg hf]
        simp only [reduceCtorEq, false_iff, not_and, not_or, not_exists]
        intro hp
        refine ⟨?_, ?_⟩
        · intro b' d' a' h1 h2
          exact absurd (by rw [h2]; exact hall d' (by rw [h1]; simp)) hp
        · intro h1
          subst h1
          exact absurd ((hfile _).2 hp) hf

/-- C17: `FileNotFoundError` is raised for the main header or for a local include of a reached file,
and only when the search finds nothing. -/
theorem C17_error_is_missing_file (o : Options) (fs : FS) (n : Nat) (name : Str)
    (h : amalgamationContent o fs n = .fileNotFound name) :
    resolve o fs name = none ∧
    (name = o.mainHeaderFile ∨ ∃ full p content l, resolve o fs o.mainHeaderFile = some full ∧
      Reached (kindOf o fs) full p ∧ fs p = some content ∧ l ∈ readlines content ∧
      isLocalIncludeLine o l = true ∧ extractLocalIncludeFile l = name) := by
  unfold amalgamationContent at h
  split at h
  · cases h
  · cases hr : amalgamateOneFile o fs n o.mainHeaderFile [] ⟨[], []⟩ with
    | fuel => rw [hr] at h; cases h
    | ok t s => rw [hr] at h; cases h
    | missing nm =>
      rw [hr] at h
      injection h with h
      subst h
      obtain ⟨h1, h2⟩ := call_missing o fs n _ _ _ _ hr
      refine ⟨h1, ?_⟩
      rcases h2 with h2 | ⟨full, p, ls, l, g1, g2, g3, g4, g5, g6⟩
      · exact Or.inl h2
      · right
        simp only [kindOf, Option.map_eq_some_iff] at g3
        obtain ⟨c, hc, hls⟩ := g3
        exact ⟨full, p, c, l, g1, g2, hc, by rw [hls]; exact g4, g5, g6⟩

example : (match amalgamationContent exOptions (fun p => if p = "/src/inc/lib/b.h".toList then none
    else exFS p) 3 with | .fileNotFound n => n == "lib/b.h".toList | _ => false) = true := by
  decide +kernel

/-- C17: no silent omission: when the amalgamation succeeds, every local include of every reached
file was found (and its file is reached, hence expanded, see `C15_each_reached_file_once`). -/
theorem C17_no_silent_omission (o : Options) (fs : FS) (n : Nat) (out full : Str)
    (hmain : '\n' ∉ o.mainHeaderFile) (h : amalgamationContent o fs n = .ok out)
    (hfull : resolve o fs o.mainHeaderFile = some full) (p content l : Str)
    (hp : Reached (kindOf o fs) full p) (hc : fs p = some content) (hl : l ∈ readlines content)
    (hloc : isLocalIncludeLine o l = true) :
    ∃ q, resolve o fs (extractLocalIncludeFile l) = some q ∧ Reached (kindOf o fs) full q := by
  obtain ⟨root, cs, h1, h2, h3, h4, _⟩ := C15_each_reached_file_once o fs n out hmain h
  rw [hfull] at h1
  injection h1 with h1
  subst h1
  obtain ⟨s, g1, g2, _⟩ := node_find _ root h2 p ((h4 p).2 hp)
  have g1' : s.lines = readlines content := by
    simp only [kindOf, hc, Option.map_some, Option.some.injEq] at g1
    exact g1.symm
  have hk : (kindOf o fs).localInclude l = some (resolve o fs (extractLocalIncludeFile l)) := by
    simp [kindOf, hloc]
  obtain ⟨q, hq, _⟩ := slots_local _ s g2 l (by rw [g1']; exact hl) _ hk
  refine ⟨q, hq, .step p q l (readlines content) hp (by simp [kindOf, hc]) hl ?_⟩
  rw [hk, hq]

/-- C17: an error leaves the destination file as it was; otherwise it contains the amalgamation, and
it is written only when the content differs. -/
theorem C17_write (o : Options) (fs : FS) (n : Nat) (old : Option Str) :
    (∀ name, amalgamationContent o fs n = .fileNotFound name →
      writeAmalgamateHeaderFile o fs n old = (old, false)) ∧
    (∀ out, amalgamationContent o fs n = .ok out →
      (writeAmalgamateHeaderFile o fs n old).1 = some out ∧
      ((writeAmalgamateHeaderFile o fs n old).2 = true ↔ old ≠ some out)) := by
  constructor
  · intro name h
    simp [writeAmalgamateHeaderFile, h]
  · intro out h
    simp only [writeAmalgamateHeaderFile, h, fwriteContent]
    split <;> simp_all

/-- C17, full statement: a local include that is neither in the base directory nor in the include
sub-directories is an error. -/
def C17_missing_is_error_statement : Prop :=
  ∀ (o : Options) (fs : FS) (n : Nat) (name : Str), o.mainHeaderFile = name → name.head? ≠ some '/' →
    (∀ d ∈ o.baseDir :: o.includeSubdirs.map (fun d => if isAbs d then d else joinPath o.baseDir d),
      fs (joinPath d name) = none) →
    ∀ out, amalgamationContent o fs n ≠ .ok out

/-- The full statement is false of the code: a relative name that exists in the current working
directory is accepted although it is in none of the configured directories. -/
theorem C17_missing_is_error_fails : ¬ C17_missing_is_error_statement := by
  intro h
  let o : Options := { exOptions with mainHeaderFile := "x.h".toList }
  let fs : FS := fun p => if p = "x.h".toList then some [] else none
  have := h o fs 1 "x.h".toList rfl (by decide) (by decide +kernel)
  have hc : (match amalgamationContent o fs 1 with | .ok _ => true | _ => false) = true := by
    decide +kernel
  cases he : amalgamationContent o fs 1 with
  | ok t => exact this t he
  | fuel => rw [he] at hc; cases hc
  | valueError => rw [he] at hc; cases hc
  | fileNotFound n => rw [he] at hc; cases hc

/-- C17 (partial): a missing local include is an error, provided the name does not exist in the
working directory either. Missing from the full property: names that exist there (see
`C17_missing_is_error_fails`). -/
theorem C17_missing_is_error_partial (o : Options) (fs : FS) (n : Nat) (hmain : '\n' ∉ o.mainHeaderFile)
    (full p content l : Str) (hfull : resolve o fs o.mainHeaderFile = some full)
    (hp : Reached (kindOf o fs) full p) (hc : fs p = some content) (hl : l ∈ readlines content)
    (hloc : isLocalIncludeLine o l = true)
    (hcwd : fs (extractLocalIncludeFile l) = none)
    (hdirs : ∀ d ∈ o.baseDir :: o.includeSubdirs.map (fun d => if isAbs d then d else joinPath o.baseDir d),
      fs (joinPath d (extractLocalIncludeFile l)) = none) :
    ∀ out, amalgamationContent o fs n ≠ .ok out := by
  intro out h
  obtain ⟨q, hq, _⟩ := C17_no_silent_omission o fs n out full hmain h hfull p content l hp hc hl hloc
  obtain ⟨h1, h2 | ⟨_, ⟨before, d, after, h2, h3, _⟩ | ⟨h2, _⟩⟩⟩ := (C17_search o fs _ q).1 hq
  · rw [h2.2] at h1; exact h1 hcwd
  · rw [h3] at h1; exact h1 (hdirs d (by rw [h2]; simp))
  · rw [h2] at h1; exact h1 hcwd

end Verif.Amalg
