import Verif.Space.Lemmas
import Verif.Escape.Lemmas
import Verif.Amalg.Model
import Verif.Amalg.Spec

namespace Verif.Amalg
open Verif.Py

theorem strip_strip (s : Str) : strip (strip s) = strip s :=
  Space.strip_of_ends (Space.ends_strip s)

theorem not_local_of_external {o : Options} {l : Str} (h : isExternalIncludeLine o l = true) :
    isLocalIncludeLine o l = false := by
  simp [isExternalIncludeLine] at h
  have := h.2
  unfold isLocalIncludeLine at this ⊢
  rw [strip_strip] at this
  exact this

theorem resolve_some {o : Options} {fs : FS} {name p : Str} (h : resolve o fs name = some p) :
    ∃ content, fs p = some content := by
  unfold resolve at h
  simp only at h
  revert h
  generalize (if isAbs name = true then name else _) = full
  intro h
  by_cases hf : isFile fs full = true
  · rw [if_pos hf] at h
    injection h with h
    subst h
    unfold isFile at hf
    exact Option.isSome_iff_exists.1 hf
  · rw [if_neg hf] at h; cases h

/-! ### readlines -/

/-- A line of a file: no newline inside, possibly one at the end. -/
def IsLine (l : Str) : Prop := l ≠ [] ∧ ∃ body, '\n' ∉ body ∧ (l = body ∨ l = body ++ ['\n'])

/-- Only the last line may lack its terminator. -/
def Terminated : List Str → Prop
  | [] => True
  | [l] => IsLine l
  | l :: ls => IsLine l ∧ l.getLast? = some '\n' ∧ Terminated ls

theorem terminated_cons {l : Str} {ls : List Str} (h : Terminated (l :: ls)) :
    IsLine l ∧ Terminated ls ∧ (ls ≠ [] → l.getLast? = some '\n') := by
  cases ls with
  | nil => exact ⟨h, trivial, fun e => absurd rfl e⟩
  | cons a b => exact ⟨h.1, h.2.2, fun _ => h.2.1⟩

theorem readlines_terminated (s : Str) : Terminated (readlines s) := by
  induction s with
  | nil => trivial
  | cons c cs ih =>
    unfold readlines
    by_cases hc : c = '\n'
    · rw [if_pos hc]
      have hl : IsLine [c] := ⟨by simp, [], by simp, Or.inr (by simp [hc])⟩
      cases h : readlines cs with
      | nil => exact hl
      | cons a b => rw [h] at ih; exact ⟨hl, by simp [hc], ih⟩
    · rw [if_neg hc]
      cases h : readlines cs with
      | nil => exact ⟨by simp, [c], by simpa using fun e => hc e.symm, Or.inl rfl⟩
      | cons a b =>
        rw [h] at ih
        have ht := terminated_cons ih
        have hl : IsLine (c :: a) := by
          refine ⟨by simp, ?_⟩
          obtain ⟨body, hb, e⟩ := ht.1.2
          refine ⟨c :: body, by simp [hb]; exact fun e => hc e.symm, ?_⟩
          rcases e with e | e <;> simp [e]
        cases b with
        | nil => exact hl
        | cons x y =>
          refine ⟨hl, ?_, ht.2.1⟩
          rw [Space.getLast?_cons_ne ht.1.1]
          exact ht.2.2 (by simp)

theorem readlines_flatten (s : Str) : (readlines s).flatten = s := by
  induction s with
  | nil => rfl
  | cons c cs ih =>
    unfold readlines
    split
    · simp [ih]
    · cases h : readlines cs with
      | nil => rw [h] at ih; simp at ih; simp [← ih]
      | cons a b => rw [h] at ih; simp at ih; simp [← ih]

theorem strip_no_newline {l : Str} (h : IsLine l) : '\n' ∉ strip l := by
  have sub : ∀ s : Str, ∀ c, c ∈ strip s → c ∈ s := by
    intro s c hc
    unfold strip at hc
    obtain ⟨w, hw, _⟩ := lstrip_decomp s
    obtain ⟨v, hv, _⟩ := rstrip_decomp (lstrip s)
    rw [hw, hv]
    simp [hc]
  obtain ⟨_, body, hb, e | e⟩ := h
  · rw [e]; exact fun hm => hb (sub _ _ hm)
  · rw [e]
    have := Escape.strip_append (a := []) (b := body) (c := ['\n']) (by simp)
      (by intro x hx; simp at hx; subst hx; decide)
    rw [List.nil_append] at this
    rw [this]
    exact fun hm => hb (sub _ _ hm)

theorem mem_replaceAux_nil {old : Str} {k : Nat} {s : Str} {c : Char}
    (h : c ∈ replaceAux old [] k s) : c ∈ s := by
  induction s generalizing k with
  | nil => cases k <;> simp [replaceAux] at h
  | cons x xs ih =>
    cases k with
    | zero =>
      unfold replaceAux at h
      split at h
      · exact List.mem_cons_of_mem _ (ih (by simpa using h))
      · rcases List.mem_cons.1 h with h | h
        · simp [h]
        · exact List.mem_cons_of_mem _ (ih h)
    | succ k => exact List.mem_cons_of_mem _ (ih (by simpa [replaceAux] using h))

theorem mem_replace_nil {old s : Str} {c : Char} (h : c ∈ replace s old []) : c ∈ s :=
  mem_replaceAux_nil h

theorem mem_removeAll {old s : Str} {c : Char} (h : c ∈ removeAll s old) : c ∈ s := by
  unfold removeAll at h
  split at h
  · exact h
  · exact mem_replace_nil h

theorem relative_no_newline {o : Options} {name : Str} (h : '\n' ∉ name) : '\n' ∉ relativeName o name :=
  fun hm => h (mem_removeAll (mem_removeAll hm))

theorem extract_no_newline {l : Str} (h : IsLine l) : '\n' ∉ extractLocalIncludeFile l :=
  fun hm => strip_no_newline h
    (mem_replace_nil (mem_replace_nil (mem_replace_nil (mem_replace_nil hm))))

/-! ### banners -/

theorem decorate_banner {info : Str} (h : '\n' ∉ info) : Spec.IsBanner (decorateCodeInfo info) := by
  refine ⟨[separatorLine, "//                       ".toList ++ info ++
      spaces (separatorLine.length - 2 - ("//                       ".toList ++ info).length) ++ ['/', '/'],
    separatorLine], ?_, ?_⟩
  · unfold decorateCodeInfo
    simp only [List.flatMap_cons, List.flatMap_nil, List.append_nil, List.append_assoc,
      List.cons_append, List.nil_append]
  · have hs : '\n' ∉ separatorLine := by
      unfold separatorLine
      intro hm
      have := List.eq_of_mem_replicate hm
      revert this; decide
    intro l hl
    simp only [List.mem_cons, List.not_mem_nil, or_false] at hl
    rcases hl with rfl | rfl | rfl
    · exact ⟨hs, Or.inr ⟨List.replicate 112 '/', rfl⟩⟩
    · refine ⟨?_, Or.inr ⟨_, rfl⟩⟩
      have h2 : ∀ n, '\n' ∉ spaces n := by
        intro n hm
        have := List.eq_of_mem_replicate hm
        revert this; decide
      simp [h, h2]
    · exact ⟨hs, Or.inr ⟨List.replicate 112 '/', rfl⟩⟩

theorem decorate_banner_newline {info : Str} (h : '\n' ∉ info) :
    Spec.IsBanner (decorateCodeInfo info ++ ['\n']) := by
  obtain ⟨ls, e, hl⟩ := decorate_banner h
  refine ⟨ls ++ [[]], ?_, ?_⟩
  · rw [e]; simp
  · intro l hm
    rcases List.mem_append.1 hm with hm | hm
    · exact hl l hm
    · simp at hm; subst hm; exact ⟨by simp, Or.inl rfl⟩

theorem banner_last {b : Str} (h : Spec.IsBanner b) : b.getLast? = some '\n' := by
  obtain ⟨ls, rfl, _⟩ := h
  rcases List.eq_nil_or_concat ls with e | ⟨l, x, e⟩
  · subst e; rfl
  · subst e
    simp only [List.concat_eq_append, List.flatMap_append, List.flatMap_cons, List.flatMap_nil,
      List.append_nil]
    rw [← List.append_assoc, ← List.cons_append, List.getLast?_append]
    rfl

theorem banner_head {b : Str} (h : Spec.IsBanner b) : b.head? = some '\n' := by
  obtain ⟨ls, rfl, _⟩ := h; rfl

theorem header_banner {rel by_ : Str} (h1 : '\n' ∉ rel) (h2 : '\n' ∉ by_) :
    Spec.IsBanner (header rel by_) := by
  unfold header
  split
  · apply decorate_banner
    simp [h1, h2]
  · exact decorate_banner h1

/-! ### chunks -/

open Spec
open scoped List

def statusAfter (clean : Bool) (cs : List Chunk) : Bool :=
  cs.foldl (fun _ c => cleanAfter c) clean

theorem glued_append (clean : Bool) (a b : List Chunk) (ha : Glued clean a)
    (hb : Glued (statusAfter clean a) b) : Glued clean (a ++ b) := by
  induction a generalizing clean with
  | nil => exact hb
  | cons x xs ih =>
    cases x with
    | source l => exact ⟨ha.1, ih _ ha.2 hb⟩
    | banner t => exact ⟨ha.1, ih _ ha.2 hb⟩

theorem text_append (a b : List Chunk) : text (a ++ b) = text a ++ text b := by
  simp [text]

theorem sources_append (a b : List Chunk) : sources (a ++ b) = sources a ++ sources b := by
  induction a with
  | nil => rfl
  | cons x xs ih => cases x <;> simp [sources, ih]

/-! ### the loop -/

/-- What a successful recursive call establishes. -/
def CallOK (o : Options) (fs : FS) (name : Str) (st : St) (txt : Str) (st' : St) : Prop :=
  ∃ full, resolve o fs name = some full ∧
    ((full ∈ st.locals ∧ txt = [] ∧ st' = st) ∨
     (full ∉ st.locals ∧ txt ≠ [] ∧ ∃ (node : Node) (b : Str) (cs : List Chunk),
        node.path = full ∧ node.Fits (kindOf o fs) ∧
        txt = text (.banner b :: cs) ∧ Glued false (.banner b :: cs) ∧
        sources cs = node.output ∧
        st'.locals = st.locals ++ node.paths ∧ (st.locals.Nodup → st'.locals.Nodup) ∧
        (∀ p ∈ node.others, p ∈ st'.locals) ∧
        (∃ e, st'.externals = st.externals ++ e ∧
          e = (node.output.filterMap (kindOf o fs).external)) ∧
        (st.externals.Nodup → st'.externals.Nodup) ∧
        (∀ x ∈ node.externals (kindOf o fs), x ∈ st'.externals)))

/-- What the loop over the lines establishes. -/
def LoopOK (o : Options) (fs : FS) (ls : List Str) (clean : Bool) (acc : Str) (st : St) (txt : Str)
    (st' : St) : Prop :=
  ∃ (s : Slots) (cs : List Chunk),
    s.lines = ls ∧ s.Fits (kindOf o fs) ∧ txt = acc ++ text cs ∧ Glued clean cs ∧
    sources cs = s.output ∧
    st'.locals = st.locals ++ s.paths ∧ (st.locals.Nodup → st'.locals.Nodup) ∧
    (∀ p ∈ s.others, p ∈ st'.locals) ∧
    (∃ e, st'.externals = st.externals ++ e ∧ e = (s.output.filterMap (kindOf o fs).external)) ∧
    (st.externals.Nodup → st'.externals.Nodup) ∧
    (∀ x ∈ s.externals (kindOf o fs), x ∈ st'.externals)

theorem blank_iff (l : Str) : (strip l).length > 0 ↔ ¬ ∀ c ∈ l, isSpace c = true := by
  rw [← isBlank_iff]
  unfold isBlank
  simp [List.length_pos_iff]

/-- The banner chunk emitted before a line, if any. -/
theorem acc_chunk (o : Options) (rel : Str) (hrel : '\n' ∉ rel) (intr : Bool) (l acc : Str) :
    ∃ pre : List Chunk, accAfter o rel intr l acc = acc ++ text pre ∧ sources pre = [] ∧
      (∀ clean, Glued clean pre) ∧
      (continues o intr l = true → ∀ clean, statusAfter clean pre = true) ∧
      (continues o intr l = false → pre = []) := by
  unfold accAfter
  cases h : continues o intr l with
  | true =>
    refine ⟨[.banner (decorateCodeInfo (rel ++ " continued".toList) ++ ['\n'])], ?_, rfl, ?_, ?_, ?_⟩
    · simp [text, Chunk.text]
    · intro clean
      exact ⟨decorate_banner_newline (by simp [hrel]), trivial⟩
    · intro _ _; rfl
    · intro h; cases h
  | false =>
    exact ⟨[], by simp [text], rfl, fun _ => trivial, (fun h => by cases h), (fun _ => rfl)⟩

/-- After the optional banner a kept line does not glue. -/
theorem glue_line {o : Options} {intr clean : Bool} {l : Str} {pre : List Chunk}
    (hclean : intr = false → clean = true)
    (hloc : isLocalIncludeLine o l = false)
    (h1 : continues o intr l = true → ∀ clean, statusAfter clean pre = true)
    (h2 : continues o intr l = false → pre = []) :
    (∀ c ∈ l, isSpace c = true) ∨ statusAfter clean pre = true := by
  cases hc : continues o intr l with
  | true => exact Or.inr (h1 hc _)
  | false =>
    rw [h2 hc]
    show _ ∨ clean = true
    cases hi : intr with
    | false => exact Or.inr (hclean hi)
    | true =>
      left
      unfold continues at hc
      rw [hi, hloc] at hc
      simp at hc
      by_cases hb : ∀ c ∈ l, isSpace c = true
      · exact hb
      · have := (blank_iff l).2 hb
        rw [hc] at this
        simp at this

theorem statusAfter_append (clean : Bool) (a b : List Chunk) :
    statusAfter clean (a ++ b) = statusAfter (statusAfter clean a) b := by
  simp [statusAfter, List.foldl_append]

theorem loop_ok (o : Options) (fs : FS) (rec : Str → St → Res) (rel : Str) (hrel : '\n' ∉ rel)
    (hrec : ∀ name st txt st', '\n' ∉ name → rec name st = .ok txt st' → CallOK o fs name st txt st')
    (ls : List Str) (ht : Terminated ls) (intr clean : Bool)
    (hclean : ls ≠ [] → intr = false → clean = true)
    (acc : Str) (st : St) (txt : Str) (st' : St)
    (h : linesLoop o rec rel ls intr acc st = .ok txt st') :
    LoopOK o fs ls clean acc st txt st' := by
  induction ls generalizing intr clean acc st with
  | nil =>
    simp only [linesLoop] at h
    injection h with h1 h2
    subst h1 h2
    exact ⟨.done, [], rfl, trivial, by simp [text], trivial, rfl, by simp [Slots.paths], fun h => h,
      by simp [Slots.others], ⟨[], by simp, rfl⟩, fun h => h, by simp [Slots.externals]⟩
  | cons l ls ih =>
    obtain ⟨hl, hls, hlast⟩ := terminated_cons ht
    have hclean := hclean (by simp)
    obtain ⟨pre, hpre, hpre0, hglue, hc1, hc2⟩ := acc_chunk o rel hrel intr l acc
    unfold linesLoop at h
    simp only at h
    -- the status after a kept line
    have hst : ls ≠ [] → interruptedAfter o intr l = false →
        statusAfter clean (pre ++ [.source l]) = true := by
      intro hne _
      rw [statusAfter_append]
      show cleanAfter (.source l) = true
      simp [cleanAfter, hlast hne]
    -- the status after a dropped line
    have hst' : ls ≠ [] → interruptedAfter o intr l = false → statusAfter clean pre = true := by
      intro _ hi
      cases hc : continues o intr l with
      | true => exact hc1 hc _
      | false =>
        rw [hc2 hc]
        unfold interruptedAfter at hi
        rw [hc] at hi
        exact hclean hi
    by_cases hext : isExternalIncludeLine o l = true
    · rw [if_pos hext] at h
      have hloc := not_local_of_external hext
      have hk1 : (kindOf o fs).localInclude l = none := by simp [kindOf, hloc]
      have hk2 : (kindOf o fs).external l = some (extractExternalIncludeFile l) := by
        simp [kindOf, hext]
      by_cases hm : extractExternalIncludeFile l ∈ st.externals
      · rw [if_neg (by simpa using hm)] at h
        obtain ⟨s, cs, e1, e2, e3, e4, e5, e6, e7, e8, ⟨e, e9, e10⟩, e11, e12⟩ :=
          ih hls (interruptedAfter o intr l) (statusAfter clean pre) hst' _ st h
        refine ⟨.dropped l s, pre ++ cs, by simp [Slots.lines, e1], ⟨hk1, by simp [hk2], e2⟩, ?_,
          glued_append _ _ _ (hglue _) e4, ?_, e6, e7, e8, ⟨e, e9, e10⟩, e11, ?_⟩
        · rw [e3, hpre, text_append, List.append_assoc]
        · rw [sources_append, hpre0, e5]; rfl
        · intro x hx
          simp only [Slots.externals, hk2, Option.toList, List.cons_append, List.nil_append,
            List.mem_cons] at hx
          rcases hx with rfl | hx
          · rw [e9]; simp [hm]
          · exact e12 x hx
      · rw [if_pos (by simpa using hm)] at h
        obtain ⟨s, cs, e1, e2, e3, e4, e5, e6, e7, e8, ⟨e, e9, e10⟩, e11, e12⟩ :=
          ih hls (interruptedAfter o intr l) (statusAfter clean (pre ++ [.source l])) hst _ _ h
        refine ⟨.kept l s, (pre ++ [.source l]) ++ cs, by simp [Slots.lines, e1],
          ⟨hk1, by simp [hk2], e2⟩, ?_, glued_append _ _ _ (glued_append _ _ _ (hglue _) ?_) e4, ?_,
          e6, e7, e8, ?_, ?_, ?_⟩
        · rw [e3, hpre, text_append, text_append]; simp [text, Chunk.text]
        · exact ⟨glue_line hclean hloc hc1 hc2, trivial⟩
        · rw [sources_append, sources_append, hpre0, e5]; rfl
        · refine ⟨extractExternalIncludeFile l :: e, ?_, ?_⟩
          · rw [e9]; simp
          · simp only [Slots.output, List.filterMap_cons, hk2]; rw [e10]
        · intro hn
          apply e11
          show (st.externals ++ [extractExternalIncludeFile l]).Nodup
          rw [List.nodup_append]
          refine ⟨hn, by simp, ?_⟩
          intro a ha b hb
          simp at hb
          rintro rfl
          exact hm (hb ▸ ha)
        · intro x hx
          simp only [Slots.externals, hk2, Option.toList, List.cons_append, List.nil_append,
            List.mem_cons] at hx
          rcases hx with rfl | hx
          · rw [e9]; simp
          · exact e12 x hx
    · rw [if_neg hext] at h
      have hk2 : (kindOf o fs).external l = none := by simp [kindOf, hext]
      by_cases hloc : isLocalIncludeLine o l = true
      · rw [if_pos hloc] at h
        have hk1 : (kindOf o fs).localInclude l = some (resolve o fs (extractLocalIncludeFile l)) := by
          simp [kindOf, hloc]
        cases hr : rec (extractLocalIncludeFile l) st with
        | fuel => rw [hr] at h; cases h
        | missing nm => rw [hr] at h; cases h
        | ok addition stm =>
          rw [hr] at h
          simp only at h
          obtain ⟨full, hres, hcase⟩ := hrec _ _ _ _ (extract_no_newline hl) hr
          rcases hcase with ⟨hin, hadd, hsteq⟩ | ⟨hnin, hne, node, b, ncs, n1, n2, n3, n4, n5, n6, n7, n8, ⟨ne, n9, n10⟩, n11, n12⟩
          · subst hadd hsteq
            rw [if_neg (by simp)] at h
            obtain ⟨s, cs, e1, e2, e3, e4, e5, e6, e7, e8, ⟨e, e9, e10⟩, e11, e12⟩ :=
              ih hls (interruptedAfter o intr l) (statusAfter clean pre) hst' _ _ h
            refine ⟨.elsewhere l full s, pre ++ cs, by simp [Slots.lines, e1],
              ⟨by rw [hk1, hres], e2⟩, ?_,
              glued_append _ _ _ (hglue _) e4, ?_, e6, e7, ?_, ⟨e, e9, e10⟩, e11, e12⟩
            · rw [e3, hpre, text_append, List.append_assoc]
            · rw [sources_append, hpre0, e5]; rfl
            · intro p hp
              simp only [Slots.others, List.mem_cons] at hp
              rcases hp with rfl | hp
              · rw [e6]; simp [hin]
              · exact e8 p hp
          · rw [if_pos (by simpa [List.length_pos_iff] using hne)] at h
            obtain ⟨s, cs, e1, e2, e3, e4, e5, e6, e7, e8, ⟨e, e9, e10⟩, e11, e12⟩ :=
              ih hls true (statusAfter clean (pre ++ (.banner b :: ncs))) (fun _ h => by cases h) _ _ h
            have hgl : Glued (statusAfter clean pre) (.banner b :: ncs) := ⟨n4.1, n4.2⟩
            refine ⟨.expanded l node s, (pre ++ (.banner b :: ncs)) ++ cs, by simp [Slots.lines, e1],
              ⟨by rw [hk1, hres, n1], n2, e2⟩, ?_,
              glued_append _ _ _ (glued_append _ _ _ (hglue _) hgl) e4, ?_, ?_, fun hn => e7 (n7 hn), ?_,
              ?_, fun hn => e11 (n11 hn), ?_⟩
            · rw [e3, hpre, n3, text_append, text_append]; simp
            · rw [sources_append, sources_append, hpre0, e5]
              show sources ncs ++ _ = _
              rw [n5]; rfl
            · rw [e6, n6]; simp [Slots.paths]
            · intro p hp
              simp only [Slots.others, List.mem_append] at hp
              rcases hp with hp | hp
              · rw [e6]; exact List.mem_append_left _ (n8 p hp)
              · exact e8 p hp
            · refine ⟨ne ++ e, by rw [e9, n9]; simp, ?_⟩
              simp only [Slots.output, List.filterMap_append]
              rw [n10, e10]
            · intro x hx
              simp only [Slots.externals, List.mem_append] at hx
              rcases hx with hx | hx
              · rw [e9]; exact List.mem_append_left _ (n12 x hx)
              · exact e12 x hx
      · rw [if_neg hloc] at h
        have hloc' : isLocalIncludeLine o l = false := by simpa using hloc
        have hk1 : (kindOf o fs).localInclude l = none := by simp [kindOf, hloc']
        by_cases hp : contains l "#pragma once".toList = true
        · rw [if_pos hp] at h
          obtain ⟨s, cs, e1, e2, e3, e4, e5, e6, e7, e8, ⟨e, e9, e10⟩, e11, e12⟩ :=
            ih hls (interruptedAfter o intr l) (statusAfter clean pre) hst' _ st h
          refine ⟨.dropped l s, pre ++ cs, by simp [Slots.lines, e1], ⟨hk1, fun _ => hp, e2⟩, ?_,
            glued_append _ _ _ (hglue _) e4, ?_, e6, e7, e8, ⟨e, e9, e10⟩, e11, ?_⟩
          · rw [e3, hpre, text_append, List.append_assoc]
          · rw [sources_append, hpre0, e5]; rfl
          · intro x hx
            simp only [Slots.externals, hk2, Option.toList, List.nil_append] at hx
            exact e12 x hx
        · rw [if_neg hp] at h
          obtain ⟨s, cs, e1, e2, e3, e4, e5, e6, e7, e8, ⟨e, e9, e10⟩, e11, e12⟩ :=
            ih hls (interruptedAfter o intr l) (statusAfter clean (pre ++ [.source l])) hst _ _ h
          refine ⟨.kept l s, (pre ++ [.source l]) ++ cs, by simp [Slots.lines, e1],
            ⟨hk1, fun _ => by simpa [kindOf] using hp, e2⟩, ?_,
            glued_append _ _ _ (glued_append _ _ _ (hglue _) ?_) e4, ?_,
            e6, e7, e8, ⟨e, e9, ?_⟩, e11, ?_⟩
          · rw [e3, hpre, text_append, text_append]; simp [text, Chunk.text]
          · exact ⟨glue_line hclean hloc' hc1 hc2, trivial⟩
          · rw [sources_append, sources_append, hpre0, e5]; rfl
          · simp only [Slots.output, List.filterMap_cons, hk2]; rw [e10]
          · intro x hx
            simp only [Slots.externals, hk2, Option.toList, List.nil_append] at hx
            exact e12 x hx

theorem banner_not_blank (info x : Str) : (lines (decorateCodeInfo info ++ x)).all isBlank = false := by
  rw [Bool.eq_false_iff]
  intro h
  rw [List.all_eq_true] at h
  have hmem : separatorLine ∈ lines (decorateCodeInfo info ++ x) := by
    have e : decorateCodeInfo info ++ x = '\n' :: (separatorLine ++ '\n' ::
        ("//                       ".toList ++ info ++ spaces (separatorLine.length - 2 -
          ("//                       ".toList ++ info).length) ++ ['/', '/'] ++ ['\n'] ++ separatorLine ++ ['\n'] ++ x)) := by
      simp [decorateCodeInfo]
    rw [e]
    unfold lines
    rw [splitOn_cons_eq, splitOn_append_sep]
    · simp
    · unfold separatorLine
      intro hm
      have := List.eq_of_mem_replicate hm
      revert this; decide
  have := h _ hmem
  rw [isBlank_iff] at this
  have := this '/' (by simp [separatorLine])
  revert this; decide

theorem header_not_blank (rel by_ x : Str) : (lines (header rel by_ ++ x)).all isBlank = false := by
  unfold header
  split <;> exact banner_not_blank _ _

theorem call_ok (o : Options) (fs : FS) (n : Nat) (name by_ : Str) (st : St) (txt : Str) (st' : St)
    (hname : '\n' ∉ name) (hby : '\n' ∉ by_)
    (h : amalgamateOneFile o fs n name by_ st = .ok txt st') : CallOK o fs name st txt st' := by
  induction n generalizing name by_ st txt st' with
  | zero =>
    unfold amalgamateOneFile at h
    cases hr : resolve o fs name with
    | none => rw [hr] at h; cases h
    | some full =>
      rw [hr] at h
      simp only at h
      by_cases hm : full ∈ st.locals
      · rw [if_pos hm] at h
        injection h with h1 h2
        exact ⟨full, hr, Or.inl ⟨hm, h1.symm, h2.symm⟩⟩
      · rw [if_neg hm] at h; cases h
  | succ n ih =>
    unfold amalgamateOneFile at h
    cases hr : resolve o fs name with
    | none => rw [hr] at h; cases h
    | some full =>
      rw [hr] at h
      simp only at h
      by_cases hm : full ∈ st.locals
      · rw [if_pos hm] at h
        injection h with h1 h2
        exact ⟨full, hr, Or.inl ⟨hm, h1.symm, h2.symm⟩⟩
      · rw [if_neg hm] at h
        cases hf : fs full with
        | none => rw [hf] at h; cases h
        | some content =>
          rw [hf] at h
          simp only at h
          have hrel := relative_no_newline (o := o) hname
          cases hl : linesLoop o
              (fun newFile st => amalgamateOneFile o fs n newFile (relativeName o name) st)
              (relativeName o name) (readlines content) false (header (relativeName o name) by_)
              { st with locals := st.locals ++ [full] } with
          | fuel => rw [hl] at h; cases h
          | missing nm => rw [hl] at h; cases h
          | ok t s1 =>
            rw [hl] at h
            obtain ⟨s, cs, e1, e2, e3, e4, e5, e6, e7, e8, ⟨e, e9, e10⟩, e11, e12⟩ :=
              loop_ok o fs _ (relativeName o name) hrel
                (fun nm s t s' h1 h2 => ih nm _ s t s' h1 hrel h2) (readlines content)
                (readlines_terminated content) false true (fun _ _ => rfl) _ _ _ _ hl
            unfold finish at h
            have hnb : (lines t).all isBlank = false := by rw [e3]; exact header_not_blank _ _ _
            simp only [hnb, Bool.false_eq_true, if_false] at h
            injection h with h1 h2
            subst h1 h2
            have hb := header_banner hrel hby
            refine ⟨full, hr, Or.inr ⟨hm, ?_, .mk full s, header (relativeName o name) by_, cs, rfl,
              ⟨by simp [kindOf, hf, e1], e2⟩, ?_, ⟨hb, e4⟩, e5, ?_, ?_, e8, ⟨e, e9, e10⟩, e11, e12⟩⟩
            · intro hnil
              rw [hnil] at e3
              have := banner_head hb
              rw [(List.append_eq_nil_iff.1 e3.symm).1] at this
              cases this
            · rw [e3]; rfl
            · rw [e6]; simp [Node.paths]
            · intro hn
              apply e7
              show (st.locals ++ [full]).Nodup
              rw [List.nodup_append]
              refine ⟨hn, by simp, ?_⟩
              intro a ha b hb
              simp at hb
              rintro rfl
              exact hm (hb ▸ ha)

/-! ### termination -/

/-- Files not yet expanded. -/
def remaining (files : List Str) (st : St) : Nat := (files.filter (fun p => decide (p ∉ st.locals))).length

theorem remaining_mono (files : List Str) (st st' : St) (h : ∀ p ∈ st.locals, p ∈ st'.locals) :
    remaining files st' ≤ remaining files st := by
  unfold remaining
  induction files with
  | nil => simp
  | cons p ps ih =>
    simp only [List.filter_cons]
    by_cases h1 : p ∈ st'.locals
    · by_cases h2 : p ∈ st.locals
      · simp [h1, h2]; simpa using ih
      · simp [h1, h2]; simp at ih; omega
    · have h2 : p ∉ st.locals := fun h' => h1 (h p h')
      simp [h1, h2]; simpa using ih

theorem remaining_lt (files : List Str) (st : St) (p : Str) (hp : p ∈ files) (hn : p ∉ st.locals) :
    remaining files { st with locals := st.locals ++ [p] } < remaining files st := by
  unfold remaining
  induction files with
  | nil => simp at hp
  | cons q qs ih =>
    simp only [List.filter_cons]
    by_cases hq : q = p
    · subst hq
      have := remaining_mono qs st { st with locals := st.locals ++ [q] } (by simp; intro a h; exact Or.inl h)
      unfold remaining at this
      simp [hn] at this ⊢
      omega
    · have hp' : p ∈ qs := by
        rcases List.mem_cons.1 hp with h | h
        · exact absurd h.symm hq
        · exact h
      have ih := ih hp'
      by_cases h1 : q ∈ st.locals
      · simp [h1, hq] at ih ⊢; exact ih
      · simp [h1, hq] at ih ⊢; exact ih

/-- The lists only grow. -/
theorem call_mono (o : Options) (fs : FS) (n : Nat) (name by_ : Str) (st : St) (txt : Str) (st' : St)
    (hname : '\n' ∉ name) (hby : '\n' ∉ by_)
    (h : amalgamateOneFile o fs n name by_ st = .ok txt st') : ∀ p ∈ st.locals, p ∈ st'.locals := by
  obtain ⟨full, _, h | h⟩ := call_ok o fs n name by_ st txt st' hname hby h
  · rw [h.2.2]; exact fun _ h => h
  · obtain ⟨_, _, node, b, cs, _, _, _, _, _, h6, _⟩ := h
    intro p hp
    rw [h6]
    exact List.mem_append_left _ hp

theorem loop_no_fuel (o : Options) (rec : Str → St → Res) (rel : Str) (files : List Str) (n : Nat)
    (hrec : ∀ name st, '\n' ∉ name → remaining files st ≤ n → rec name st ≠ .fuel)
    (hmono : ∀ name st txt st', '\n' ∉ name → rec name st = .ok txt st' →
      ∀ p ∈ st.locals, p ∈ st'.locals)
    (ls : List Str) (ht : Terminated ls) (intr : Bool) (acc : Str) (st : St) (hst : remaining files st ≤ n) :
    linesLoop o rec rel ls intr acc st ≠ .fuel := by
  induction ls generalizing intr acc st with
  | nil => simp [linesLoop]
  | cons l ls ih =>
    obtain ⟨hl, hls, _⟩ := terminated_cons ht
    have ih := ih hls
    unfold linesLoop
    simp only
    split
    · split
      · exact ih _ _ _ hst
      · exact ih _ _ _ hst
    · split
      · cases hr : rec (extractLocalIncludeFile l) st with
        | fuel => exact absurd hr (hrec _ _ (extract_no_newline hl) hst)
        | missing nm => simp
        | ok addition st' =>
          have := remaining_mono files st st' (hmono _ _ _ _ (extract_no_newline hl) hr)
          simp only
          split
          · exact ih _ _ _ (by omega)
          · exact ih _ _ _ (by omega)
      · split
        · exact ih _ _ _ hst
        · exact ih _ _ _ hst

theorem call_no_fuel (o : Options) (fs : FS) (files : List Str) (hfs : ∀ p, fs p ≠ none → p ∈ files)
    (n : Nat) (name by_ : Str) (hname : '\n' ∉ name) (hby : '\n' ∉ by_) (st : St)
    (hst : remaining files st ≤ n) : amalgamateOneFile o fs n name by_ st ≠ .fuel := by
  induction n generalizing name by_ st with
  | zero =>
    unfold amalgamateOneFile
    cases hr : resolve o fs name with
    | none => simp
    | some full =>
      simp only
      by_cases hm : full ∈ st.locals
      · simp [hm]
      · exfalso
        obtain ⟨c, hc⟩ := resolve_some hr
        have := remaining_lt files st full (hfs full (by simp [hc])) hm
        omega
  | succ n ih =>
    unfold amalgamateOneFile
    cases hr : resolve o fs name with
    | none => simp
    | some full =>
      simp only
      by_cases hm : full ∈ st.locals
      · simp [hm]
      · rw [if_neg hm]
        obtain ⟨c, hc⟩ := resolve_some hr
        rw [hc]
        simp only
        have hlt := remaining_lt files st full (hfs full (by simp [hc])) hm
        have hrel := relative_no_newline (o := o) hname
        have := loop_no_fuel o (fun newFile st => amalgamateOneFile o fs n newFile (relativeName o name) st)
          (relativeName o name) files n
          (fun nm s h1 h2 => ih nm _ h1 hrel s h2)
          (fun nm s t s' h1 h2 => call_mono o fs n nm _ s t s' h1 hrel h2)
          (readlines c) (readlines_terminated c) false (header (relativeName o name) by_)
          { st with locals := st.locals ++ [full] } (by omega)
        revert this
        generalize linesLoop o _ _ _ _ _ _ = r
        intro this
        cases r with
        | fuel => exact absurd rfl this
        | missing nm => simp [finish]
        | ok t s => simp only [finish]; split <;> simp

/-- More fuel does not change the result. -/
theorem loop_fuel_mono (o : Options) (rec rec' : Str → St → Res) (rel : Str)
    (hrec : ∀ name st, rec name st ≠ .fuel → rec' name st = rec name st)
    (ls : List Str) (intr : Bool) (acc : Str) (st : St)
    (h : linesLoop o rec rel ls intr acc st ≠ .fuel) :
    linesLoop o rec' rel ls intr acc st = linesLoop o rec rel ls intr acc st := by
  induction ls generalizing intr acc st with
  | nil => rfl
  | cons l ls ih =>
    unfold linesLoop at h ⊢
    simp only at h ⊢
    split
    · rename_i h1
      rw [if_pos h1] at h
      split
      · rename_i h2
        rw [if_pos h2] at h
        exact ih _ _ _ h
      · rename_i h2
        rw [if_neg h2] at h
        exact ih _ _ _ h
    · rename_i h1
      rw [if_neg h1] at h
      split
      · rename_i h2
        rw [if_pos h2] at h
        cases hr : rec (extractLocalIncludeFile l) st with
        | fuel => rw [hr] at h; exact absurd rfl h
        | missing nm =>
          rw [hrec _ _ (by rw [hr]; simp), hr]
        | ok addition st' =>
          rw [hrec _ _ (by rw [hr]; simp), hr]
          rw [hr] at h
          simp only at h ⊢
          split
          · rename_i h3
            rw [if_pos h3] at h
            exact ih _ _ _ h
          · rename_i h3
            rw [if_neg h3] at h
            exact ih _ _ _ h
      · rename_i h2
        rw [if_neg h2] at h
        split
        · rename_i h3
          rw [if_pos h3] at h
          exact ih _ _ _ h
        · rename_i h3
          rw [if_neg h3] at h
          exact ih _ _ _ h

theorem call_fuel_succ (o : Options) (fs : FS) (n : Nat) (name by_ : Str) (st : St)
    (h : amalgamateOneFile o fs n name by_ st ≠ .fuel) :
    amalgamateOneFile o fs (n + 1) name by_ st = amalgamateOneFile o fs n name by_ st := by
  induction n generalizing name by_ st with
  | zero =>
    unfold amalgamateOneFile at h ⊢
    cases hr : resolve o fs name with
    | none => simp
    | some full =>
      rw [hr] at h
      simp only at h ⊢
      by_cases hm : full ∈ st.locals
      · simp [hm]
      · simp [hm] at h
  | succ n ih =>
    unfold amalgamateOneFile at h ⊢
    cases hr : resolve o fs name with
    | none => simp
    | some full =>
      rw [hr] at h
      simp only at h ⊢
      by_cases hm : full ∈ st.locals
      · simp [hm]
      · rw [if_neg hm] at h ⊢
        rw [if_neg hm]
        cases hf : fs full with
        | none => rfl
        | some content =>
          rw [hf] at h
          simp only at h ⊢
          rw [loop_fuel_mono o _ _ _ (fun nm s hs => ih nm (relativeName o name) s hs)]
          intro hc
          rw [hc] at h
          exact h rfl

/-! ### errors -/

theorem loop_missing (o : Options) (rec : Str → St → Res) (rel : Str) (ls : List Str) (intr : Bool)
    (acc : Str) (st : St) (nm : Str) (h : linesLoop o rec rel ls intr acc st = .missing nm) :
    ∃ l ∈ ls, isLocalIncludeLine o l = true ∧ ∃ s, rec (extractLocalIncludeFile l) s = .missing nm := by
  induction ls generalizing intr acc st with
  | nil => simp [linesLoop] at h
  | cons l ls ih =>
    have lift : (∃ x ∈ ls, isLocalIncludeLine o x = true ∧ ∃ s, rec (extractLocalIncludeFile x) s = .missing nm) →
        ∃ x ∈ l :: ls, isLocalIncludeLine o x = true ∧ ∃ s, rec (extractLocalIncludeFile x) s = .missing nm := by
      rintro ⟨x, hx, h⟩; exact ⟨x, List.mem_cons_of_mem _ hx, h⟩
    unfold linesLoop at h
    simp only at h
    split at h
    · split at h
      · exact lift (ih _ _ _ h)
      · exact lift (ih _ _ _ h)
    · split at h
      · rename_i hloc
        cases hr : rec (extractLocalIncludeFile l) st with
        | fuel => rw [hr] at h; cases h
        | missing nm' =>
          rw [hr] at h
          injection h with h
          subst h
          exact ⟨l, by simp, hloc, st, hr⟩
        | ok a s =>
          rw [hr] at h
          simp only at h
          split at h
          · exact lift (ih _ _ _ h)
          · exact lift (ih _ _ _ h)
      · split at h
        · exact lift (ih _ _ _ h)
        · exact lift (ih _ _ _ h)

theorem call_missing (o : Options) (fs : FS) (n : Nat) (name by_ : Str) (st : St) (nm : Str)
    (h : amalgamateOneFile o fs n name by_ st = .missing nm) :
    resolve o fs nm = none ∧ (nm = name ∨ ∃ full p ls l, resolve o fs name = some full ∧
      Reached (kindOf o fs) full p ∧ (kindOf o fs).fileLines p = some ls ∧
      l ∈ ls ∧ isLocalIncludeLine o l = true ∧ extractLocalIncludeFile l = nm) := by
  induction n generalizing name by_ st with
  | zero =>
    unfold amalgamateOneFile at h
    cases hr : resolve o fs name with
    | none =>
      rw [hr] at h
      injection h with h
      subst h
      exact ⟨hr, Or.inl rfl⟩
    | some full =>
      rw [hr] at h
      simp only at h
      split at h <;> cases h
  | succ n ih =>
    unfold amalgamateOneFile at h
    cases hr : resolve o fs name with
    | none =>
      rw [hr] at h
      injection h with h
      subst h
      exact ⟨hr, Or.inl rfl⟩
    | some full =>
      rw [hr] at h
      simp only at h
      split at h
      · cases h
      · obtain ⟨c, hc⟩ := resolve_some hr
        rw [hc] at h
        simp only at h
        revert h
        generalize hl : linesLoop o _ _ _ _ _ _ = r
        intro h
        cases r with
        | fuel => cases h
        | ok t s => simp only [finish] at h; split at h <;> cases h
        | missing nm' =>
          injection h with h
          subst h
          obtain ⟨l, hmem, hloc, s, hrec⟩ := loop_missing o _ _ _ _ _ _ _ hl
          obtain ⟨h1, h2⟩ := ih _ _ _ hrec
          have hfl : (kindOf o fs).fileLines full = some (readlines c) := by simp [kindOf, hc]
          refine ⟨h1, Or.inr ?_⟩
          rcases h2 with h2 | ⟨full', p, ls, l', h0, h3, h4, h5, h6, h7⟩
          · exact ⟨full, full, readlines c, l, rfl, .start, hfl, hmem, hloc, h2.symm⟩
          · refine ⟨full, p, ls, l', rfl, ?_, h4, h5, h6, h7⟩
            clear h4 h5 h6 h7
            have hstep : Reached (kindOf o fs) full full' :=
              .step full full' l _ .start hfl hmem (by simp [kindOf, hloc, h0])
            induction h3 with
            | start => exact hstep
            | step p q l2 ls2 _ hf2 hl2 hi2 ih2 => exact .step p q l2 ls2 ih2 hf2 hl2 hi2

/-! ### trees -/

theorem node_path_mem (n : Node) : n.path ∈ n.paths := by
  cases n; simp [Node.path, Node.paths]

mutual
theorem node_find (k : Kind) (n : Node) (hf : n.Fits k) (p : Str) (hp : p ∈ n.paths) :
    ∃ s : Slots, k.fileLines p = some s.lines ∧ s.Fits k ∧ (∀ q ∈ s.paths, q ∈ n.paths) ∧
      (∀ q ∈ s.others, q ∈ n.others) ∧ s.output <+ n.output ∧
      (∀ x ∈ s.externals k, x ∈ n.externals k) := by
  match n with
  | .mk q s =>
    simp only [Node.paths, List.mem_cons] at hp
    rcases hp with rfl | hp
    · exact ⟨s, hf.1, hf.2, by simp [Node.paths]; intro q h; exact Or.inr h, fun _ h => h,
        List.Sublist.refl _, fun _ h => h⟩
    · obtain ⟨t, h1, h2, h3, h4, h5, h6⟩ := slots_find k s hf.2 p hp
      exact ⟨t, h1, h2, fun q hq => by simp [Node.paths, h3 q hq], h4, h5, h6⟩
theorem slots_find (k : Kind) (s : Slots) (hf : s.Fits k) (p : Str) (hp : p ∈ s.paths) :
    ∃ t : Slots, k.fileLines p = some t.lines ∧ t.Fits k ∧ (∀ q ∈ t.paths, q ∈ s.paths) ∧
      (∀ q ∈ t.others, q ∈ s.others) ∧ t.output <+ s.output ∧
      (∀ x ∈ t.externals k, x ∈ s.externals k) := by
  match s with
  | .done => simp [Slots.paths] at hp
  | .kept l r =>
    obtain ⟨t, h1, h2, h3, h4, h5, h6⟩ := slots_find k r hf.2.2 p hp
    exact ⟨t, h1, h2, h3, h4, h5.cons _, fun x hx => by simp [Slots.externals, h6 x hx]⟩
  | .dropped l r =>
    obtain ⟨t, h1, h2, h3, h4, h5, h6⟩ := slots_find k r hf.2.2 p hp
    exact ⟨t, h1, h2, h3, h4, h5, fun x hx => by simp [Slots.externals, h6 x hx]⟩
  | .elsewhere l q r =>
    obtain ⟨t, h1, h2, h3, h4, h5, h6⟩ := slots_find k r hf.2 p hp
    exact ⟨t, h1, h2, h3, fun x hx => by simp [Slots.others, h4 x hx], h5, h6⟩
  | .expanded l n r =>
    simp only [Slots.paths, List.mem_append] at hp
    rcases hp with hp | hp
    · obtain ⟨t, h1, h2, h3, h4, h5, h6⟩ := node_find k n hf.2.1 p hp
      exact ⟨t, h1, h2, fun q hq => by simp [Slots.paths, h3 q hq],
        fun x hx => by simp [Slots.others, h4 x hx], h5.trans (List.sublist_append_left _ _),
        fun x hx => by simp [Slots.externals, h6 x hx]⟩
    · obtain ⟨t, h1, h2, h3, h4, h5, h6⟩ := slots_find k r hf.2.2 p hp
      exact ⟨t, h1, h2, fun q hq => by simp [Slots.paths, h3 q hq],
        fun x hx => by simp [Slots.others, h4 x hx], h5.trans (List.sublist_append_right _ _),
        fun x hx => by simp [Slots.externals, h6 x hx]⟩
end

theorem slots_local (k : Kind) (s : Slots) (hf : s.Fits k) (l : Str) (hl : l ∈ s.lines)
    (t : Option Str) (h : k.localInclude l = some t) :
    ∃ p, t = some p ∧ (p ∈ s.paths ∨ p ∈ s.others) := by
  match s with
  | .done => simp [Slots.lines] at hl
  | .kept l' r =>
    rcases List.mem_cons.1 hl with rfl | hl
    · rw [hf.1] at h; cases h
    · exact slots_local k r hf.2.2 l hl t h
  | .dropped l' r =>
    rcases List.mem_cons.1 hl with rfl | hl
    · rw [hf.1] at h; cases h
    · exact slots_local k r hf.2.2 l hl t h
  | .elsewhere l' q r =>
    rcases List.mem_cons.1 hl with rfl | hl
    · rw [hf.1] at h
      injection h with h
      exact ⟨q, h.symm, Or.inr (by simp [Slots.others])⟩
    · obtain ⟨p, h1, h2⟩ := slots_local k r hf.2 l hl t h
      exact ⟨p, h1, h2.imp id (fun h => by simp [Slots.others, h])⟩
  | .expanded l' n r =>
    rcases List.mem_cons.1 hl with rfl | hl
    · rw [hf.1] at h
      injection h with h
      exact ⟨n.path, h.symm, Or.inl (by simp [Slots.paths, node_path_mem])⟩
    · obtain ⟨p, h1, h2⟩ := slots_local k r hf.2.2 l hl t h
      exact ⟨p, h1, h2.imp (fun h => by simp [Slots.paths, h]) (fun h => by simp [Slots.others, h])⟩

open Classical in
theorem slots_ordinary (k : Kind) (s : Slots) (hf : s.Fits k) :
    s.lines.filter (fun l => decide (Ordinary k l)) <+ s.output := by
  match s with
  | .done => exact List.Sublist.refl _
  | .kept l r =>
    have ih := slots_ordinary k r hf.2.2
    simp only [Slots.lines, List.filter_cons, Slots.output]
    split
    · exact ih.cons_cons _
    · exact ih.cons _
  | .dropped l r =>
    have ih := slots_ordinary k r hf.2.2
    simp only [Slots.lines, List.filter_cons, Slots.output]
    rw [if_neg]
    · exact ih
    · simp only [decide_eq_true_eq]
      intro ho
      have := hf.2.1 ho.2.1
      rw [ho.2.2] at this; cases this
  | .elsewhere l q r =>
    have ih := slots_ordinary k r hf.2
    simp only [Slots.lines, List.filter_cons, Slots.output]
    rw [if_neg]
    · exact ih
    · simp only [decide_eq_true_eq]
      intro ho
      have := ho.1
      rw [hf.1] at this; cases this
  | .expanded l n r =>
    have ih := slots_ordinary k r hf.2.2
    simp only [Slots.lines, List.filter_cons, Slots.output]
    rw [if_neg]
    · exact ih.trans (List.sublist_append_right _ _)
    · simp only [decide_eq_true_eq]
      intro ho
      have := ho.1
      rw [hf.1] at this; cases this

theorem slots_external (k : Kind) (s : Slots) (l x : Str) (hl : l ∈ s.lines)
    (hloc : k.localInclude l = none) (hf : s.Fits k)
    (h : k.external l = some x) : x ∈ s.externals k := by
  match s with
  | .done => simp [Slots.lines] at hl
  | .kept l' r =>
    rcases List.mem_cons.1 hl with rfl | hl
    · simp [Slots.externals, h]
    · simp [Slots.externals, slots_external k r l x hl hloc hf.2.2 h]
  | .dropped l' r =>
    rcases List.mem_cons.1 hl with rfl | hl
    · simp [Slots.externals, h]
    · simp [Slots.externals, slots_external k r l x hl hloc hf.2.2 h]
  | .elsewhere l' q r =>
    rcases List.mem_cons.1 hl with rfl | hl
    · rw [hf.1] at hloc; cases hloc
    · exact slots_external k r l x hl hloc hf.2 h
  | .expanded l' n r =>
    rcases List.mem_cons.1 hl with rfl | hl
    · rw [hf.1] at hloc; cases hloc
    · simp [Slots.externals, slots_external k r l x hl hloc hf.2.2 h]

mutual
theorem node_reached (k : Kind) (start : Str) (n : Node) (hf : n.Fits k) (h : Reached k start n.path) :
    ∀ p ∈ n.paths, Reached k start p := by
  match n with
  | .mk q s =>
    intro p hp
    simp only [Node.paths, List.mem_cons] at hp
    rcases hp with rfl | hp
    · exact h
    · exact slots_reached k start q s.lines h hf.1 s hf.2 (fun _ h => h) p hp
theorem slots_reached (k : Kind) (start q : Str) (ls : List Str) (hq : Reached k start q)
    (hls : k.fileLines q = some ls) (s : Slots) (hf : s.Fits k) (hsub : ∀ l ∈ s.lines, l ∈ ls) :
    ∀ p ∈ s.paths, Reached k start p := by
  match s with
  | .done => simp [Slots.paths]
  | .kept l r =>
    exact slots_reached k start q ls hq hls r hf.2.2 (fun x hx => hsub x (List.mem_cons_of_mem _ hx))
  | .dropped l r =>
    exact slots_reached k start q ls hq hls r hf.2.2 (fun x hx => hsub x (List.mem_cons_of_mem _ hx))
  | .elsewhere l q' r =>
    exact slots_reached k start q ls hq hls r hf.2 (fun x hx => hsub x (List.mem_cons_of_mem _ hx))
  | .expanded l n r =>
    intro p hp
    simp only [Slots.paths, List.mem_append] at hp
    rcases hp with hp | hp
    · exact node_reached k start n hf.2.1
        (.step q n.path l ls hq hls (hsub l (by simp [Slots.lines])) hf.1) p hp
    · exact slots_reached k start q ls hq hls r hf.2.2
        (fun x hx => hsub x (List.mem_cons_of_mem _ hx)) p hp
end

mutual
theorem node_output_lines (o : Options) (fs : FS) (n : Node) (hf : n.Fits (kindOf o fs)) :
    ∀ l ∈ n.output, IsLine l := by
  match n with
  | .mk q s =>
    have h1 := hf.1
    simp only [kindOf, Option.map_eq_some_iff] at h1
    obtain ⟨c, _, hc⟩ := h1
    exact slots_output_lines o fs s hf.2 (by rw [← hc]; exact readlines_terminated c)
theorem slots_output_lines (o : Options) (fs : FS) (s : Slots) (hf : s.Fits (kindOf o fs))
    (ht : Terminated s.lines) : ∀ l ∈ s.output, IsLine l := by
  match s with
  | .done => simp [Slots.output]
  | .kept l r =>
    have := terminated_cons ht
    intro x hx
    rcases List.mem_cons.1 hx with rfl | hx
    · exact this.1
    · exact slots_output_lines o fs r hf.2.2 this.2.1 x hx
  | .dropped l r => exact slots_output_lines o fs r hf.2.2 (terminated_cons ht).2.1
  | .elsewhere l q r => exact slots_output_lines o fs r hf.2 (terminated_cons ht).2.1
  | .expanded l n r =>
    intro x hx
    rcases List.mem_append.1 hx with hx | hx
    · exact node_output_lines o fs n hf.2.1 x hx
    · exact slots_output_lines o fs r hf.2.2 (terminated_cons ht).2.1 x hx
end

/-! ### lines of the output -/

theorem lines_append_newline {a : Str} (h : '\n' ∉ a) (b : Str) :
    lines (a ++ '\n' :: b) = a :: lines b := by
  unfold lines
  rw [splitOn_append_sep h]

theorem lines_suffix (a b : Str) : lines b <+ lines (a ++ '\n' :: b) := by
  induction a with
  | nil =>
    show lines b <+ splitOn '\n' ('\n' :: b)
    rw [splitOn_cons_eq]
    exact List.sublist_cons_self _ _
  | cons c cs ih =>
    by_cases hc : c = '\n'
    · subst hc
      show lines b <+ splitOn '\n' ('\n' :: (cs ++ '\n' :: b))
      rw [splitOn_cons_eq]
      exact ih.cons _
    · have tail : ∀ x : Str, lines b <+ (lines (x ++ '\n' :: b)).tail := by
        intro x
        induction x with
        | nil =>
          show lines b <+ (splitOn '\n' ('\n' :: b)).tail
          rw [splitOn_cons_eq]
          exact List.Sublist.refl _
        | cons d ds ihd =>
          by_cases hd : d = '\n'
          · subst hd
            show lines b <+ (splitOn '\n' ('\n' :: (ds ++ '\n' :: b))).tail
            rw [splitOn_cons_eq]
            exact ihd.trans (List.tail_sublist _)
          · show lines b <+ (splitOn '\n' (d :: (ds ++ '\n' :: b))).tail
            unfold splitOn
            rw [if_neg hd]
            unfold lines at ihd
            cases hsp : splitOn '\n' (ds ++ '\n' :: b) with
            | nil => exact absurd hsp (splitOn_ne_nil _ _)
            | cons y ys => rw [hsp] at ihd; exact ihd
      exact (tail (c :: cs)).trans (List.tail_sublist _)

theorem lines_flatMap (ls : List Str) (b : Str) :
    lines b <+ lines (ls.flatMap (· ++ ['\n']) ++ b) := by
  induction ls with
  | nil => exact List.Sublist.refl _
  | cons a as iha =>
    refine iha.trans ?_
    have := lines_suffix a (as.flatMap (· ++ ['\n']) ++ b)
    simpa using this

/-- The lines expected from a pending piece of line. -/
def pending (cur : Str) : List Str := if (strip cur).length > 0 then [rstrip cur] else []

def nonBlank (l : Str) : Bool := decide ((strip l).length > 0)

theorem rstrip_append_blank (a b : Str) (h : ∀ c ∈ b, isSpace c = true) : rstrip (a ++ b) = rstrip a :=
  rstrip_append_of_all h

theorem strip_append_blank (a b : Str) (h : ∀ c ∈ b, isSpace c = true) : strip (a ++ b) = strip a := by
  have := Escape.strip_append (a := []) (b := a) (c := b) (by simp) h
  simpa using this

theorem glued_lines (cs : List Chunk) (clean : Bool) (cur : Str) (hcur : '\n' ∉ cur)
    (hclean : clean = true → cur = []) (hg : Glued clean cs) (hl : ∀ l ∈ sources cs, IsLine l) :
    pending cur ++ ((sources cs).filter nonBlank).map rstrip <+
      (lines (cur ++ text cs)).map rstrip := by
  induction cs generalizing clean cur with
  | nil =>
    have e : lines (cur ++ text []) = [cur] := by
      simp [text, lines, splitOn_of_not_mem hcur]
    rw [e]
    simp only [sources, List.filter_nil, List.map_nil, List.append_nil, List.map_cons]
    unfold pending
    split
    · exact List.Sublist.refl _
    · simp
  | cons x xs ih =>
    have hnl : ∀ c ∈ (['\n'] : Str), isSpace c = true := by
      intro c hc; simp at hc; subst hc; decide
    have pend_nil : pending [] = [] := by decide
    cases x with
    | source l =>
      obtain ⟨hg1, hg2⟩ := hg
      have hlx : ∀ m ∈ sources xs, IsLine m := fun m hm => hl m (by simp [sources, hm])
      obtain ⟨hne, body, hbody, hb⟩ := hl l (by simp [sources])
      -- the pending piece and the line together
      have hpend : pending cur ++ (([l].filter nonBlank).map rstrip) = pending (cur ++ body) := by
        have hlb : rstrip l = rstrip body ∧ strip l = strip body ∧
            ((∀ c ∈ l, isSpace c = true) ↔ ∀ c ∈ body, isSpace c = true) := by
          rcases hb with rfl | rfl
          · exact ⟨rfl, rfl, Iff.rfl⟩
          · refine ⟨rstrip_append_blank _ _ hnl, strip_append_blank _ _ hnl, ?_⟩
            constructor
            · intro h c hc; exact h c (by simp [hc])
            · intro h c hc
              rcases List.mem_append.1 hc with hc | hc
              · exact h c hc
              · exact hnl c hc
        by_cases hbl : ∀ c ∈ l, isSpace c = true
        · have hbl' := hlb.2.2.1 hbl
          have hn : nonBlank l = false := by
            unfold nonBlank
            simp only [decide_eq_false_iff_not]
            exact fun h => (blank_iff l).1 h hbl
          simp only [List.filter_cons, hn, Bool.false_eq_true, if_false, List.filter_nil, List.map_nil,
            List.append_nil]
          unfold pending
          rw [rstrip_append_blank _ _ hbl', strip_append_blank _ _ hbl']
        · have hc : cur = [] := hclean (hg1.resolve_left hbl)
          subst hc
          have hn : nonBlank l = true := by
            unfold nonBlank
            simp only [decide_eq_true_eq]
            exact (blank_iff l).2 hbl
          simp only [List.filter_cons, hn, if_true, List.filter_nil, List.map_cons, List.map_nil, pend_nil,
            List.nil_append]
          unfold pending
          rw [if_pos, hlb.1]
          rw [← hlb.2.1]
          exact (blank_iff l).2 hbl
      have hsrc : sources (.source l :: xs) = [l] ++ sources xs := rfl
      rw [hsrc, List.filter_append, List.map_append, ← List.append_assoc, hpend]
      have hcb : '\n' ∉ cur ++ body := by simp [hcur, hbody]
      rcases hb with rfl | rfl
      · have hlast : cleanAfter (.source l) = false := by
          have : l.getLast? ≠ some '\n' := by
            intro h
            exact hbody (List.mem_of_getLast? h)
          simp [cleanAfter, this]
        have := ih (cleanAfter (.source l)) (cur ++ l) hcb (by rw [hlast]; intro h; cases h) hg2 hlx
        simpa [text, Chunk.text] using this
      · have := ih (cleanAfter (.source (body ++ ['\n']))) [] (by simp) (fun _ => rfl) hg2 hlx
        have e : cur ++ text (.source (body ++ ['\n']) :: xs) = (cur ++ body) ++ '\n' :: text xs := by
          simp [text, Chunk.text]
        rw [e, lines_append_newline hcb, List.map_cons]
        rw [pend_nil] at this
        simp only [List.nil_append] at this
        unfold pending
        split
        · exact this.cons_cons _
        · exact this.cons _
    | banner b =>
      obtain ⟨⟨ls, rfl, _⟩, hg2⟩ := hg
      have := ih true [] (by simp) (fun _ => rfl) hg2 hl
      rw [pend_nil] at this
      simp only [List.nil_append] at this
      have e : cur ++ text (.banner ('\n' :: ls.flatMap (· ++ ['\n'])) :: xs) =
          cur ++ '\n' :: (ls.flatMap (· ++ ['\n']) ++ text xs) := by
        simp [text, Chunk.text]
      rw [e, lines_append_newline hcur, List.map_cons]
      have hsub : lines (text xs) <+ lines (ls.flatMap (· ++ ['\n']) ++ text xs) := by
        exact lines_flatMap ls (text xs)
      have := this.trans (hsub.map rstrip)
      show pending cur ++ ((sources xs).filter nonBlank).map rstrip <+ _
      unfold pending
      split
      · exact this.cons_cons _
      · exact this.cons _

end Verif.Amalg
