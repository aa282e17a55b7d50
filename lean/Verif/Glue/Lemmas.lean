import Verif.Glue.Model
import Verif.Glue.Spec
import Verif.Py.StrLemmas
import Verif.Indent.Lemmas
import Verif.Template.Props

namespace Verif.Glue
open Verif.Py Verif.Glue.Spec

/-! ### Words -/

theorem splitOn_split (s : Char) (a b : Str) : splitOn s (a ++ s :: b) = splitOn s a ++ splitOn s b := by
  induction a with
  | nil => simp [splitOn]
  | cons x a ih =>
    by_cases h : x = s
    · simp only [List.cons_append, splitOn, h, if_true, ih]
    · rw [List.cons_append]
      obtain ⟨l, ls, h1, h2⟩ := splitOn_cons_ne h a
      obtain ⟨l', ls', h1', h2'⟩ := splitOn_cons_ne h (a ++ s :: b)
      rw [h2, h2']
      rw [ih, h1] at h1'
      injection h1' with e1 e2
      rw [e1, ← e2]; rfl

def bareWords (l : Str) : List Str := (splitOn ' ' (l.flatMap pad)).filter (fun w => w ≠ [])

theorem words_eq (l : Str) : words l = bareWords (comment [] l) := rfl

theorem bare_split (a b : Str) : bareWords (a ++ ' ' :: b) = bareWords a ++ bareWords b := by
  unfold bareWords
  rw [List.flatMap_append, List.flatMap_cons]
  have : pad ' ' = [' '] := by decide
  rw [this, List.singleton_append, splitOn_split, List.filter_append]

theorem bare_punct (c : Char) (hc : c = '{' ∨ c = '}' ∨ c = ';') (a b : Str) : bareWords (a ++ c :: b) = bareWords a ++ [c] :: bareWords b := by
  unfold bareWords
  rw [List.flatMap_append, List.flatMap_cons]
  have h1 : pad c = [' ', c, ' '] := by unfold pad; rw [if_pos hc]
  have h2 : c ≠ ' ' := by rcases hc with rfl | rfl | rfl <;> decide
  rw [h1]
  have e : a.flatMap pad ++ ([' ', c, ' '] ++ b.flatMap pad) = a.flatMap pad ++ ' ' :: ([c] ++ ' ' :: b.flatMap pad) := rfl
  rw [e, splitOn_split, splitOn_split, List.filter_append, List.filter_append, splitOn_of_not_mem (s := [c]) (by simpa using Ne.symm h2)]
  rfl

theorem bare_nil : bareWords [] = [] := by decide

theorem bare_name (n : Str) (h0 : n ≠ []) (h : ∀ c ∈ n, c ≠ ' ' ∧ c ≠ '{' ∧ c ≠ '}' ∧ c ≠ ';') : bareWords n = [n] := by
  unfold bareWords
  have hp : n.flatMap pad = n := by
    clear h0
    induction n with
    | nil => rfl
    | cons c n ih =>
      obtain ⟨_, h2, h3, h4⟩ := h c (by simp)
      rw [List.flatMap_cons, ih (fun x hx => h x (List.mem_cons_of_mem _ hx))]
      unfold pad
      rw [if_neg (by simp [h2, h3, h4])]
      rfl
  rw [hp, splitOn_of_not_mem (fun hm => (h ' ' hm).1 rfl)]
  simp [h0]

theorem bare_spaces (n : Nat) (l : Str) : bareWords (spaces n ++ l) = bareWords l := by
  induction n with
  | zero => rfl
  | succ n ih =>
    show bareWords ([] ++ ' ' :: (spaces n ++ l)) = _
    rw [bare_split, bare_nil, ih]; rfl

theorem comment_free (a r acc : Str) (h : '/' ∉ a) : comment acc (a ++ r) = comment (acc ++ a) r := by
  induction a generalizing acc with
  | nil => simp
  | cons c a ih =>
    rw [List.cons_append, comment, if_neg, ih _ (fun hm => h (List.mem_cons_of_mem _ hm))]
    · simp
    · have hc : c ≠ '/' := fun e => h (by simp [e])
      rw [show "//".toList = '/' :: ['/'] from rfl]
      unfold startsWith
      simp [List.isPrefixOf, Ne.symm hc]

theorem words_free (a : Str) (h : '/' ∉ a) : words a = bareWords a := by
  rw [words_eq]
  have := comment_free a [] [] h
  rw [List.append_nil, List.nil_append, comment] at this
  rw [this]

theorem words_comment (a t : Str) (h : '/' ∉ a) : words (a ++ '/' :: '/' :: t) = bareWords a := by
  rw [words_eq, comment_free a _ [] h, comment, if_pos]
  · rfl
  · rw [show "//".toList = '/' :: ['/'] from rfl]
    unfold startsWith
    simp [List.isPrefixOf]

/-! ### The scope -/

def AllNamespaces (scope : List ScopePart) : Prop := ∀ p ∈ scope, p.type = .namespace_ ∧ GoodName p.name

theorem good_bare {n : Str} (h : GoodName n) : bareWords n = [n] :=
  bare_name n h.1 (fun c hc => ⟨(h.2.1 c hc).1, (h.2.1 c hc).2.2.1, (h.2.1 c hc).2.2.2.1, (h.2.1 c hc).2.2.2.2.1⟩)

theorem good_slash {n : Str} (h : GoodName n) : '/' ∉ n := fun hm => (h.2.1 _ hm).2.2.2.2.2 rfl
theorem good_nl {n : Str} (h : GoodName n) : '\n' ∉ n := fun hm => (h.2.1 _ hm).2.1 rfl

def introText (scope : List ScopePart) : Str := scope.flatMap (fun p => "namespace ".toList ++ p.name ++ " { ".toList)

theorem scopeIntro_eq (scope : List ScopePart) (h : AllNamespaces scope) : scopeIntro scope = some (introText scope) := by
  induction scope with
  | nil => rfl
  | cons p ps ih =>
    rw [scopeIntro, if_pos (h p (by simp)).1, ih (fun q hq => h q (List.mem_cons_of_mem _ hq))]
    rfl

theorem scopeIntro_none (scope : List ScopePart) (h : ∃ p ∈ scope, p.type ≠ .namespace_) : scopeIntro scope = none := by
  induction scope with
  | nil => obtain ⟨p, hp, _⟩ := h; simp at hp
  | cons q ps ih =>
    rw [scopeIntro]
    split
    · rename_i hq
      obtain ⟨p, hp, hpt⟩ := h
      rcases List.mem_cons.1 hp with rfl | hp
      · exact absurd hq hpt
      · rw [ih ⟨p, hp, hpt⟩]; rfl
    · rfl

theorem introText_chars (scope : List ScopePart) (h : AllNamespaces scope) : '/' ∉ introText scope ∧ '\n' ∉ introText scope := by
  constructor
  · intro hm
    obtain ⟨p, hp, hc⟩ := List.mem_flatMap.1 hm
    simp only [List.mem_append] at hc
    rcases hc with (hc | hc) | hc
    · revert hc; decide
    · exact good_slash (h p hp).2 hc
    · revert hc; decide
  · intro hm
    obtain ⟨p, hp, hc⟩ := List.mem_flatMap.1 hm
    simp only [List.mem_append] at hc
    rcases hc with (hc | hc) | hc
    · revert hc; decide
    · exact good_nl (h p hp).2 hc
    · revert hc; decide

theorem intro_words (scope : List ScopePart) (h : AllNamespaces scope) :
    words (introText scope) = scope.flatMap (fun p => ["namespace".toList, p.name, "{".toList]) := by
  rw [words_free _ (introText_chars scope h).1]
  induction scope with
  | nil => exact bare_nil
  | cons p ps ih =>
    have hp := h p (by simp)
    have e : introText (p :: ps) = "namespace".toList ++ ' ' :: (p.name ++ ' ' :: ("{".toList ++ ' ' :: introText ps)) := by
      show ("namespace ".toList ++ p.name ++ " { ".toList) ++ introText ps = _
      simp only [List.append_assoc]; rfl
    rw [e, bare_split, bare_split, bare_split, good_bare hp.2, ih (fun q hq => h q (List.mem_cons_of_mem _ hq)), List.flatMap_cons]
    rw [show bareWords "namespace".toList = ["namespace".toList] by decide, show bareWords "{".toList = ["{".toList] by decide]
    rfl

def outroText (scope : List ScopePart) : Str :=
  (List.replicate scope.length "} ".toList).flatten ++ scope.reverse.flatMap scopeComment

theorem braces_bare (n : Nat) : bareWords ((List.replicate n "} ".toList).flatten) = List.replicate n "}".toList := by
  induction n with
  | zero => exact bare_nil
  | succ n ih =>
    show bareWords ([] ++ '}' :: ([] ++ ' ' :: (List.replicate n "} ".toList).flatten)) = _
    rw [bare_punct '}' (by simp), bare_split, bare_nil, ih]
    rfl

theorem braces_slash (n : Nat) (c : Char) (hc : c ≠ '}' ∧ c ≠ ' ') : c ∉ (List.replicate n "} ".toList).flatten := by
  intro hm
  obtain ⟨l, hl, hcl⟩ := List.mem_flatten.1 hm
  rw [List.eq_of_mem_replicate hl] at hcl
  simp only [show "} ".toList = ['}', ' '] from rfl, List.mem_cons, List.not_mem_nil, or_false] at hcl
  rcases hcl with h | h
  · exact hc.1 h
  · exact hc.2 h

theorem outro_words (scope : List ScopePart) (h : AllNamespaces scope) : words (outroText scope) = List.replicate scope.length "}".toList := by
  unfold outroText
  have hs := braces_slash scope.length '/' (by decide)
  cases hr : scope.reverse with
  | nil =>
    have : scope = [] := by simpa using hr
    rw [this]
    show words [] = []
    decide
  | cons p ps =>
    have hp : p.type = .namespace_ := (h p (List.mem_reverse.1 (by rw [hr]; simp))).1
    have e : (p :: ps).flatMap scopeComment = ' ' :: '/' :: '/' :: (" namespace ".toList ++ p.name ++ " ".toList ++ ps.flatMap scopeComment) := by
      rw [List.flatMap_cons]; unfold scopeComment; rw [if_pos hp]; rfl
    rw [e]
    have e2 : ∀ (a t : Str), a ++ ' ' :: '/' :: '/' :: t = (a ++ " ".toList) ++ '/' :: '/' :: t := by intro a t; simp
    rw [e2, words_comment]
    · show bareWords (_ ++ ' ' :: []) = _
      rw [bare_split, bare_nil, List.append_nil, braces_bare]
    · intro hm
      rcases List.mem_append.1 hm with hm | hm
      · exact hs hm
      · revert hm; decide

theorem outroText_nl (scope : List ScopePart) (h : AllNamespaces scope) : '\n' ∉ outroText scope := by
  unfold outroText
  intro hm
  rcases List.mem_append.1 hm with hm | hm
  · exact braces_slash scope.length '\n' (by decide) hm
  · obtain ⟨p, hp, hc⟩ := List.mem_flatMap.1 hm
    have hp := h p (List.mem_reverse.1 hp)
    unfold scopeComment at hc
    rw [if_pos hp.1] at hc
    simp only [List.mem_append] at hc
    rcases hc with (hc | hc) | hc
    · revert hc; decide
    · exact good_nl hp.2 hc
    · revert hc; decide

/-! ### Reading -/

theorem read_intro (scope : List ScopePart) (st : List Str) (decl : List (List Str × Str)) :
    (scope.flatMap (fun p => ["namespace".toList, p.name, "{".toList])).foldlM step ⟨st, .nothing, decl⟩ =
      some ⟨(scope.map ScopePart.name).reverse ++ st, .nothing, decl⟩ := by
  induction scope generalizing st with
  | nil => rfl
  | cons p ps ih =>
    rw [List.flatMap_cons, List.foldlM_append]
    have : ["namespace".toList, p.name, "{".toList].foldlM step ⟨st, .nothing, decl⟩ = some ⟨p.name :: st, .nothing, decl⟩ := rfl
    rw [this]
    show (ps.flatMap _).foldlM step _ = _
    rw [ih]
    simp

theorem read_outro (ns st : List Str) (decl : List (List Str × Str)) :
    (List.replicate ns.length "}".toList).foldlM step ⟨ns ++ st, .nothing, decl⟩ = some ⟨st, .nothing, decl⟩ := by
  induction ns with
  | nil => rfl
  | cons n ns ih =>
    rw [List.length_cons, List.replicate_succ, List.foldlM_cons]
    show (List.replicate ns.length "}".toList).foldlM step ⟨ns ++ st, .nothing, decl⟩ = _
    exact ih

theorem lines_split (a b : Str) : lines (a ++ '\n' :: b) = lines a ++ lines b := splitOn_split '\n' a b

theorem lines_bare (l : Str) (h : '\n' ∉ l) : lines l = [l] := splitOn_of_not_mem h

/-- The text put in the glue code around some code. -/
theorem inScope_lines (scope : List ScopePart) (code : Str) (h : AllNamespaces scope) :
    ∃ t, inScope scope code = some t ∧ lines t = [[], introText scope] ++ lines code ++ [outroText scope, []] := by
  unfold inScope glueScopeIntroOutro
  rw [scopeIntro_eq scope h]
  refine ⟨_, rfl, ?_⟩
  have e : ∀ u : Str, "\n".toList ++ u ++ "\n".toList = [] ++ '\n' :: (u ++ '\n' :: []) := fun u => by simp
  show lines ("\n".toList ++ unlines ([introText scope] ++ lines code ++ [outroText scope]) ++ "\n".toList) = _
  rw [e, lines_split, lines_split, lines_unlines (by simp)]
  · show [[]] ++ (([introText scope] ++ lines code ++ [outroText scope]) ++ [[]]) = _
    simp
  · intro l hl
    simp only [List.mem_append, List.mem_singleton] at hl
    rcases hl with (rfl | hl) | rfl
    · exact (introText_chars scope h).2
    · exact not_mem_of_mem_lines hl
    · exact outroText_nl scope h

/-- Reading a text put around some code. -/
theorem inScope_read (scope : List ScopePart) (code : Str) (h : AllNamespaces scope) (name : Str)
    (hcode : ∀ st decl, ((lines code).flatMap words).foldlM step ⟨st, .nothing, decl⟩ = some ⟨st, .nothing, decl ++ [(st.reverse, name)]⟩)
    (t : Str) (ht : inScope scope code = some t) (st : List Str) (decl : List (List Str × Str)) :
    readCode t ⟨st, .nothing, decl⟩ = some ⟨st, .nothing, decl ++ [(st.reverse ++ scope.map ScopePart.name, name)]⟩ := by
  obtain ⟨t', h1, h2⟩ := inScope_lines scope code h
  rw [ht] at h1
  obtain rfl := Option.some.inj h1
  unfold readCode
  rw [h2, List.flatMap_append, List.flatMap_append, List.foldlM_append, List.foldlM_append]
  have e1 : [[], introText scope].flatMap words = scope.flatMap (fun p => ["namespace".toList, p.name, "{".toList]) := by
    rw [List.flatMap_cons, List.flatMap_cons, intro_words scope h, show words [] = [] by decide]; simp
  have e2 : [outroText scope, []].flatMap words = List.replicate ((scope.map ScopePart.name).reverse).length "}".toList := by
    rw [List.flatMap_cons, List.flatMap_cons, outro_words scope h, show words [] = [] by decide]; simp
  rw [e1, e2, read_intro]
  show ((((lines code).flatMap words).foldlM step ⟨(scope.map ScopePart.name).reverse ++ st, .nothing, decl⟩).bind _) = _
  rw [hcode]
  show (List.replicate _ _).foldlM step _ = _
  rw [read_outro]
  simp

end Verif.Glue
