import Verif.Space.Model
import Verif.Space.Spec

namespace Verif.Space
open Verif.Py

/-- No two consecutive spaces. -/
def NoDbl : Str → Prop
  | a :: b :: r => ¬ (a = ' ' ∧ b = ' ') ∧ NoDbl (b :: r)
  | _ => True

theorem noDbl_tail {a : Char} {s : Str} (h : NoDbl (a :: s)) : NoDbl s := by
  cases s with
  | nil => trivial
  | cons b r => exact h.2

theorem noDbl_cons {a : Char} {s : Str} (h : a = ' ' → s.head? ≠ some ' ') (hs : NoDbl s) :
    NoDbl (a :: s) := by
  cases s with
  | nil => trivial
  | cons b r => exact ⟨fun e => h e.1 (by simp [e.2]), hs⟩

theorem noDbl_head {s : Str} (h : NoDbl (' ' :: s)) : s.head? ≠ some ' ' := by
  cases s with
  | nil => simp
  | cons b r => intro e; simp at e; exact h.1 ⟨rfl, e⟩

theorem noDbl_iff (s : Str) : NoDbl s ↔ contains s [' ', ' '] = false := by
  induction s with
  | nil => simp [NoDbl, contains, List.isPrefixOf]
  | cons a r ih =>
    cases r with
    | nil => simp [NoDbl, contains, List.isPrefixOf]
    | cons b t =>
      unfold NoDbl
      rw [ih]
      conv => rhs; unfold contains
      simp [List.isPrefixOf, Bool.or_eq_false_iff]
      intro _
      constructor
      · intro h e; exact fun e2 => h e.symm e2.symm
      · intro h e; exact fun e2 => h e.symm e2.symm

/-! ### the rounds -/

theorem round_double (r : Str) : round (' ' :: ' ' :: r) = ' ' :: round r :=
  replace_match (old := [' ', ' ']) (s := r) (by simp)

theorem round_single {c : Char} {r : Str} (h : ¬ (c = ' ' ∧ r.head? = some ' ')) :
    round (c :: r) = c :: round r := by
  apply replace_no_match
  rintro ⟨t, ht⟩
  simp at ht
  exact h ⟨ht.1.symm, by rw [← ht.2]; rfl⟩

/-- Induction along the scan of `round`. -/
theorem round_ind {P : Str → Prop} (h0 : P []) (h2 : ∀ r, P r → P (' ' :: ' ' :: r))
    (h1 : ∀ c r, ¬ (c = ' ' ∧ r.head? = some ' ') → P r → P (c :: r)) (s : Str) : P s := by
  suffices H : ∀ n (s : Str), s.length ≤ n → P s from H _ s (Nat.le_refl _)
  intro n
  induction n with
  | zero => intro s hs; have : s = [] := by simpa using hs
            subst this; exact h0
  | succ n ih =>
    intro s hs
    match s, hs with
    | [], _ => exact h0
    | c :: r, hs =>
      simp at hs
      by_cases h : c = ' ' ∧ r.head? = some ' '
      · obtain ⟨rfl, hr⟩ := h
        match r, hr with
        | b :: t, hr =>
          simp at hr hs
          subst hr
          exact h2 t (ih t (by omega))
      · exact h1 c r h (ih r hs)

theorem round_noDbl {s : Str} (h : round s = s) : NoDbl s := by
  rw [noDbl_iff]
  rcases hc : contains s [' ', ' '] with _ | _
  · rfl
  · exfalso
    obtain ⟨a, b, rfl⟩ := (contains_iff _ _).1 hc
    have : (round (a ++ [' ', ' '] ++ b)).length < (a ++ [' ', ' '] ++ b).length := by
      clear h hc
      generalize hs : a ++ [' ', ' '] ++ b = s
      induction s using round_ind generalizing a with
      | h0 => simp at hs
      | h2 r _ =>
        rw [round_double]
        rcases round_length r with h | h
        · rw [h]; simp
        · simp; omega
      | h1 c r hn ih =>
        rw [round_single hn]
        cases a with
        | nil =>
          simp at hs
          exact absurd ⟨hs.1.symm, by rw [← hs.2]; rfl⟩ hn
        | cons x xs =>
          simp at hs
          have := ih xs (by simpa using hs.2)
          simpa using this
    rw [h] at this
    exact Nat.lt_irrefl _ this

theorem noDbl_round {s : Str} (h : NoDbl s) : round s = s := by
  exact replace_of_not_contains ((noDbl_iff s).1 h)

theorem round_head (s : Str) : (round s).head? = s.head? := by
  induction s using round_ind with
  | h0 => rfl
  | h2 r _ => rw [round_double]; rfl
  | h1 c r h _ => rw [round_single h]; rfl

theorem round_nil {s : Str} : round s = [] ↔ s = [] := by
  have := round_head s
  constructor
  · intro h; rw [h] at this
    cases s with
    | nil => rfl
    | cons => simp at this
  · rintro rfl; rfl

theorem getLast?_cons_ne {a : Char} {s : Str} (h : s ≠ []) : (a :: s).getLast? = s.getLast? := by
  cases s with
  | nil => exact absurd rfl h
  | cons b r => rfl

theorem round_last (s : Str) : (round s).getLast? = s.getLast? := by
  induction s using round_ind with
  | h0 => rfl
  | h2 r ih =>
    rw [round_double]
    by_cases hr : r = []
    · subst hr; rfl
    · rw [getLast?_cons_ne (fun h => hr (round_nil.1 h)), ih]
      rw [getLast?_cons_ne (by simp), getLast?_cons_ne hr]
  | h1 c r h ih =>
    rw [round_single h]
    by_cases hr : r = []
    · subst hr; rfl
    · rw [getLast?_cons_ne (fun h => hr (round_nil.1 h)), ih, getLast?_cons_ne hr]

/-- Same first piece, same non empty pieces after it. -/
def SameWords (x y : Str) : Prop :=
  ∃ h t t', splitOn ' ' x = h :: t ∧ splitOn ' ' y = h :: t' ∧
    t.filter (· ≠ []) = t'.filter (· ≠ [])

theorem sameWords_refl (x : Str) : SameWords x x := by
  cases h : splitOn ' ' x with
  | nil => exact absurd h (splitOn_ne_nil _ _)
  | cons a b => exact ⟨a, b, b, h, h, rfl⟩

theorem sameWords_trans {x y z : Str} (h1 : SameWords x y) (h2 : SameWords y z) : SameWords x z := by
  obtain ⟨h, t, t', e1, e2, e3⟩ := h1
  obtain ⟨g, u, u', f1, f2, f3⟩ := h2
  rw [e2] at f1
  injection f1 with g1 g2
  subst g1 g2
  exact ⟨h, t, u', e1, f2, e3.trans f3⟩

theorem sameWords_cons {x y : Str} (c : Char) (h : SameWords x y) : SameWords (c :: x) (c :: y) := by
  obtain ⟨h, t, t', e1, e2, e3⟩ := h
  by_cases hc : c = ' '
  · subst hc
    rw [SameWords, splitOn_cons_eq, splitOn_cons_eq, e1, e2]
    refine ⟨[], _, _, rfl, rfl, ?_⟩
    simp only [List.filter_cons]
    rw [e3]
  · refine ⟨c :: h, t, t', ?_, ?_, e3⟩
    · unfold splitOn; rw [if_neg hc, e1]
    · unfold splitOn; rw [if_neg hc, e2]

theorem round_words (s : Str) : SameWords (round s) s := by
  induction s using round_ind with
  | h0 => exact sameWords_refl _
  | h2 r ih =>
    rw [round_double]
    obtain ⟨h, t, t', e1, e2, e3⟩ := ih
    refine ⟨[], h :: t, [] :: h :: t', ?_, ?_, ?_⟩
    · rw [splitOn_cons_eq, e1]
    · rw [splitOn_cons_eq, splitOn_cons_eq, e2]
    · simp only [List.filter_cons]
      rw [e3]; simp
  | h1 c r h ih => rw [round_single h]; exact sameWords_cons c ih

theorem round_filter (s : Str) : (round s).filter (· ≠ ' ') = s.filter (· ≠ ' ') := by
  induction s using round_ind with
  | h0 => rfl
  | h2 r ih => rw [round_double]; simpa using ih
  | h1 c r h ih => rw [round_single h]; simp only [List.filter_cons, ih]

/-- What the loop keeps. -/
theorem loop_inv (P : Str → Prop) (hP : ∀ s, P s → P (round s)) (s : Str) (h : P s) : P (loop s) := by
  induction s using loop.induct with
  | case1 s e => rw [loop, dif_pos e]; exact h
  | case2 s e ih => rw [loop, dif_neg e]; exact ih (hP s h)

theorem loop_fix (s : Str) : round (loop s) = loop s := by
  induction s using loop.induct with
  | case1 s e => rw [loop, dif_pos e]; exact e
  | case2 s e ih => rw [loop, dif_neg e]; exact ih

theorem loop_iter (s : Str) : ∃ n : Nat, loop s = Nat.rec s (fun _ t => round t) n := by
  have gen : ∀ (n : Nat) (t : Str), (Nat.rec (round t) (fun _ t => round t) n : Str) =
      Nat.rec t (fun _ t => round t) (n + 1) := by
    intro n t
    induction n with
    | zero => rfl
    | succ n ih => show round _ = round _; rw [ih]
  induction s using loop.induct with
  | case1 s e => exact ⟨0, by rw [loop, dif_pos e]; rfl⟩
  | case2 s e ih =>
    obtain ⟨n, hn⟩ := ih
    exact ⟨n + 1, by rw [loop, dif_neg e, hn, gen]⟩

/-! ### before the loop -/

/-- newline and tab become spaces -/
def flat (c : Char) : Char := if c = '\n' ∨ c = '\t' then ' ' else c

theorem pre_eq (s : Str) : replace (replace s ['\n'] [' ']) ['\t'] [' '] = s.map flat := by
  rw [replace_char, replace_char]
  induction s with
  | nil => rfl
  | cons c cs ih =>
    simp only [List.flatMap_cons, List.map_cons]
    rw [List.flatMap_append, ih]
    unfold flat
    by_cases h1 : c = '\n'
    · subst h1; rfl
    · by_cases h2 : c = '\t'
      · subst h2; rfl
      · simp [h1, h2]

theorem wordsFrom_eq (cur s : Str) :
    ∃ h t, splitOn ' ' (s.map flat) = h :: t ∧
      Spec.wordsFrom cur s = ((cur ++ h) :: t).filter (· ≠ []) := by
  induction s generalizing cur with
  | nil => exact ⟨[], [], rfl, by by_cases h : cur = [] <;> simp [Spec.wordsFrom, h]⟩
  | cons c cs ih =>
    rw [List.map_cons]
    by_cases hs : Spec.isSep c = true
    · have hf : flat c = ' ' := by
        unfold Spec.isSep at hs; unfold flat
        by_cases h1 : c = '\n'
        · simp [h1]
        · by_cases h2 : c = '\t'
          · simp [h2]
          · simp [h1, h2] at hs ⊢; exact hs
      obtain ⟨h, t, e1, e2⟩ := ih []
      refine ⟨[], h :: t, ?_, ?_⟩
      · rw [hf, splitOn_cons_eq, e1]
      · unfold Spec.wordsFrom
        rw [if_pos hs, e2]
        by_cases hc : cur = [] <;> simp [hc]
    · have hf : flat c = c ∧ c ≠ ' ' := by
        unfold Spec.isSep at hs; unfold flat
        simp at hs
        simp [hs]
      obtain ⟨h, t, e1, e2⟩ := ih (cur ++ [c])
      refine ⟨c :: h, t, ?_, ?_⟩
      · rw [hf.1]; unfold splitOn; rw [if_neg hf.2, e1]
      · unfold Spec.wordsFrom
        rw [if_neg hs, e2]
        simp

/-- Pieces are empty only at doubled spaces or at the ends. -/
theorem empty_piece (v : Str) (h : [] ∈ (splitOn ' ' v).tail) (hd : NoDbl v) :
    v.getLast? = some ' ' := by
  induction v with
  | nil => simp [splitOn] at h
  | cons c cs ih =>
    by_cases hc : c = ' '
    · subst hc
      rw [splitOn_cons_eq] at h
      simp only [List.tail_cons] at h
      cases cs with
      | nil => rfl
      | cons d ds =>
        have hd' : d ≠ ' ' := by
          have := noDbl_head hd
          simpa using this
        rw [getLast?_cons_ne (by simp)]
        refine ih ?_ (noDbl_tail hd)
        unfold splitOn at h ⊢
        rw [if_neg hd'] at h ⊢
        cases hs : splitOn ' ' ds with
        | nil => exact absurd hs (splitOn_ne_nil _ _)
        | cons a b => rw [hs] at h; simpa using h
    · have hcs : cs ≠ [] := by
        rintro rfl
        simp [splitOn, hc] at h
      rw [getLast?_cons_ne hcs]
      refine ih ?_ (noDbl_tail hd)
      unfold splitOn at h
      rw [if_neg hc] at h
      cases hs : splitOn ' ' cs with
      | nil => exact absurd hs (splitOn_ne_nil _ _)
      | cons a b => rw [hs] at h; simpa using h

/-! ### ends of stripped texts -/

/-- Neither the first nor the last character is white space. -/
def Ends (s : Str) : Prop := (∀ c ∈ s.head?, isSpace c = false) ∧ (∀ c ∈ s.getLast?, isSpace c = false)

theorem ends_strip (s : Str) : Ends (strip s) := by
  unfold strip
  rcases rstrip_last (lstrip s) with h | ⟨a, c, h, hc⟩
  · rw [h]; simp [Ends]
  · rw [h]
    refine ⟨?_, by simp [hc]⟩
    obtain ⟨w, hw, hw'⟩ := rstrip_decomp (lstrip s)
    rw [h] at hw
    rcases lstrip_head s with e | ⟨d, b, e, hd⟩
    · rw [e] at hw; simp at hw
    · rw [e] at hw
      intro x hx
      cases a with
      | nil => simp at hx; rw [← hx]; exact hc
      | cons y ys =>
        simp at hx hw
        rw [← hx, ← hw.1]; exact hd

theorem strip_of_ends {s : Str} (h : Ends s) : strip s = s := by
  unfold strip
  cases s with
  | nil => rfl
  | cons c cs =>
    rw [lstrip_cons_of_not (h.1 c (by simp))]
    obtain ⟨a, d, e⟩ : ∃ a d, c :: cs = a ++ [d] :=
      ⟨_, _, (List.dropLast_concat_getLast (by simp : c :: cs ≠ [])).symm⟩
    rw [e, rstrip_append_of_not (h.2 d (by rw [e]; simp))]

theorem flat_not_space {c : Char} (h : isSpace c = false) : flat c = c := by
  unfold flat
  have h1 : c ≠ '\n' := by rintro rfl; exact absurd h (by decide)
  have h2 : c ≠ '\t' := by rintro rfl; exact absurd h (by decide)
  simp [h1, h2]

theorem ends_map {s : Str} (h : Ends s) : Ends (s.map flat) := by
  refine ⟨?_, ?_⟩
  · intro c hc
    rw [List.head?_map] at hc
    simp at hc
    obtain ⟨d, hd, rfl⟩ := hc
    rw [flat_not_space (h.1 d hd)]; exact h.1 d hd
  · intro c hc
    rw [List.getLast?_map] at hc
    simp at hc
    obtain ⟨d, hd, rfl⟩ := hc
    rw [flat_not_space (h.2 d hd)]; exact h.2 d hd

theorem force_eq (s : Str) : forceOneSpace s = loop ((strip s).map flat) := by
  unfold forceOneSpace; rw [pre_eq]

theorem force_noDbl (s : Str) : NoDbl (forceOneSpace s) := by
  rw [force_eq]; exact round_noDbl (loop_fix _)

theorem force_ends (s : Str) : Ends (forceOneSpace s) := by
  rw [force_eq]
  refine loop_inv Ends ?_ _ (ends_map (ends_strip s))
  intro t ht
  exact ⟨by rw [round_head]; exact ht.1, by rw [round_last]; exact ht.2⟩

theorem force_flat (s : Str) : ∀ c ∈ forceOneSpace s, c ≠ '\n' ∧ c ≠ '\t' := by
  rw [force_eq]
  refine loop_inv (fun t => ∀ c ∈ t, c ≠ '\n' ∧ c ≠ '\t') ?_ _ ?_
  · intro t ht c hc
    by_cases hs : c = ' '
    · subst hs; decide
    · apply ht
      have : c ∈ (round t).filter (· ≠ ' ') := List.mem_filter.2 ⟨hc, by simpa using hs⟩
      rw [round_filter] at this
      exact (List.mem_filter.1 this).1
  · intro c hc
    obtain ⟨d, _, rfl⟩ := List.mem_map.1 hc
    unfold flat
    split
    · decide
    · rename_i h; exact ⟨fun e => h (Or.inl e), fun e => h (Or.inr e)⟩

theorem force_of_normal {s : Str} (h1 : NoDbl s) (h2 : Ends s) (h3 : ∀ c ∈ s, c ≠ '\n' ∧ c ≠ '\t') :
    forceOneSpace s = s := by
  rw [force_eq, strip_of_ends h2]
  have : s.map flat = s := by
    conv => rhs; rw [← List.map_id s]
    apply List.map_congr_left
    intro c hc
    have := h3 c hc
    simp [flat, this]
  rw [this, loop, dif_pos (noDbl_round h1)]

/-! ### trimBeside -/

open Spec (trimBeside)

theorem trim_nil (P : Char → Bool) (p : Option Char) : trimBeside P p [] = [] := rfl

theorem trim_cons_ne {P : Char → Bool} {p : Option Char} {c : Char} {cs : Str} (h : c ≠ ' ') :
    trimBeside P p (c :: cs) = c :: trimBeside P (some c) cs := by
  conv => lhs; unfold trimBeside
  rw [if_neg (fun e => h e.1)]

theorem trim_drop {P : Char → Bool} {p : Option Char} {cs : Str}
    (h : p.any P = true ∨ cs.head?.any P = true) :
    trimBeside P p (' ' :: cs) = trimBeside P (some ' ') cs := by
  conv => lhs; unfold trimBeside
  rw [if_pos ⟨rfl, h⟩]

theorem trim_keep {P : Char → Bool} {p : Option Char} {cs : Str}
    (h : ¬ (p.any P = true ∨ cs.head?.any P = true)) :
    trimBeside P p (' ' :: cs) = ' ' :: trimBeside P (some ' ') cs := by
  conv => lhs; unfold trimBeside
  rw [if_neg (fun e => h e.2)]

theorem trim_prev {P : Char → Bool} {cs : Str} (h : cs.head? ≠ some ' ') (p p' : Option Char) :
    trimBeside P p cs = trimBeside P p' cs := by
  cases cs with
  | nil => rfl
  | cons c r =>
    have : c ≠ ' ' := by simpa using h
    rw [trim_cons_ne this, trim_cons_ne this]

theorem trim_head {P : Char → Bool} {cs : Str} (h : cs.head? ≠ some ' ') (p : Option Char) :
    (trimBeside P p cs).head? = cs.head? := by
  cases cs with
  | nil => rfl
  | cons c r =>
    have : c ≠ ' ' := by simpa using h
    rw [trim_cons_ne this]; rfl

theorem trim_trim (P Q : Char → Bool) (x : Str) (h : NoDbl x) (p : Option Char) :
    trimBeside Q p (trimBeside P p x) = trimBeside (fun c => P c || Q c) p x := by
  induction x generalizing p with
  | nil => rfl
  | cons c cs ih =>
    have ih := ih (noDbl_tail h)
    by_cases hc : c = ' '
    · subst hc
      have hh := noDbl_head h
      have hor : ∀ o : Option Char, o.any (fun c => P c || Q c) = (o.any P || o.any Q) := by
        intro o; cases o <;> rfl
      by_cases hP : p.any P = true ∨ cs.head?.any P = true
      · rw [trim_drop hP, trim_drop (P := fun c => P c || Q c)]
        · rw [← ih (some ' ')]
          exact trim_prev (by rw [trim_head hh]; exact hh) _ _
        · rw [hor, hor]
          rcases hP with e | e <;> simp [e]
      · rw [trim_keep hP]
        by_cases hQ : p.any Q = true ∨ cs.head?.any Q = true
        · rw [trim_drop (by rw [trim_head hh]; exact hQ), trim_drop (P := fun c => P c || Q c), ih]
          rw [hor, hor]
          rcases hQ with e | e <;> simp [e]
        · rw [trim_keep (by rw [trim_head hh]; exact hQ), trim_keep (P := fun c => P c || Q c), ih]
          rw [hor, hor]
          simp only [Bool.or_eq_true]
          rintro ((e | e) | e | e)
          · exact hP (Or.inl e)
          · exact hQ (Or.inl e)
          · exact hP (Or.inr e)
          · exact hQ (Or.inr e)
    · rw [trim_cons_ne hc, trim_cons_ne hc, trim_cons_ne hc, ih]

theorem trim_noDbl_cons (P : Char → Bool) (x : Str) (a : Char) (h : NoDbl (a :: x)) (p : Option Char) :
    NoDbl (a :: trimBeside P p x) := by
  induction x generalizing a p with
  | nil => trivial
  | cons c cs ih =>
    by_cases hc : c = ' '
    · subst hc
      by_cases hP : p.any P = true ∨ cs.head?.any P = true
      · rw [trim_drop hP]
        refine ih a ?_ _
        refine noDbl_cons ?_ (noDbl_tail (noDbl_tail h))
        rintro rfl
        exact absurd h.1 (by simp)
      · rw [trim_keep hP]
        exact ⟨h.1, ih ' ' h.2 _⟩
    · rw [trim_cons_ne hc]
      exact ⟨h.1, ih c h.2 _⟩

theorem trim_noDbl (P : Char → Bool) (x : Str) (h : NoDbl x) (p : Option Char) :
    NoDbl (trimBeside P p x) :=
  noDbl_tail (trim_noDbl_cons P x 'x' (noDbl_cons (fun e => absurd e (by decide)) h) p)

theorem trim_filter (P : Char → Bool) (x : Str) (p : Option Char) :
    (trimBeside P p x).filter (· ≠ ' ') = x.filter (· ≠ ' ') := by
  induction x generalizing p with
  | nil => rfl
  | cons c cs ih =>
    unfold trimBeside
    split
    · rename_i h; rw [ih]; simp [h.1]
    · simp only [List.filter_cons, ih]

theorem trim_sublist (P : Char → Bool) (x : Str) (p : Option Char) :
    (trimBeside P p x).Sublist x := by
  induction x generalizing p with
  | nil => exact List.Sublist.refl _
  | cons c cs ih =>
    unfold trimBeside
    split
    · exact (ih _).cons _
    · exact (ih _).cons_cons _

theorem trim_last (P : Char → Bool) (x : Str) (p : Option Char) (h : x.getLast? ≠ some ' ') :
    (trimBeside P p x).getLast? = x.getLast? := by
  induction x generalizing p with
  | nil => rfl
  | cons c cs ih =>
    by_cases hcs : cs = []
    · subst hcs
      have : c ≠ ' ' := by simpa using h
      rw [trim_cons_ne this]; rfl
    · rw [getLast?_cons_ne hcs] at h
      have key : ∀ q, trimBeside P q cs ≠ [] := by
        intro q hn
        have := ih q h
        rw [hn] at this
        have := List.getLast?_eq_none_iff.1 this.symm
        exact hcs this
      unfold trimBeside
      split
      · rw [ih _ h, getLast?_cons_ne hcs]
      · rw [getLast?_cons_ne (key _), ih _ h, getLast?_cons_ne hcs]

/-! ### one separator -/

/-- spaces after `sep` dropped -/
def dropAfter (sep : Char) (prev : Option Char) : Str → Str
  | [] => []
  | c :: cs =>
    if c = ' ' ∧ prev = some sep then dropAfter sep (some c) cs else c :: dropAfter sep (some c) cs

theorem dropAfter_prev {sep : Char} {cs : Str} (h : cs.head? ≠ some ' ') (p p' : Option Char) :
    dropAfter sep p cs = dropAfter sep p' cs := by
  cases cs with
  | nil => rfl
  | cons c r =>
    have : c ≠ ' ' := by simpa using h
    unfold dropAfter
    rw [if_neg (fun e => this e.1), if_neg (fun e => this e.1)]

theorem replace_dropAfter (sep : Char) (hsep : sep ≠ ' ') (x : Str) (p : Option Char) (hp : p ≠ some sep) :
    replace x [sep, ' '] [sep] = dropAfter sep p x := by
  suffices H : ∀ n (x : Str) (p : Option Char), x.length ≤ n → p ≠ some sep →
      replace x [sep, ' '] [sep] = dropAfter sep p x from H _ x p (Nat.le_refl _) hp
  intro n
  induction n with
  | zero => intro x p hx _; have : x = [] := by simpa using hx
            subst this; rfl
  | succ n ih =>
    intro x p hx hp
    match x, hx with
    | [], _ => rfl
    | c :: r, hx =>
      simp at hx
      have e0 : dropAfter sep p (c :: r) = c :: dropAfter sep (some c) r := by
        conv => lhs; unfold dropAfter
        rw [if_neg (fun e => hp e.2)]
      by_cases h : [sep, ' '] <+: (c :: r)
      · obtain ⟨t, ht⟩ := h
        simp at ht
        obtain ⟨rfl, rfl⟩ := ht
        have : replace (sep :: ' ' :: t) [sep, ' '] [sep] = sep :: replace t [sep, ' '] [sep] :=
          replace_match (old := [sep, ' ']) (s := t) (by simp)
        simp at hx
        rw [this, e0, ih t (some ' ') (by omega) (by simpa using fun h => hsep h.symm)]
        conv => rhs; unfold dropAfter
        simp
      · rw [replace_no_match h, e0]
        congr 1
        by_cases hc : c = sep
        · have hr : r.head? ≠ some ' ' := by
            intro e
            apply h
            cases r with
            | nil => simp at e
            | cons d ds => simp at e; exact ⟨ds, by simp [hc, e]⟩
          rw [dropAfter_prev hr (some c) none]
          exact ih r none hx (by simp)
        · exact ih r (some c) hx (by simpa using hc)

/-- spaces before `sep` dropped -/
def dropBefore (sep : Char) : Str → Str
  | [] => []
  | c :: cs => if c = ' ' ∧ cs.head? = some sep then dropBefore sep cs else c :: dropBefore sep cs

theorem replace_dropBefore (sep : Char) (hsep : sep ≠ ' ') (x : Str) :
    replace x [' ', sep] [sep] = dropBefore sep x := by
  suffices H : ∀ n (x : Str), x.length ≤ n → replace x [' ', sep] [sep] = dropBefore sep x from
    H _ x (Nat.le_refl _)
  intro n
  induction n with
  | zero => intro x hx; have : x = [] := by simpa using hx
            subst this; rfl
  | succ n ih =>
    intro x hx
    match x, hx with
    | [], _ => rfl
    | c :: r, hx =>
      simp at hx
      by_cases h : [' ', sep] <+: (c :: r)
      · obtain ⟨t, ht⟩ := h
        simp at ht
        obtain ⟨rfl, rfl⟩ := ht
        have : replace (' ' :: sep :: t) [' ', sep] [sep] = sep :: replace t [' ', sep] [sep] :=
          replace_match (old := [' ', sep]) (s := t) (by simp)
        simp at hx
        rw [this, ih t (by omega)]
        simp [dropBefore, hsep]
      · rw [replace_no_match h, ih r hx]
        conv => rhs; unfold dropBefore
        rw [if_neg]
        rintro ⟨e1, e2⟩
        apply h
        cases r with
        | nil => simp at e2
        | cons d ds => simp at e2; exact ⟨ds, by simp [e1, e2]⟩

theorem dropAfter_head (sep : Char) (p : Option Char) (hp : p ≠ some sep) (x : Str) :
    (dropAfter sep p x).head? = x.head? := by
  cases x with
  | nil => rfl
  | cons c cs => unfold dropAfter; rw [if_neg (fun e => hp e.2)]; rfl

theorem drop_both (sep : Char) (hsep : sep ≠ ' ') (x : Str) (p : Option Char) :
    dropBefore sep (dropAfter sep p x) = trimBeside (fun c => c == sep) p x := by
  induction x generalizing p with
  | nil => rfl
  | cons c cs ih =>
    unfold dropAfter trimBeside
    have e1 : (p.any fun c => c == sep) = true ↔ p = some sep := by cases p <;> simp
    have e2 : (cs.head?.any fun c => c == sep) = true ↔ cs.head? = some sep := by
      cases cs.head? <;> simp
    simp only [e1, e2]
    by_cases hc : c = ' '
    · subst hc
      by_cases hp : p = some sep
      · rw [if_pos ⟨rfl, hp⟩, if_pos ⟨rfl, Or.inl hp⟩]; exact ih _
      · rw [if_neg (fun e => hp e.2)]
        conv => lhs; unfold dropBefore
        rw [dropAfter_head sep (some ' ') (by simpa using fun h => hsep h.symm)]
        by_cases hh : cs.head? = some sep
        · rw [if_pos ⟨rfl, hh⟩, if_pos ⟨rfl, Or.inr hh⟩]; exact ih _
        · rw [if_neg (fun e => hh e.2), if_neg]
          · rw [ih]
          · rintro ⟨_, e | e⟩
            · exact hp e
            · exact hh e
    · rw [if_neg (fun e => hc e.1), if_neg (fun e => hc e.1)]
      unfold dropBefore
      rw [if_neg (fun e => hc e.1), ih]

theorem removeAround_eq (sep : Char) (hsep : sep ≠ ' ') (x : Str) :
    removeAround x sep = trimBeside (fun c => c == sep) none x := by
  unfold removeAround
  rw [replace_dropAfter sep hsep x none (by simp), replace_dropBefore sep hsep, drop_both sep hsep]

theorem foldl_removeAround (seps : List Char) (h : ∀ c ∈ seps, c ≠ ' ') (P : Char → Bool) (x : Str)
    (hx : NoDbl x) :
    seps.foldl removeAround (trimBeside P none x) =
      trimBeside (fun c => P c || decide (c ∈ seps)) none x := by
  induction seps generalizing P with
  | nil => simp
  | cons s ss ih =>
    rw [List.foldl_cons, removeAround_eq s (h s (by simp)), trim_trim _ _ _ hx,
      ih (fun c hc => h c (by simp [hc]))]
    congr 1
    funext c
    by_cases h1 : c = s
    · simp [h1]
    · have : (c == s) = false := by simpa using h1
      simp [h1, this]

theorem trim_false (x : Str) (p : Option Char) : trimBeside (fun _ => false) p x = x := by
  induction x generalizing p with
  | nil => rfl
  | cons c cs ih =>
    unfold trimBeside
    rw [if_neg, ih]
    rintro ⟨_, e | e⟩
    · cases p <;> simp at e
    · cases hh : cs.head? <;> simp [hh] at e

/-- No space beside a character satisfying `P` is left. -/
theorem trim_beside (P : Char → Bool) (hP : P ' ' = false) (x : Str) (h : NoDbl x) (p : Option Char) :
    ∀ a b r t, trimBeside P p x = r ++ a :: b :: t → ¬ (a = ' ' ∧ P b = true) ∧ ¬ (P a = true ∧ b = ' ') := by
  have hd : NoDbl (trimBeside P p x) := trim_noDbl P x h p
  -- trimming again changes nothing
  have hfix : trimBeside P p (trimBeside P p x) = trimBeside P p x := by
    rw [trim_trim P P x h p]
    congr 1
    funext c
    simp
  generalize trimBeside P p x = y at hd hfix
  clear h
  intro a b r t hy
  induction r generalizing y p with
  | nil =>
    subst hy
    constructor
    · rintro ⟨rfl, hb⟩
      rw [List.nil_append, trim_drop (Or.inr (by simp [hb]))] at hfix
      have := (trim_sublist P (b :: t) (some ' ')).length_le
      rw [hfix] at this
      simp at this; omega
    · rintro ⟨ha, rfl⟩
      have ha' : a ≠ ' ' := by rintro rfl; rw [hP] at ha; cases ha
      rw [List.nil_append, trim_cons_ne ha', trim_drop (Or.inl (by simp [ha]))] at hfix
      have := (trim_sublist P t (some ' ')).length_le
      injection hfix with _ hfix
      rw [hfix] at this
      simp at this; omega
  | cons c r ih =>
    subst hy
    have hfix' : trimBeside P (some c) (r ++ a :: b :: t) = r ++ a :: b :: t := by
      rw [List.cons_append] at hfix
      unfold trimBeside at hfix
      split at hfix
      · have := (trim_sublist P (r ++ a :: b :: t) (some c)).length_le
        rw [hfix] at this
        simp at this; omega
      · injection hfix
    exact ih (some c) _ (noDbl_tail hd) hfix' rfl

end Verif.Space
