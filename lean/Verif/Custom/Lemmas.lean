import Verif.Custom.Spec
import Verif.Scope.Props
import Verif.Py.StrLemmas

/-! Lemmas on the custom codes. -/

namespace Verif.Custom
open Verif.Py Spec

theorem key_eq (s : Str) : key s = s := Scope.C21_parse_print s

/-! ### Replacement -/

theorem infix_of_cons_split {x : Char} {p q w : Str} (h : q <:+: x :: p) (hw : ¬ q <+: x :: p ++ w) (hp : ¬ q <:+: p) : False := by
  rcases List.infix_cons_iff.1 h with h | h
  · exact hw (h.trans (List.prefix_append _ _))
  · exact hp h

/-- A replacement cuts the text at the occurrences of `old`. -/
theorem replace_pieces (old new : Str) (hold : old ≠ []) : ∀ s : Str,
    ∃ p ps, (∀ q ∈ p :: ps, ¬ old <:+: q) ∧ s = join old (p :: ps) ∧ replace s old new = join new (p :: ps) := by
  intro s
  induction hn : s.length using Nat.strongRecOn generalizing s with
  | _ n ih =>
    by_cases h : old <+: s
    · obtain ⟨r, rfl⟩ := h
      have hlen : r.length < n := by
        rw [← hn, List.length_append]
        have := List.length_pos_iff.2 hold
        omega
      obtain ⟨p, ps, h1, h2, h3⟩ := ih r.length hlen r rfl
      refine ⟨[], p :: ps, ?_, ?_, ?_⟩
      · intro q hq
        rcases List.mem_cons.1 hq with rfl | hq
        · intro hc; exact hold (List.infix_nil.1 hc)
        · exact h1 q hq
      · rw [join_cons_cons, ← h2]; rfl
      · rw [replace_match hold, h3, join_cons_cons]; rfl
    · cases s with
      | nil =>
        refine ⟨[], [], ?_, rfl, rfl⟩
        intro q hq
        simp at hq
        subst hq
        intro hc; exact hold (List.infix_nil.1 hc)
      | cons x s =>
        obtain ⟨p, ps, h1, h2, h3⟩ := ih s.length (by rw [← hn]; simp) s rfl
        have hj : ∀ sep : Str, join sep ((x :: p) :: ps) = x :: join sep (p :: ps) := by
          intro sep
          cases ps with
          | nil => rfl
          | cons q qs => rw [join_cons_cons, join_cons_cons]; rfl
        have htail : ∃ w, s = p ++ w := by
          cases ps with
          | nil => exact ⟨[], by rw [h2]; simp [join]⟩
          | cons q qs => exact ⟨old ++ join old (q :: qs), by rw [h2, join_cons_cons]; simp⟩
        obtain ⟨w, hw⟩ := htail
        refine ⟨x :: p, ps, ?_, ?_, ?_⟩
        · intro q hq
          rcases List.mem_cons.1 hq with rfl | hq
          · intro hc
            refine infix_of_cons_split (w := w) hc ?_ (h1 p (by simp))
            intro hc'
            exact h (by rw [hw]; exact hc')
          · exact h1 q (List.mem_cons_of_mem _ hq)
        · rw [hj, ← h2]
        · rw [replace_no_match h, h3, hj]

/-! ### The dictionaries -/

theorem codes_setCodes (b : Bindings) (p q : Bool) (d : List (Str × List Str)) :
    (b.setCodes p d).codes q = if p = q then d else b.codes q := by
  cases p <;> cases q <;> rfl

theorem dictGet_addCode (b : Bindings) (s : Str) (c : Option Str) (p q : Bool) (k : Str) :
    dictGet ((addCode b s c p).codes q) k =
      match c with
      | none => dictGet (b.codes q) k
      | some c => if p = q ∧ s = k then some ((dictGet (b.codes q) k).getD [] ++ [clean c]) else dictGet (b.codes q) k := by
  cases c with
  | none => rfl
  | some c =>
    unfold addCode
    simp only [codes_setCodes, key_eq]
    by_cases hp : p = q
    · subst hp
      rw [if_pos rfl, dictGet_set]
      have hd : ∀ k', dictGet (if (dictGet (b.codes p) s).isNone = true then dictSet (b.codes p) s [] else b.codes p) k' =
          if s = k' ∧ dictGet (b.codes p) s = none then some [] else dictGet (b.codes p) k' := by
        intro k'
        cases hg : dictGet (b.codes p) s with
        | none => rw [Option.isNone_none, if_pos rfl, dictGet_set]; simp
        | some v => simp
      rw [hd, hd]
      by_cases hk : s = k
      · subst hk
        rw [if_pos rfl]
        cases hg : dictGet (b.codes p) s with
        | none => simp
        | some v => simp
      · simp [hk]
    · rw [if_neg hp, if_neg (by simp [hp])]

def getCodes (b : Bindings) (p : Bool) (k : Str) : List Str := (dictGet (b.codes p) k).getD []

theorem dictGet_add (b : Bindings) (a : Addition) (p : Bool) (k : Str) :
    dictGet ((add b a.scope a.stub a.pydef).codes p) k =
      if a.scope = k then
        (match a.code p with
        | none => dictGet (b.codes p) k
        | some c => some ((dictGet (b.codes p) k).getD [] ++ [clean c]))
      else dictGet (b.codes p) k := by
  unfold add Addition.code
  rw [dictGet_addCode, dictGet_addCode]
  cases p <;> cases hs : a.stub <;> cases hp : a.pydef <;> by_cases hk : a.scope = k <;> simp [hk]

theorem foldl_codes : ∀ (hist : List Addition) (b : Bindings) (p : Bool) (k : Str),
    dictGet ((hist.foldl (fun b a => add b a.scope a.stub a.pydef) b).codes p) k =
      if added hist k p = [] then dictGet (b.codes p) k else some ((dictGet (b.codes p) k).getD [] ++ added hist k p) := by
  intro hist
  induction hist with
  | nil => intro b p k; rfl
  | cons a hist ih =>
    intro b p k
    rw [List.foldl_cons, ih, dictGet_add]
    have hadd : added (a :: hist) k p = (if a.scope = k then ((a.code p).map clean).toList else []) ++ added hist k p := by
      unfold added
      rw [List.filterMap_cons]
      by_cases hk : a.scope = k
      · rw [if_pos hk, if_pos hk]
        cases a.code p <;> rfl
      · rw [if_neg hk, if_neg hk]; rfl
    rw [hadd]
    by_cases hk : a.scope = k
    · rw [if_pos hk, if_pos hk]
      cases a.code p with
      | none => rfl
      | some c =>
        simp only [Option.map_some, Option.toList_some, List.cons_append, List.nil_append, reduceCtorEq, if_false, Option.getD_some,
          List.append_assoc]
        by_cases he : added hist k p = []
        · rw [if_pos he, he]
        · rw [if_neg he]
    · rw [if_neg hk, if_neg hk]; rfl

theorem after_codes (hist : List Addition) (p : Bool) (k : Str) :
    dictGet ((after hist).codes p) k = if added hist k p = [] then none else some (added hist k p) := by
  unfold after
  rw [foldl_codes]
  have : dictGet (Bindings.empty.codes p) k = none := by cases p <;> rfl
  rw [this]
  rfl

/-! ### Flags -/

theorem addCode_main (b : Bindings) (s : Str) (c : Option Str) (p q : Bool) :
    (addCode b s c p).mainEmitted q = b.mainEmitted q := by
  cases c with
  | none => rfl
  | some c => cases p <;> cases q <;> rfl

theorem after_main (hist : List Addition) (q : Bool) : (after hist).mainEmitted q = false := by
  unfold after
  have : ∀ (hist : List Addition) (b : Bindings), b.mainEmitted q = false →
      (hist.foldl (fun b a => add b a.scope a.stub a.pydef) b).mainEmitted q = false := by
    intro hist
    induction hist with
    | nil => intro b h; exact h
    | cons a hist ih =>
      intro b h
      rw [List.foldl_cons]
      apply ih
      unfold add
      rw [addCode_main, addCode_main, h]
  exact this hist _ (by cases q <;> rfl)

/-! ### Padding -/

theorem padded_make (r : Str) : ∃ t, (let r' := if !startsWith r "\n".toList then "\n".toList ++ r else r
    if !endsWith r' "\n".toList then r' ++ "\n".toList else r') = t ∧ Padded r t := by
  have hs : ∀ s : Str, startsWith s "\n".toList = true ↔ s.head? = some '\n' := by
    intro s
    cases s with
    | nil => simp [startsWith]
    | cons c l =>
      have : startsWith (c :: l) "\n".toList = ('\n' == c && true) := rfl
      rw [this, Bool.and_true, beq_iff_eq]
      constructor
      · rintro rfl; rfl
      · intro h; exact (Option.some.inj h).symm
  have he : ∀ s : Str, endsWith s "\n".toList = true ↔ s.getLast? = some '\n' := by
    intro s
    unfold endsWith
    rw [List.isSuffixOf_iff_suffix]
    constructor
    · rintro ⟨w, rfl⟩; simp
    · intro h
      rcases List.eq_nil_or_concat s with rfl | ⟨l, c, rfl⟩
      · simp at h
      · simp only [List.concat_eq_append] at h ⊢
        simp at h
        exact ⟨l, by rw [h]; rfl⟩
  refine ⟨_, rfl, ?_⟩
  simp only
  by_cases h1 : startsWith r "\n".toList = true
  · rw [h1]
    simp only [Bool.not_true, Bool.false_eq_true, if_false]
    by_cases h2 : endsWith r "\n".toList = true
    · rw [h2]
      exact ⟨[], [], by simp, .inl rfl, .inl rfl, (hs r).1 h1, (he r).1 h2⟩
    · have h2 : endsWith r "\n".toList = false := by simpa using h2
      rw [h2]
      refine ⟨[], ['\n'], by simp, .inl rfl, .inr rfl, ?_, by simp⟩
      have := (hs r).1 h1
      cases r with
      | nil => simp at this
      | cons c l => simpa using this
  · have h1 : startsWith r "\n".toList = false := by simpa using h1
    rw [h1]
    simp only [Bool.not_false, if_true]
    by_cases h2 : endsWith ("\n".toList ++ r) "\n".toList = true
    · rw [h2]
      exact ⟨['\n'], [], by simp, .inr rfl, .inl rfl, by simp, (he _).1 h2⟩
    · have h2 : endsWith ("\n".toList ++ r) "\n".toList = false := by simpa using h2
      rw [h2]
      exact ⟨['\n'], ['\n'], by simp, .inr rfl, .inr rfl, by simp, List.getLast?_concat⟩

end Verif.Custom
