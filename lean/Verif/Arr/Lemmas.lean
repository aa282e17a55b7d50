import Verif.Arr.Model
import Verif.Arr.Spec
import Verif.Py.StrLemmas

/-! Lemmas on decorated types. -/

namespace Verif.Arr
open Verif.Py Spec
open scoped List

/-- The text starts and ends with a character that is not blank. -/
def Tight (s : Str) : Prop := (∃ c r, s = c :: r ∧ isSpace c = false) ∧ (∃ a c, s = a ++ [c] ∧ isSpace c = false)

theorem strip_tight {w₁ s w₂ : Str} (h1 : Blanks w₁) (h2 : Blanks w₂) (hs : Tight s) : strip (w₁ ++ s ++ w₂) = s := by
  obtain ⟨⟨c, r, hc, hcs⟩, a, d, hd, hds⟩ := hs
  unfold strip
  rw [List.append_assoc, lstrip_append_of_all h1]
  have : lstrip (s ++ w₂) = s ++ w₂ := by
    rw [hc, List.cons_append, lstrip_cons_of_not hcs]
  rw [this, rstrip_append_of_all h2]
  rw [hd, rstrip_append_of_not hds]

theorem dropConst_plain {t : Str} (h : startsWith t constBlank = false) : dropConst t = t := by
  unfold dropConst; rw [h]; rfl

theorem const_in_blanks {w t : Str} (hw : Blanks w) (ht : contains t constBlank = false) : contains (w ++ t) constBlank = false := by
  induction w with
  | nil => exact ht
  | cons x w ih =>
    have hx := hw x (by simp)
    rw [List.cons_append]
    unfold contains
    rw [Bool.or_eq_false_iff]
    refine ⟨?_, ih (fun c hc => hw c (by simp [hc]))⟩
    have : x ≠ 'c' := by rintro rfl; revert hx; decide +kernel
    have hx' : ('c' == x) = false := by simp [Ne.symm this]
    simp [constBlank, List.isPrefixOf, hx']

theorem dropConst_const {w t : Str} (hw : Blanks w) (ht : contains t constBlank = false) (htt : Tight t) :
    dropConst (constBlank ++ w ++ t) = t := by
  unfold dropConst
  have h1 : startsWith (constBlank ++ w ++ t) constBlank = true := by
    unfold startsWith
    rw [List.isPrefixOf_iff_prefix, List.append_assoc]
    exact ⟨_, rfl⟩
  rw [if_pos h1, List.append_assoc, replace_match (by decide), replace_of_not_contains (const_in_blanks hw ht)]
  have := strip_tight (w₂ := []) hw (by intro c hc; simp at hc) htt
  simpa using this

theorem dropStar_star {s w : Str} (hw : Blanks w) (hs : Tight s) : dropStar (s ++ w ++ ['*']) = s := by
  unfold dropStar
  have : endsWith (s ++ w ++ ['*']) ['*'] = true := by
    unfold endsWith; rw [List.isSuffixOf_iff_suffix]; exact ⟨_, rfl⟩
  rw [if_pos this, List.dropLast_concat]
  have := strip_tight (w₁ := []) (by intro c hc; simp at hc) hw hs
  simpa using this

theorem dropStar_none {s : Str} (h : endsWith s ['*'] = false) : dropStar s = s := by
  unfold dropStar; rw [h]; rfl

/-- What the types of the table have in common. -/
structure Base (t : Str) : Prop where
  tight : Tight t
  noConst : contains t constBlank = false
  noStart : startsWith t constBlank = false
  noStar : endsWith t ['*'] = false

theorem endsWith_append {a t : Str} (ht : Tight t) (h : endsWith t ['*'] = false) : endsWith (a ++ t) ['*'] = false := by
  obtain ⟨_, b, c, hb, _⟩ := ht
  subst hb
  refine Bool.eq_false_iff.2 fun hc => ?_
  unfold endsWith at h hc
  rw [List.isSuffixOf_iff_suffix] at hc
  obtain ⟨x, hx⟩ := hc
  have := congrArg List.getLast? hx
  simp at this
  rw [← this] at h
  have h2 : (['*'] : Str).isSuffixOf (b ++ ['*']) = true := by
    rw [List.isSuffixOf_iff_suffix]; exact ⟨b, rfl⟩
  rw [h2] at h
  simp at h

theorem tight_append {a t : Str} (ha : ∃ c r, a = c :: r ∧ isSpace c = false) (ht : Tight t) : Tight (a ++ t) := by
  obtain ⟨c, r, rfl, hc⟩ := ha
  obtain ⟨_, b, d, rfl, hd⟩ := ht
  exact ⟨⟨c, r ++ (b ++ [d]), rfl, hc⟩, ⟨c :: r ++ b, d, by simp, hd⟩⟩

theorem bare {t s : Str} (hb : Base t) (h : Decorated t s) : dropConst (dropStar (strip s)) = t := by
  obtain ⟨w₁, c, w₂, star, w₃, rfl, h1, h2, h3, hc, hs⟩ := h
  have hct : Tight (c ++ t) := by
    rcases hc with rfl | ⟨w, _, rfl⟩
    · simpa using hb.tight
    · exact tight_append ⟨'c', "onst ".toList ++ w, rfl, by decide +kernel⟩ hb.tight
  have hend : endsWith (c ++ t) ['*'] = false := endsWith_append hb.tight hb.noStar
  have hdc : dropConst (c ++ t) = t := by
    rcases hc with rfl | ⟨w, hw, rfl⟩
    · exact dropConst_plain hb.noStart
    · exact dropConst_const hw hb.noConst hb.tight
  rcases hs with rfl | rfl
  · have : strip (w₁ ++ c ++ t ++ w₂ ++ [] ++ w₃) = c ++ t := by
      have := strip_tight h1 (w₂ := w₂ ++ w₃) (fun x hx => (List.mem_append.1 hx).elim (h2 x) (h3 x)) hct
      simpa using this
    rw [this, dropStar_none hend, hdc]
  · have htt : Tight (c ++ t ++ w₂ ++ ['*']) := by
      obtain ⟨⟨x, r, hx, hxs⟩, _⟩ := hct
      refine ⟨⟨x, r ++ w₂ ++ ['*'], by rw [hx]; simp, hxs⟩, _, '*', rfl, by decide +kernel⟩
    have : strip (w₁ ++ c ++ t ++ w₂ ++ ['*'] ++ w₃) = c ++ t ++ w₂ ++ ['*'] := by
      have := strip_tight h1 h3 htt
      simpa using this
    rw [this, dropStar_star h2 hct, hdc]

def baseB (t : Str) : Bool :=
  (match t with | [] => false | c :: _ => !isSpace c) && (match t.getLast? with | none => false | some c => !isSpace c)
  && !contains t constBlank && !startsWith t constBlank && !endsWith t ['*']

theorem base_of {t : Str} (h : baseB t = true) : Base t := by
  unfold baseB at h
  simp only [Bool.and_eq_true, Bool.not_eq_true'] at h
  obtain ⟨⟨⟨⟨h1, h2⟩, h3⟩, h4⟩, h5⟩ := h
  refine ⟨⟨?_, ?_⟩, h3, h4, h5⟩
  · cases t with
    | nil => simp at h1
    | cons c r => exact ⟨c, r, rfl, by simpa using h1⟩
  · cases hl : t.getLast? with
    | none => rw [hl] at h2; simp at h2
    | some c =>
      rw [hl] at h2
      obtain ⟨a, ha⟩ := List.getLast?_eq_some_iff.1 hl
      exact ⟨a, c, ha, by simpa using h2⟩

theorem table_base : ∀ x ∈ table, Base x.2 := by
  intro x hx
  have : ∀ x ∈ table, baseB x.2 = true := by decide +kernel
  exact base_of (this x hx)

theorem replaceAux_sublist (old : Str) : ∀ (s : Str) (k : Nat), replaceAux old [] k s <+ s := by
  intro s
  induction s with
  | nil => intro k; cases k <;> simp [replaceAux]
  | cons c cs ih =>
    intro k
    cases k with
    | succ k => simp only [replaceAux]; exact (ih k).cons c
    | zero =>
      simp only [replaceAux]
      split
      · simpa using (ih _).cons c
      · exact (ih 0).cons_cons c

theorem strip_sublist (s : Str) : strip s <+ s := by
  unfold strip rstrip lstrip
  refine List.Sublist.trans ?_ (List.dropWhile_sublist (l := s) isSpace)
  have := List.dropWhile_sublist (l := (s.dropWhile isSpace).reverse) isSpace
  simpa using this.reverse

theorem bare_sublist (s : Str) : dropConst (dropStar (strip s)) <+ s := by
  have h1 : ∀ t : Str, dropStar t <+ t := by
    intro t
    unfold dropStar
    split
    · exact (strip_sublist _).trans (List.dropLast_sublist t)
    · exact List.Sublist.refl _
  have h2 : ∀ t : Str, dropConst t <+ t := by
    intro t
    unfold dropConst
    split
    · exact (strip_sublist _).trans (replaceAux_sublist _ _ _)
    · exact List.Sublist.refl _
  exact (h2 _).trans ((h1 _).trans (strip_sublist s))

end Verif.Arr
