import Verif.ToPy.Model
import Verif.ToPy.SpecNs
import Verif.Re.Words

/-! The namespaces of the names of a text. -/

namespace Verif.ToPy
open Verif.Py Verif.Re Re.Spec Verif.Inst Verif.Inst.Spec Spec
open Verif.Scope (isWordChar)

theorem not_word_dot (u : Char → Bool) : isWordChar u '.' = false := rfl

/-- A word and a dot at the beginning of a text that begins with a word. -/
theorem prefix_word {u : Char → Bool} : ∀ {n w s : Str}, (∀ c ∈ n, isWordChar u c = true) → (∀ c ∈ w, isWordChar u c = true) → ¬ BeginsWithWord u s →
    n ++ ['.'] <+: w ++ s → w = n ∧ ∃ t, s = '.' :: t
  | [], [], s, _, _, _, h => by
    obtain ⟨t, ht⟩ := h
    exact ⟨rfl, t, ht.symm⟩
  | [], c :: w, s, _, hw, _, h => by
    obtain ⟨t, ht⟩ := h
    have : '.' = c := (List.cons.inj (show '.' :: t = c :: (w ++ s) from ht)).1
    have h2 := hw c (by simp)
    rw [← this, not_word_dot] at h2
    cases h2
  | d :: n, [], s, hn, _, hs, h => by
    obtain ⟨t, ht⟩ := h
    exfalso
    apply hs
    rw [show s = d :: (n ++ ['.'] ++ t) from ht.symm]
    exact ⟨d, rfl, hn d (by simp)⟩
  | d :: n, c :: w, s, hn, hw, hs, h => by
    obtain ⟨t, ht⟩ := h
    have := List.cons.inj (show d :: (n ++ ['.'] ++ t) = c :: (w ++ s) from ht)
    obtain ⟨h1, h2⟩ := prefix_word (fun x hx => hn x (by simp [hx])) (fun x hx => hw x (by simp [hx])) hs ⟨t, this.2⟩
    rw [this.1, h1]
    exact ⟨rfl, h2⟩

/-- The replacement goes over a word. -/
theorem replace_word {u : Char → Bool} {n new : Str} (hn : Ident u n) : ∀ {w s : Str}, (∀ c ∈ w, isWordChar u c = true) → ¬ BeginsWithWord u s →
    (∀ t, s = '.' :: t → ¬ n <:+ w) → replace (w ++ s) (n ++ ['.']) new = w ++ replace s (n ++ ['.']) new
  | [], _, _, _, _ => rfl
  | c :: w, s, hw, hs, h => by
    rw [List.cons_append, replace_no_match, replace_word hn (fun x hx => hw x (by simp [hx])) hs]
    · rfl
    · exact fun t ht hsuf => h t ht (hsuf.trans (List.suffix_cons c w))
    · intro hp
      obtain ⟨h1, t, h2⟩ := prefix_word (u := u) hn.2 hw hs hp
      exact h t h2 (h1 ▸ List.suffix_refl _)

/-- One namespace, with what replaces it. -/
def oneScope (n : Str) (p : Option Str) (w : Str) : Option Str := if w = n then p else some w

/-- What is written. -/
def scopeText : Option Str → Str
  | some p => p ++ ['.']
  | none => []

theorem replace_scope {u : Char → Bool} {n : Str} (p : Option Str) (hn : Ident u n) : ∀ {l : List Piece}, Cut u l → (∀ w ∈ scopeWords l, n <:+ w → w = n) →
    replace (text l) (n ++ ['.']) (scopeText p) = text (scopesMapped (oneScope n p) l)
  | [], _, _ => rfl
  | .sep c :: l, hl, h => by
    rw [scopesMapped, text_cons, text_cons, Piece.text, List.singleton_append, replace_no_match, replace_scope p hn hl.2 h]
    · rfl
    · intro hp
      have := prefix_word (u := u) (w := []) hn.2 (fun _ hx => (by cases hx)) (s := c :: text l)
        (by rintro ⟨d, hd, hw⟩; cases hd; rw [hl.1] at hw; cases hw) hp
      exact hn.1 this.1.symm
  | [.word w], hl, h => by
    rw [scopesMapped, text_cons, text_nil, Piece.text, replace_word hn hl.2.1]
    · rfl
    · rintro ⟨c, hc, _⟩; cases hc
    · intro t e; cases e
  | .word w :: .word v :: l, hl, _ => absurd rfl (hl.2.2.1 v l)
  | .word w :: .sep c :: l, hl, h => by
    have hs : ¬ BeginsWithWord u (c :: text l) := by rintro ⟨d, hd, hw⟩; cases hd; rw [hl.2.2.2.1] at hw; cases hw
    by_cases hc : c = '.'
    · subst hc
      have e1 : scopeWords (.word w :: .sep '.' :: l) = w :: scopeWords l := by rw [scopeWords, if_pos rfl]
      rw [e1] at h
      have ih := replace_scope p hn hl.2.2.2.2 (fun x hx => h x (List.mem_cons_of_mem _ hx))
      rw [scopesMapped, if_pos rfl, text_cons, text_cons, text_append]
      by_cases hw : w = n
      · subst hw
        show replace (w ++ ('.' :: text l)) _ _ = _
        rw [show w ++ '.' :: text l = (w ++ ['.']) ++ text l by rw [List.append_assoc]; rfl, replace_match (by simp), ih]
        congr 1
        have e2 : oneScope w p w = p := by rw [oneScope, if_pos rfl]
        rw [e2]
        cases p with
        | none => rfl
        | some q => 
          show q ++ ['.'] = q ++ (['.'] ++ [])
          rfl
      · show replace (w ++ ('.' :: text l)) _ _ = _
        rw [replace_word hn hl.2.1 hs (fun _ _ hsuf => hw (h w List.mem_cons_self hsuf)), replace_no_match, ih]
        · have e2 : oneScope n p w = some w := by rw [oneScope, if_neg hw]
          rw [e2]
          show _ = w ++ (['.'] ++ []) ++ _
          rw [List.append_nil, List.append_assoc]
          rfl
        · intro hp
          have := prefix_word (u := u) (w := []) hn.2 (fun _ hx => (by cases hx)) (s := '.' :: text l) hs hp
          exact hn.1 this.1.symm
    · have e1 : scopeWords (.word w :: .sep c :: l) = scopeWords l := by rw [scopeWords, if_neg hc]
      rw [e1] at h
      have ih := replace_scope p hn hl.2.2.2.2 h
      rw [scopesMapped, if_neg hc, text_cons, text_cons, text_cons, text_cons]
      show replace (w ++ (c :: text l)) _ _ = w ++ (c :: _)
      rw [replace_word hn hl.2.1 hs (fun t e => absurd (List.cons.inj e).1 hc), replace_no_match, ih]
      · rfl
      · intro hp
        have := prefix_word (u := u) (w := []) hn.2 (fun _ hx => (by cases hx)) (s := c :: text l) hs hp
        exact hn.1 this.1.symm

/-! ### One after the other -/

theorem mapped_notW {f : Str → Option Str} {l : List Piece} (h : ∀ w m, l ≠ .word w :: m) : ∀ w m, scopesMapped f l ≠ .word w :: m := by
  cases l with
  | nil => intro w m e; cases e
  | cons p l =>
    cases p with
    | word v => exact absurd rfl (h v l)
    | sep c => intro w m e; cases e

theorem mapped_cut {u : Char → Bool} {f : Str → Option Str} : ∀ {l : List Piece}, (∀ w ∈ scopeWords l, ∀ p, f w = some p → Ident u p) → Cut u l →
    Cut u (scopesMapped f l)
  | [], _, _ => trivial
  | .sep c :: l, hf, h => ⟨h.1, mapped_cut hf h.2⟩
  | [.word w], _, h => h
  | .word w :: .word v :: l, _, h => absurd rfl (h.2.2.1 v l)
  | .word w :: .sep c :: l, hf, h => by
    rw [scopesMapped]
    by_cases hc : c = '.'
    · rw [scopeWords, if_pos hc] at hf
      rw [if_pos hc]
      have ih := mapped_cut (fun x hx => hf x (List.mem_cons_of_mem _ hx)) h.2.2.2.2
      cases hw : f w with
      | none => exact ih
      | some p =>
        have := hf w List.mem_cons_self p hw
        exact ⟨this.1, this.2, fun _ _ e => (by cases e), rfl, ih⟩
    · rw [scopeWords, if_neg hc] at hf
      rw [if_neg hc]
      exact ⟨h.1, h.2.1, fun _ _ e => (by cases e), h.2.2.2.1, mapped_cut hf h.2.2.2.2⟩

theorem scopeWords_ident {u : Char → Bool} : ∀ {l : List Piece}, Cut u l → ∀ w ∈ scopeWords l, Ident u w
  | [], _, w, h => by cases h
  | .sep c :: l, hl, w, h => scopeWords_ident hl.2 w h
  | [.word v], _, w, h => by cases h
  | .word w :: .word v :: l, hl, _, _ => absurd rfl (hl.2.2.1 v l)
  | .word v :: .sep c :: l, hl, w, h => by
    rw [scopeWords] at h
    split at h
    · rcases List.mem_cons.1 h with rfl | h
      · exact ⟨hl.1, hl.2.1⟩
      · exact scopeWords_ident hl.2.2.2.2 w h
    · exact scopeWords_ident hl.2.2.2.2 w h

theorem mapped_cut_words {u : Char → Bool} {f : Str → Option Str} {l : List Piece} (hf : ∀ w, Ident u w → ∀ p, f w = some p → Ident u p) (h : Cut u l) :
    Cut u (scopesMapped f l) := mapped_cut (fun w hw p hp => hf w (scopeWords_ident h w hw) p hp) h

theorem mapped_words {u : Char → Bool} {f : Str → Option Str} : ∀ {l : List Piece}, Cut u l → scopeWords (scopesMapped f l) = (scopeWords l).filterMap f
  | [], _ => rfl
  | .sep c :: l, h => by
    rw [scopesMapped, scopeWords, scopeWords, mapped_words h.2]
  | [.word w], _ => rfl
  | .word w :: .word v :: l, h => absurd rfl (h.2.2.1 v l)
  | .word w :: .sep c :: l, h => by
    have ih := mapped_words (f := f) h.2.2.2.2
    rw [scopesMapped, scopeWords]
    by_cases hc : c = '.'
    · rw [if_pos hc, if_pos hc, List.filterMap_cons]
      cases hw : f w with
      | none => exact ih
      | some p =>
        show scopeWords (.word p :: .sep '.' :: scopesMapped f l) = _
        rw [scopeWords, if_pos rfl, ih]
    · rw [if_neg hc, if_neg hc, scopeWords, if_neg hc, ih]

theorem mapped_twice {u : Char → Bool} {f g : Str → Option Str} : ∀ {l : List Piece}, Cut u l →
    scopesMapped g (scopesMapped f l) = scopesMapped (fun w => (f w).bind g) l
  | [], _ => rfl
  | .sep c :: l, h => by
    rw [scopesMapped, scopesMapped, scopesMapped, mapped_twice h.2]
  | [.word w], _ => rfl
  | .word w :: .word v :: l, h => absurd rfl (h.2.2.1 v l)
  | .word w :: .sep c :: l, h => by
    have ih := mapped_twice (f := f) (g := g) h.2.2.2.2
    rw [scopesMapped, scopesMapped]
    by_cases hc : c = '.'
    · rw [if_pos hc, if_pos hc]
      cases hw : f w with
      | none => exact ih
      | some p =>
        show scopesMapped g (.word p :: .sep '.' :: scopesMapped f l) = _
        rw [scopesMapped, if_pos rfl, ih]
        rfl
    · rw [if_neg hc, if_neg hc, scopesMapped, if_neg hc, ih]

theorem mapped_congr {f g : Str → Option Str} : ∀ {l : List Piece}, (∀ w ∈ scopeWords l, f w = g w) → scopesMapped f l = scopesMapped g l
  | [], _ => rfl
  | .sep c :: l, h => by rw [scopesMapped, mapped_congr (l := l) h]; rfl
  | [.word w], _ => rfl
  | .word w :: .word v :: l, h => by rw [scopesMapped, mapped_congr (l := .word v :: l) h]; rfl
  | .word w :: .sep c :: l, h => by
    rw [scopesMapped, scopesMapped]
    rw [scopeWords] at h
    by_cases hc : c = '.'
    · rw [if_pos hc] at h ⊢
      rw [if_pos hc, h w List.mem_cons_self, mapped_congr (fun x hx => h x (List.mem_cons_of_mem _ hx))]
    · rw [if_neg hc] at h ⊢
      rw [if_neg hc, mapped_congr h]

theorem mapped_id : ∀ (l : List Piece), scopesMapped some l = l
  | [] => rfl
  | .sep c :: l => by rw [scopesMapped, mapped_id]
  | [.word w] => rfl
  | .word w :: .word v :: l => by rw [scopesMapped, mapped_id]
  | .word w :: .sep c :: l => by
    rw [scopesMapped, mapped_id]
    split
    · next h => rw [h]; rfl
    · rfl

/-! ### All the namespaces -/

theorem pyName_nil (w : Str) : pyName [] w = w := rfl

theorem pyName_cons (q : Str × Str) (nss : List (Str × Str)) (w : Str) : pyName (q :: nss) w = if w = q.1 then q.2 else pyName nss w := by
  unfold pyName
  rw [List.find?_cons]
  by_cases h : w = q.1
  · subst h; simp
  · rw [if_neg h]
    have : (q.1 == w) = false := by rw [beq_eq_false_iff_ne]; exact fun e => h e.symm
    rw [this]

/-- A name that the namespaces do not change. -/
theorem pyName_same {w : Str} : ∀ {nss : List (Str × Str)}, (∀ q ∈ nss, q.1 = w → q.2 = w) → pyName nss w = w
  | [], _ => rfl
  | q :: nss, h => by
    rw [pyName_cons]
    split
    · next e => exact h q (by simp) e.symm
    · exact pyName_same (fun x hx => h x (List.mem_cons_of_mem _ hx))

theorem rename_all {u : Char → Bool} : ∀ {nss : List (Str × Str)} {l : List Piece}, Cut u l → (∀ q ∈ nss, Ident u q.1 ∧ Ident u q.2) →
    (∀ q ∈ nss, ∀ q' ∈ nss, q.1 = q'.1 → q.2 = q'.2) → (∀ q ∈ nss, ∀ q' ∈ nss, q.2 ≠ q.1 → q'.2 ≠ q'.1 → ¬ q.1 <:+ q'.2) →
    (∀ w ∈ scopeWords l, ∀ q ∈ nss, q.2 ≠ q.1 → q.1 <:+ w → w = q.1) →
    renameNamespaces nss (text l) = text (scopesMapped (fun w => some (pyName nss w)) l)
  | [], l, _, _, _, _, _ => by
    show text l = _
    rw [show (fun w => some (pyName [] w)) = some from rfl, mapped_id]
  | q :: nss, l, hl, hi, hs, ha, hw => by
    have h1 : ∀ x ∈ nss, Ident u x.1 ∧ Ident u x.2 := fun x hx => hi x (List.mem_cons_of_mem _ hx)
    have h2 : ∀ x ∈ nss, ∀ y ∈ nss, x.1 = y.1 → x.2 = y.2 := fun x hx y hy => hs x (List.mem_cons_of_mem _ hx) y (List.mem_cons_of_mem _ hy)
    have h3 : ∀ x ∈ nss, ∀ y ∈ nss, x.2 ≠ x.1 → y.2 ≠ y.1 → ¬ x.1 <:+ y.2 :=
      fun x hx y hy => ha x (List.mem_cons_of_mem _ hx) y (List.mem_cons_of_mem _ hy)
    show renameNamespaces nss (if q.2 ≠ q.1 then _ else _) = _
    by_cases hq : q.2 ≠ q.1
    · rw [if_pos hq]
      have hr := replace_scope (some q.2) (hi q (by simp)).1 hl (fun w hx => hw w hx q (by simp) hq)
      have hc : Cut u (scopesMapped (oneScope q.1 (some q.2)) l) := by
        rcases hl with hl
        refine mapped_cut_words (fun w hx p hp => ?_) hl
        unfold oneScope at hp
        split at hp
        · cases hp; exact (hi q (by simp)).2
        · cases hp; exact hx
      rw [show q.2 ++ ['.'] = scopeText (some q.2) from rfl, hr, rename_all hc h1 h2 h3, mapped_twice hl]
      · congr 1
        refine mapped_congr (fun w _ => ?_)
        rw [pyName_cons]
        unfold oneScope
        split
        · show some (pyName nss q.2) = _
          rw [pyName_same (fun x hx e => ?_)]
          refine Classical.byContradiction fun hne => ?_
          exact ha x (List.mem_cons_of_mem _ hx) q (by simp) (fun e' => hne (e'.trans e)) hq (e ▸ List.suffix_refl _)
        · rfl
      · intro w hx x hxn hxc hsuf
        rw [mapped_words hl, List.mem_filterMap] at hx
        obtain ⟨v, hv, he⟩ := hx
        unfold oneScope at he
        split at he
        · cases he
          exact absurd hsuf (ha x (List.mem_cons_of_mem _ hxn) q (by simp) hxc hq)
        · cases he
          exact hw w hv x (List.mem_cons_of_mem _ hxn) hxc hsuf
    · rw [if_neg hq, rename_all hl h1 h2 h3 (fun w hx x hxn => hw w hx x (List.mem_cons_of_mem _ hxn))]
      have hq' : q.2 = q.1 := Classical.byContradiction hq
      congr 1
      refine mapped_congr (fun w _ => ?_)
      rw [pyName_cons]
      split
      · next e =>
        rw [pyName_same (fun x hx ex => ?_), hq', e]
        rw [hs x (List.mem_cons_of_mem _ hx) q (by simp) (ex.trans e), hq', e]
      · rfl

theorem drop_all {u : Char → Bool} : ∀ {roots : List Str} {l : List Piece}, Cut u l → (∀ n ∈ roots, Ident u n) →
    (∀ w ∈ scopeWords l, ∀ n ∈ roots, n <:+ w → w = n) →
    dropRoots roots (text l) = text (scopesMapped (fun w => if w ∈ roots then none else some w) l)
  | [], l, _, _, _ => by
    rw [mapped_congr (g := some) (fun w _ => by simp), mapped_id]
    rfl
  | n :: roots, l, hl, hi, hw => by
    have hr := replace_scope none (hi n (by simp)) hl (fun w hx => hw w hx n (by simp))
    have hc : Cut u (scopesMapped (oneScope n none) l) := by
      refine mapped_cut_words (fun w hx p hp => ?_) hl
      unfold oneScope at hp
      split at hp
      · cases hp
      · cases hp; exact hx
    show dropRoots roots (replace (text l) (n ++ ['.']) (scopeText none)) = _
    rw [hr, drop_all hc (fun x hx => hi x (List.mem_cons_of_mem _ hx)), mapped_twice hl]
    · congr 1
      refine mapped_congr (fun w _ => ?_)
      unfold oneScope
      by_cases h : w = n
      · simp [h]
      · simp [h]
    · intro w hx x hxn hsuf
      rw [mapped_words hl, List.mem_filterMap] at hx
      obtain ⟨v, hv, he⟩ := hx
      unfold oneScope at he
      split at he
      · cases he
      · cases he
        exact hw w hv x (List.mem_cons_of_mem _ hxn) hsuf

end Verif.ToPy
