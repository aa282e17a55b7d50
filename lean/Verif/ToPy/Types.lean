import Verif.ToPy.Ns
import Verif.ToPy.SpecTypes
import Verif.Re.TypeAll

/-! The qualifiers and the scopes of a whole type. -/

namespace Verif.ToPy
open Verif.Py Verif.Re Re.Spec Verif.Inst Verif.Inst.Spec Spec
open Verif.Scope (isWordChar)

/-- A word and a blank at the beginning of a text that begins with a word. -/
theorem prefix_blank {u : Char → Bool} (hb : isWordChar u ' ' = false) : ∀ {n w s : Str}, (∀ c ∈ n, isWordChar u c = true) →
    (∀ c ∈ w, isWordChar u c = true) → ¬ BeginsWithWord u s → n ++ [' '] <+: w ++ s → w = n ∧ ∃ t, s = ' ' :: t
  | [], [], s, _, _, _, h => by
    obtain ⟨t, ht⟩ := h
    exact ⟨rfl, t, ht.symm⟩
  | [], c :: w, s, _, hw, _, h => by
    obtain ⟨t, ht⟩ := h
    have : ' ' = c := (List.cons.inj (show ' ' :: t = c :: (w ++ s) from ht)).1
    have h2 := hw c (by simp)
    rw [← this, hb] at h2
    cases h2
  | d :: n, [], s, hn, _, hs, h => by
    obtain ⟨t, ht⟩ := h
    exfalso
    apply hs
    rw [show s = d :: (n ++ [' '] ++ t) from ht.symm]
    exact ⟨d, rfl, hn d (by simp)⟩
  | d :: n, c :: w, s, hn, hw, hs, h => by
    obtain ⟨t, ht⟩ := h
    have := List.cons.inj (show d :: (n ++ [' '] ++ t) = c :: (w ++ s) from ht)
    obtain ⟨h1, h2⟩ := prefix_blank hb (fun x hx => hn x (by simp [hx])) (fun x hx => hw x (by simp [hx])) hs ⟨t, this.2⟩
    rw [this.1, h1]
    exact ⟨rfl, h2⟩

theorem blank_word {u : Char → Bool} (hb : isWordChar u ' ' = false) {n : Str} (hn : Ident u n) : ∀ {w s : Str}, (∀ c ∈ w, isWordChar u c = true) →
    ¬ BeginsWithWord u s → (∀ t, s = ' ' :: t → ¬ n <:+ w) → replace (w ++ s) (n ++ [' ']) [] = w ++ replace s (n ++ [' ']) []
  | [], _, _, _, _ => rfl
  | c :: w, s, hw, hs, h => by
    rw [List.cons_append, replace_no_match, blank_word hb hn (fun x hx => hw x (by simp [hx])) hs]
    · rfl
    · exact fun t ht hsuf => h t ht (hsuf.trans (List.suffix_cons c w))
    · intro hp
      obtain ⟨h1, t, h2⟩ := prefix_blank hb hn.2 hw hs hp
      exact h t h2 (h1 ▸ List.suffix_refl _)

theorem replace_without {u : Char → Bool} (hb : isWordChar u ' ' = false) {n : Str} (hn : Ident u n) : ∀ {l : List Piece}, Cut u l →
    (∀ w, .word w ∈ l → n <:+ w → w = n) → replace (text l) (n ++ [' ']) [] = text (without n l)
  | [], _, _ => rfl
  | .sep c :: l, hl, h => by
    rw [without, text_cons, text_cons, Piece.text, List.singleton_append, replace_no_match,
      replace_without hb hn hl.2 (fun w hw => h w (List.mem_cons_of_mem _ hw))]
    · rfl
    · intro hp
      have := prefix_blank hb (w := []) hn.2 (fun _ hx => (by cases hx)) (s := c :: text l)
        (by rintro ⟨d, hd, hw⟩; cases hd; rw [hl.1] at hw; cases hw) hp
      exact hn.1 this.1.symm
  | [.word w], hl, h => by
    rw [without, text_cons, text_nil, Piece.text, blank_word hb hn hl.2.1]
    · rfl
    · rintro ⟨c, hc, _⟩; cases hc
    · intro t e; cases e
  | .word w :: .word v :: l, hl, _ => absurd rfl (hl.2.2.1 v l)
  | .word w :: .sep c :: l, hl, h => by
    have hs : ¬ BeginsWithWord u (c :: text l) := by rintro ⟨d, hd, hw⟩; cases hd; rw [hl.2.2.2.1] at hw; cases hw
    have ih := replace_without hb hn hl.2.2.2.2 (fun x hx => h x (List.mem_cons_of_mem _ (List.mem_cons_of_mem _ hx)))
    rw [without, text_cons, text_cons]
    by_cases hc : w = n ∧ c = ' '
    · rw [if_pos hc, hc.1, hc.2]
      show replace (n ++ (' ' :: text l)) _ _ = _
      rw [show n ++ ' ' :: text l = (n ++ [' ']) ++ text l by rw [List.append_assoc]; rfl, replace_match (by simp), ih]
      rfl
    · rw [if_neg hc]
      show replace (w ++ (c :: text l)) _ _ = w ++ (c :: _)
      rw [blank_word hb hn hl.2.1 hs (fun t e hsuf => hc ⟨h w List.mem_cons_self hsuf, (List.cons.inj e).1⟩), replace_no_match, ih]
      · rfl
      · intro hp
        have := prefix_blank hb (w := []) hn.2 (fun _ hx => (by cases hx)) (s := c :: text l) hs hp
        exact hn.1 this.1.symm

theorem without_words {q w : Str} : ∀ {l : List Piece}, .word w ∈ without q l → .word w ∈ l
  | [], h => h
  | .sep c :: l, h => by
    rw [without] at h
    rcases List.mem_cons.1 h with e | h
    · cases e
    · exact List.mem_cons_of_mem _ (without_words h)
  | [.word v], h => h
  | .word v :: .word v' :: l, h => by
    rw [without] at h
    rcases List.mem_cons.1 h with e | h
    · rw [e]; exact List.mem_cons_self
    · exact List.mem_cons_of_mem _ (without_words h)
  | .word v :: .sep c :: l, h => by
    rw [without] at h
    split at h
    · exact List.mem_cons_of_mem _ (List.mem_cons_of_mem _ (without_words h))
    · rcases List.mem_cons.1 h with e | h
      · rw [e]; exact List.mem_cons_self
      · rcases List.mem_cons.1 h with e | h
        · cases e
        · exact List.mem_cons_of_mem _ (List.mem_cons_of_mem _ (without_words h))

theorem without_cut {u : Char → Bool} {q : Str} : ∀ {l : List Piece}, Cut u l → Cut u (without q l)
  | [], _ => trivial
  | .sep c :: l, h => ⟨h.1, without_cut h.2⟩
  | [.word w], h => h
  | .word w :: .word v :: l, h => absurd rfl (h.2.2.1 v l)
  | .word w :: .sep c :: l, h => by
    rw [without]
    split
    · exact without_cut h.2.2.2.2
    · exact ⟨h.1, h.2.1, fun _ _ e => (by cases e), h.2.2.2.1, without_cut h.2.2.2.2⟩

theorem dots_match {c d : Char} (s : Str) (h : c = ':' ∧ d = ':') :
    replace (c :: d :: s) [':', ':'] ['.'] = '.' :: replace s [':', ':'] ['.'] := by
  rw [h.1, h.2]
  exact replace_match (old := [':', ':']) (new := ['.']) (s := s) (by simp)

theorem dots_skip {c d : Char} (s : Str) (h : ¬ (c = ':' ∧ d = ':')) :
    replace (c :: d :: s) [':', ':'] ['.'] = c :: replace (d :: s) [':', ':'] ['.'] := by
  refine replace_no_match (fun hp => ?_)
  obtain ⟨t, ht⟩ := hp
  have h1 := List.cons.inj (show ':' :: (':' :: t) = c :: (d :: s) from ht)
  exact h ⟨h1.1.symm, (List.cons.inj h1.2).1.symm⟩

theorem replace_dots : ∀ (s : Str), replace s [':', ':'] ['.'] = dotted s
  | [] => rfl
  | [c] => by
    rw [dotted]
    exact replace_no_match (s := []) (fun hp => by
      obtain ⟨t, ht⟩ := hp
      cases (List.cons.inj (show ':' :: (':' :: t) = c :: [] from ht)).2)
  | c :: d :: s => by
    rw [dotted]
    split
    · next h => rw [dots_match s h, replace_dots s]
    · next h => rw [dots_skip s h, replace_dots (d :: s)]

end Verif.ToPy
