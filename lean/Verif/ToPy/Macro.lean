import Verif.ToPy.Model
import Verif.ToPy.SpecVal
import Verif.Re.Words

/-! The macros that are numbers. -/

namespace Verif.ToPy
open Verif.Py Verif.Re Re.Spec Verif.Inst Verif.Inst.Spec Spec
open Verif.Scope (isWordChar)

theorem prefix_inside {u : Char → Bool} : ∀ {n w s : Str}, (∀ c ∈ n, isWordChar u c = true) → ¬ BeginsWithWord u s → n <+: w ++ s → n <+: w
  | [], _, _, _, _, _ => List.nil_prefix
  | c :: n, [], s, hn, hs, h => by
    obtain ⟨t, ht⟩ := h
    exfalso
    apply hs
    rw [show s = c :: (n ++ t) from ht.symm]
    exact ⟨c, rfl, hn c (by simp)⟩
  | c :: n, d :: w, s, hn, hs, h => by
    rw [List.cons_append, List.cons_prefix_cons] at h
    rw [List.cons_prefix_cons]
    exact ⟨h.1, prefix_inside (fun x hx => hn x (by simp [hx])) hs h.2⟩

/-- The replacement goes over a word. -/
theorem replace_over {u : Char → Bool} {n new : Str} (hn : Ident u n) : ∀ {w s : Str}, ¬ BeginsWithWord u s → ¬ n <:+: w →
    replace (w ++ s) n new = w ++ replace s n new
  | [], _, _, _ => rfl
  | c :: w, s, hs, h => by
    rw [List.cons_append, replace_no_match, replace_over hn hs (fun e => h (e.trans (List.suffix_cons c w).isInfix))]
    · rfl
    · exact fun hp => h (prefix_inside (w := c :: w) hn.2 hs hp).isInfix

theorem replace_sep {u : Char → Bool} {n new : Str} (hn : Ident u n) {c : Char} (hc : isWordChar u c = false) (s : Str) :
    replace (c :: s) n new = c :: replace s n new := by
  refine replace_no_match (fun hp => ?_)
  have := prefix_inside (u := u) (w := []) hn.2 (s := c :: s) (by rintro ⟨d, hd, hw⟩; cases hd; rw [hc] at hw; cases hw) hp
  exact hn.1 (List.prefix_nil.1 this)

theorem valued_nil : ∀ (l : List Piece), valued [] l = l
  | [] => rfl
  | .sep c :: l => by rw [valued, valued_nil]
  | .word w :: l => by rw [valued, valued_nil]; rfl

theorem valued_append (ms : List (Str × List Piece)) : ∀ (a b : List Piece), valued ms (a ++ b) = valued ms a ++ valued ms b
  | [], _ => rfl
  | .sep c :: a, b => by rw [List.cons_append, valued, valued, valued_append ms a b]; rfl
  | .word w :: a, b => by rw [List.cons_append, valued, valued, valued_append ms a b, List.append_assoc]

theorem replace_macro {u : Char → Bool} {n v : Str} {P : List Piece} (hn : Ident u n) (hP : text P = v) : ∀ {l : List Piece}, Cut u l →
    (∀ w, .word w ∈ l → n <:+: w → w = n) → replace (text l) n v = text (valued [(n, P)] l)
  | [], _, _ => rfl
  | .sep c :: l, hl, h => by
    rw [valued, text_cons, text_cons, Piece.text, List.singleton_append, replace_sep hn hl.1, replace_macro hn hP hl.2 (fun w hw => h w (List.mem_cons_of_mem _ hw))]
    rfl
  | .word w :: l, hl, h => by
    have hb := not_begins_text hl.2.2.1 hl.2.2.2
    have ih := replace_macro hn hP hl.2.2.2 (fun w hw => h w (List.mem_cons_of_mem _ hw))
    rw [valued, text_cons, text_append, Piece.text]
    by_cases hw : w = n
    · subst hw
      rw [replace_match hn.1, ih, List.find?_cons_of_pos (by simp)]
      show v ++ _ = text P ++ _
      rw [hP]
    · rw [replace_over hn hb (fun e => hw (h w List.mem_cons_self e)), ih, List.find?_cons_of_neg (by simpa using fun e => hw e.symm)]
      show _ = (w ++ []) ++ _
      rw [List.append_nil]

theorem cut_join {u : Char → Bool} : ∀ {a b : List Piece}, Cut u a → Cut u b → (∀ w m, b ≠ .word w :: m) → Cut u (a ++ b)
  | [], _, _, hb, _ => hb
  | .sep c :: a, b, ha, hb, h => ⟨ha.1, cut_join ha.2 hb h⟩
  | .word w :: a, b, ha, hb, h => by
    refine ⟨ha.1, ha.2.1, ?_, cut_join ha.2.2.2 hb h⟩
    cases a with
    | nil => exact h
    | cons p a =>
      intro v m e
      have := (List.cons.inj (show p :: (a ++ b) = .word v :: m from e)).1
      exact ha.2.2.1 v a (by rw [this])

theorem valued_notW {ms : List (Str × List Piece)} {l : List Piece} (h : ∀ w m, l ≠ .word w :: m) : ∀ w m, valued ms l ≠ .word w :: m := by
  cases l with
  | nil => intro w m e; cases e
  | cons p l =>
    cases p with
    | word v => exact absurd rfl (h v l)
    | sep c => intro w m e; cases e

theorem find_mem {ms : List (Str × List Piece)} {w : Str} {P : List Piece} (h : (ms.find? (fun q => q.1 == w)).map Prod.snd = some P) : ∃ q ∈ ms, q.2 = P := by
  rw [Option.map_eq_some_iff] at h
  obtain ⟨q, hq, e⟩ := h
  exact ⟨q, List.mem_of_find?_eq_some hq, e⟩

theorem valued_cut {u : Char → Bool} {ms : List (Str × List Piece)} (hm : ∀ q ∈ ms, Cut u q.2) : ∀ {l : List Piece}, Cut u l → Cut u (valued ms l)
  | [], _ => trivial
  | .sep c :: l, h => ⟨h.1, valued_cut hm h.2⟩
  | .word w :: l, h => by
    rw [valued]
    refine cut_join ?_ (valued_cut hm h.2.2.2) (valued_notW h.2.2.1)
    cases hf : (ms.find? (fun q => q.1 == w)).map Prod.snd with
    | none => exact ⟨h.1, h.2.1, fun _ _ e => (by cases e), trivial⟩
    | some P =>
      obtain ⟨q, hq, rfl⟩ := find_mem hf
      exact hm q hq

theorem valued_words {ms : List (Str × List Piece)} : ∀ {l : List Piece} {w : Str}, .word w ∈ valued ms l → .word w ∈ l ∨ ∃ q ∈ ms, .word w ∈ q.2
  | [], _, h => by cases h
  | .sep c :: l, w, h => by
    rw [valued] at h
    rcases List.mem_cons.1 h with h | h
    · cases h
    · exact (valued_words h).imp (List.mem_cons_of_mem _) id
  | .word x :: l, w, h => by
    rw [valued] at h
    rcases List.mem_append.1 h with h | h
    · cases hf : (ms.find? (fun q => q.1 == x)).map Prod.snd with
      | none =>
        rw [hf] at h
        exact .inl (by rw [List.mem_singleton.1 h]; simp)
      | some P =>
        rw [hf] at h
        obtain ⟨q, hq, rfl⟩ := find_mem hf
        exact .inr ⟨q, hq, h⟩
    · exact (valued_words h).imp (List.mem_cons_of_mem _) id

/-- Words that are no names stay. -/
theorem valued_same {ms : List (Str × List Piece)} : ∀ {l : List Piece}, (∀ w, .word w ∈ l → ∀ q ∈ ms, q.1 ≠ w) → valued ms l = l
  | [], _ => rfl
  | .sep c :: l, h => by rw [valued, valued_same (fun w hw => h w (List.mem_cons_of_mem _ hw))]
  | .word w :: l, h => by
    rw [valued, valued_same (fun w hw => h w (List.mem_cons_of_mem _ hw)),
      List.find?_eq_none.2 (fun q hq => by simpa using h w List.mem_cons_self q hq)]
    rfl

theorem valued_cons (q : Str × List Piece) (ms : List (Str × List Piece)) : ∀ {l : List Piece}, (∀ w, .word w ∈ q.2 → ∀ q' ∈ ms, q'.1 ≠ w) →
    valued ms (valued [q] l) = valued (q :: ms) l
  | [], _ => rfl
  | .sep c :: l, h => by rw [valued, valued, valued, valued_cons q ms h]
  | .word w :: l, h => by
    rw [valued, valued_append, valued_cons q ms h, valued]
    congr 1
    by_cases hw : q.1 = w
    · rw [List.find?_cons_of_pos (by simpa using hw), List.find?_cons_of_pos (by simpa using hw)]
      exact valued_same h
    · rw [List.find?_cons_of_neg (by simpa using hw), List.find?_cons_of_neg (by simpa using hw)]
      show valued ms [.word w] = _
      rw [valued, valued, List.append_nil]

theorem macros_all {u : Char → Bool} : ∀ {ms : List (Str × List Piece)} {l : List Piece}, Cut u l → (∀ q ∈ ms, Ident u q.1 ∧ Cut u q.2) →
    (∀ q ∈ ms, ∀ w, .word w ∈ q.2 → ∀ q' ∈ ms, ¬ q'.1 <:+: w) → (∀ w, .word w ∈ l → ∀ q ∈ ms, q.1 <:+: w → w = q.1) →
    putMacros (ms.map (fun q => (q.1, text q.2))) (text l) = text (valued ms l)
  | [], l, _, _, _, _ => by rw [valued_nil]; rfl
  | q :: ms, l, hl, hi, hv, hw => by
    show putMacros _ (replace (text l) q.1 (text q.2)) = _
    rw [replace_macro (hi q (by simp)).1 rfl hl (fun w h => hw w h q (by simp)),
      macros_all (valued_cut (fun x hx => by rw [List.mem_singleton.1 hx]; exact (hi q (by simp)).2) hl) (fun x hx => hi x (List.mem_cons_of_mem _ hx))
        (fun x hx w h y hy => hv x (List.mem_cons_of_mem _ hx) w h y (List.mem_cons_of_mem _ hy)),
      valued_cons q ms (fun w h x hx e => hv q (by simp) w h x (List.mem_cons_of_mem _ hx) (e ▸ List.infix_rfl))]
    intro w h x hx hxi
    rcases valued_words h with h | ⟨y, hy, h⟩
    · exact hw w h x (List.mem_cons_of_mem _ hx) hxi
    · rw [List.mem_singleton.1 hy] at h
      exact absurd hxi (hv q (by simp) w h x (List.mem_cons_of_mem _ hx))

end Verif.ToPy
