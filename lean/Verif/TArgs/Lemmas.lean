import Verif.TArgs.Model
import Verif.TArgs.Spec
import Verif.Py.StrLemmas

/-! Lemmas on angle brackets. -/

namespace Verif.TArgs
open Verif.Py Spec

theorem findOpen_some {s a b : Str} : findOpen s = some (a, b) ↔ s = a ++ '<' :: b ∧ '<' ∉ a := by
  induction s generalizing a with
  | nil => simp [findOpen]
  | cons c cs ih =>
    unfold findOpen
    by_cases hc : c = '<'
    · subst hc
      rw [if_pos rfl]
      constructor
      · intro h
        simp only [Option.some.injEq, Prod.mk.injEq] at h
        obtain ⟨rfl, rfl⟩ := h
        simp
      · rintro ⟨h, hn⟩
        cases a with
        | nil => simp at h; simp [h]
        | cons x a => simp at h hn; exact absurd h.1 hn.1
    · rw [if_neg hc]
      constructor
      · intro h
        simp only [Option.map_eq_some_iff] at h
        obtain ⟨⟨x, y⟩, hx, hxy⟩ := h
        simp only [Prod.mk.injEq] at hxy
        obtain ⟨rfl, rfl⟩ := hxy
        obtain ⟨h1, h2⟩ := ih.1 hx
        exact ⟨by rw [h1]; rfl, by simp [h2, Ne.symm hc]⟩
      · rintro ⟨h, hn⟩
        cases a with
        | nil => simp at h; exact absurd h.1 hc
        | cons x a =>
          simp only [List.cons_append, List.cons.injEq] at h
          simp only [List.mem_cons, not_or] at hn
          have := ih.2 ⟨h.2, hn.2⟩
          rw [this, h.1]
          rfl

theorem findOpen_none {s : Str} : findOpen s = none ↔ '<' ∉ s := by
  induction s with
  | nil => simp [findOpen]
  | cons c cs ih =>
    unfold findOpen
    by_cases hc : c = '<'
    · subst hc; simp
    · rw [if_neg hc]
      simp [ih, Ne.symm hc]

/-- `d` brackets are still open before the text. -/
def Closes : Nat → Str → Prop
  | 0, s => Balanced s
  | d + 1, s => ∃ a b, s = a ++ '>' :: b ∧ Balanced a ∧ Closes d b

theorem closing_cons (d : Nat) (c : Char) (cs a b : Str) (h : closing d cs = some (a, b)) :
    (closing d cs).map (fun x => (c :: x.1, x.2)) = some (c :: a, b) := by rw [h]; rfl

/-- A balanced text does not change the depth. -/
theorem closing_balanced {a : Str} (h : Balanced a) : ∀ (d : Nat) (s : Str), 1 ≤ d →
    closing d (a ++ s) = (closing d s).map (fun x => (a ++ x.1, x.2)) := by
  induction h with
  | nil => intro d s _; rw [List.nil_append]; cases closing d s <;> rfl
  | char c s h1 h2 _ ih =>
    intro d t hd
    rw [List.cons_append, closing, if_neg h1, if_neg h2, ih d t hd]
    cases closing d t <;> rfl
  | nest a b _ _ iha ihb =>
    intro d t hd
    have e1 : ('<' :: a ++ '>' :: b) ++ t = '<' :: (a ++ ('>' :: (b ++ t))) := by simp
    rw [e1, closing, if_pos rfl, iha (d + 1) _ (by omega)]
    have e2 : closing (d + 1) ('>' :: (b ++ t)) = (closing d (b ++ t)).map (fun x => ('>' :: x.1, x.2)) := by
      rw [closing, if_neg (by decide), if_pos rfl, if_neg (by omega)]
      rfl
    rw [e2, ihb d t hd]
    cases closing d t <;> simp

theorem balanced_append {a b : Str} (ha : Balanced a) (hb : Balanced b) : Balanced (a ++ b) := by
  induction ha with
  | nil => exact hb
  | char c s h1 h2 _ ih => exact .char c _ h1 h2 ih
  | nest x y _ _ _ ihy =>
    have : ('<' :: x ++ '>' :: y) ++ b = '<' :: x ++ '>' :: (y ++ b) := by simp
    rw [this]
    exact .nest x _ ‹_› ihy

/-- The loop stops at the bracket which closes the last of the `d` open ones. -/
theorem closing_sound : ∀ (s : Str) (d : Nat) (a b : Str), closing (d + 1) s = some (a, b) →
    s = a ++ '>' :: b ∧ Closes d a := by
  intro s
  induction s with
  | nil => intro d a b h; simp [closing] at h
  | cons c cs ih =>
    intro d a b h
    rw [closing] at h
    by_cases h1 : c = '<'
    · rw [if_pos h1] at h
      simp only [Option.map_eq_some_iff] at h
      obtain ⟨⟨x, y⟩, hx, hxy⟩ := h
      simp only [Prod.mk.injEq] at hxy
      obtain ⟨rfl, rfl⟩ := hxy
      obtain ⟨e, p, q, rfl, hp, hq⟩ := ih (d + 1) x y hx
      refine ⟨by rw [e]; rfl, ?_⟩
      subst h1
      cases d with
      | zero => exact .nest p q hp hq
      | succ d =>
        obtain ⟨p', q', rfl, hp', hq'⟩ := hq
        exact ⟨'<' :: p ++ '>' :: p', q', by simp, .nest p p' hp hp', hq'⟩
    · rw [if_neg h1] at h
      by_cases h2 : c = '>'
      · rw [if_pos h2] at h
        subst h2
        cases d with
        | zero =>
          simp only [Nat.zero_add, if_true, Option.some.injEq, Prod.mk.injEq] at h
          obtain ⟨rfl, rfl⟩ := h
          exact ⟨rfl, .nil⟩
        | succ d =>
          rw [if_neg (by omega)] at h
          simp only [Option.map_eq_some_iff] at h
          obtain ⟨⟨x, y⟩, hx, hxy⟩ := h
          simp only [Prod.mk.injEq] at hxy
          obtain ⟨rfl, rfl⟩ := hxy
          obtain ⟨e, hq⟩ := ih d x y hx
          exact ⟨by rw [e]; rfl, [], x, rfl, .nil, hq⟩
      · rw [if_neg h2] at h
        simp only [Option.map_eq_some_iff] at h
        obtain ⟨⟨x, y⟩, hx, hxy⟩ := h
        simp only [Prod.mk.injEq] at hxy
        obtain ⟨rfl, rfl⟩ := hxy
        obtain ⟨e, hq⟩ := ih d x y hx
        refine ⟨by rw [e]; rfl, ?_⟩
        cases d with
        | zero => exact .char c x h1 h2 hq
        | succ d =>
          obtain ⟨p', q', rfl, hp', hq'⟩ := hq
          exact ⟨c :: p', q', rfl, .char c p' h1 h2 hp', hq'⟩

theorem closing_iff (s a b : Str) : closing 1 s = some (a, b) ↔ s = a ++ '>' :: b ∧ Balanced a := by
  constructor
  · exact closing_sound s 0 a b
  · rintro ⟨rfl, h⟩
    rw [closing_balanced h 1 _ (by omega), closing, if_neg (by decide), if_pos rfl, if_pos rfl]
    simp

theorem splitArgs_cut (s before inside after : Str) :
    splitArgs s = [before, inside, after] ↔ CutAt s before inside after := by
  unfold splitArgs CutAt
  cases hf : findOpen s with
  | none =>
    rw [findOpen_none] at hf
    simp only [List.cons.injEq, List.nil_eq, reduceCtorEq, and_false, false_iff]
    rintro ⟨rfl, _⟩
    simp at hf
  | some x =>
    obtain ⟨p, q⟩ := x
    obtain ⟨hs, hp⟩ := findOpen_some.1 hf
    simp only
    cases hc : closing 1 q with
    | none =>
      simp only [List.cons.injEq, List.nil_eq, reduceCtorEq, and_false, false_iff]
      rintro ⟨h1, h2, h3⟩
      have : findOpen s = some (before, inside ++ '>' :: after) := findOpen_some.2 ⟨by rw [h1]; simp, h2⟩
      rw [hf] at this
      simp only [Option.some.injEq, Prod.mk.injEq] at this
      rw [this.2, (closing_iff _ _ _).2 ⟨rfl, h3⟩] at hc
      simp at hc
    | some y =>
      obtain ⟨u, v⟩ := y
      obtain ⟨h1, h2⟩ := (closing_iff _ _ _).1 hc
      simp only [List.cons.injEq, and_true]
      constructor
      · rintro ⟨rfl, rfl, rfl⟩
        exact ⟨by rw [hs, h1]; simp, hp, h2⟩
      · rintro ⟨h3, h4, h5⟩
        have : findOpen s = some (before, inside ++ '>' :: after) := findOpen_some.2 ⟨by rw [h3]; simp, h4⟩
        rw [hf] at this
        simp only [Option.some.injEq, Prod.mk.injEq] at this
        have h6 := (closing_iff q inside after).2 ⟨this.2, h5⟩
        rw [hc] at h6
        simp only [Option.some.injEq, Prod.mk.injEq] at h6
        exact ⟨this.1, h6.1, h6.2⟩

theorem splitArgs_cases (s : Str) : splitArgs s = [s] ∨ ∃ a b c, splitArgs s = [a, b, c] := by
  unfold splitArgs
  split
  · exact .inl rfl
  · split
    · exact .inl rfl
    · exact .inr ⟨_, _, _, rfl⟩

/-- In a balanced text, the first `<` is matched. -/
theorem balanced_cut {s : Str} (h : Balanced s) (hm : '<' ∈ s) : ∃ a b c, CutAt s a b c ∧ Balanced c := by
  induction h with
  | nil => simp at hm
  | char c s h1 h2 _ ih =>
    simp only [List.mem_cons, Ne.symm h1, false_or] at hm
    obtain ⟨a, b, d, ⟨rfl, ha, hb⟩, hd⟩ := ih hm
    exact ⟨c :: a, b, d, ⟨by simp, by simp [ha, Ne.symm h1], hb⟩, hd⟩
  | nest a b ha hb _ _ => exact ⟨[], a, b, ⟨by simp, by simp, ha⟩, hb⟩

theorem balanced_dropWhile {s : Str} (h : Balanced s) : Balanced (lstrip s) := by
  unfold lstrip
  induction h with
  | nil => exact .nil
  | char c s h1 h2 hs ih =>
    rw [List.dropWhile_cons]
    split
    · exact ih
    · exact .char c s h1 h2 hs
  | nest a b ha hb _ _ =>
    rw [List.cons_append, List.dropWhile_cons, if_neg (by decide)]
    exact .nest a b ha hb

/-- Removing blanks at the end keeps the balance. -/
theorem balanced_concat_blank {s : Str} {c : Char} (h1 : c ≠ '<') (h2 : c ≠ '>') :
    ∀ t : Str, Balanced t → t = s ++ [c] → Balanced s := by
  intro t ht
  induction ht generalizing s with
  | nil => intro h; simp at h
  | char d r h3 h4 hr ih =>
    intro h
    cases s with
    | nil => exact .nil
    | cons x s =>
      simp only [List.cons_append, List.cons.injEq] at h
      obtain ⟨rfl, rfl⟩ := h
      exact .char _ s h3 h4 (ih rfl)
  | nest a b ha hb iha ihb =>
    intro h
    rcases List.eq_nil_or_concat b with hb0 | ⟨b', d, rfl⟩
    · subst hb0
      have h' : ('<' :: a) ++ ['>'] = s ++ [c] := h
      have := (List.append_inj' h' rfl).2
      simp only [List.cons.injEq, and_true] at this
      exact absurd this.symm h2
    · have h' : ('<' :: a ++ '>' :: b') ++ [d] = s ++ [c] := by rw [← h]; simp
      have := List.append_inj' h' rfl
      obtain ⟨rfl, e⟩ := this
      simp only [List.cons.injEq, and_true] at e
      subst e
      exact .nest a b' ha (ihb (by simp))

theorem balanced_rstrip (s : Str) (h : Balanced s) : Balanced (rstrip s) := by
  obtain ⟨w, hw, hb⟩ := rstrip_decomp s
  rw [hw] at h
  generalize rstrip s = r at h
  clear hw
  induction hn : w.length generalizing w with
  | zero =>
    have : w = [] := List.length_eq_zero_iff.1 hn
    subst this
    simpa using h
  | succ n ih =>
    rcases List.eq_nil_or_concat w with rfl | ⟨w', c, rfl⟩
    · simp at hn
    · have hc := hb c (by simp)
      refine ih w' (fun x hx => hb x (by simp [hx])) ?_ (by simpa using hn)
      refine balanced_concat_blank (s := r ++ w') (c := c) ?_ ?_ _ h (by simp)
      · rintro rfl; revert hc; decide
      · rintro rfl; revert hc; decide

theorem balanced_strip {s : Str} (h : Balanced s) : Balanced (strip s) := balanced_rstrip _ (balanced_dropWhile h)

theorem strip_length (s : Str) : (strip s).length ≤ s.length := by
  unfold strip
  obtain ⟨w, h, _⟩ := rstrip_decomp (lstrip s)
  obtain ⟨v, h', _⟩ := lstrip_decomp s
  have h1 := congrArg List.length h
  have h2 := congrArg List.length h'
  simp only [List.length_append] at h1 h2
  omega

/-- With balanced brackets and enough fuel there is a result, which does not depend on the fuel. -/
theorem translate_balanced (repl : Str → Str) : ∀ (n : Nat) (s : Str), s.length < n → Balanced s →
    ∃ r, translateLoop repl n s = .ok r := by
  intro n
  induction n with
  | zero => intro s h; omega
  | succ n ih =>
    intro s hl hb
    unfold translateLoop
    by_cases hm : '<' ∈ s
    · rw [if_neg (by simpa using hm)]
      obtain ⟨a, b, c, hcut, _⟩ := balanced_cut hb hm
      rw [(splitArgs_cut s a b c).2 hcut]
      simp only
      have hlen : b.length < s.length := by
        have := congrArg List.length hcut.1
        simp at this; omega
      obtain ⟨r, hr⟩ := ih (strip b) (by have := strip_length b; omega) (balanced_strip hcut.2.2)
      rw [hr]
      exact ⟨_, rfl⟩
    · rw [if_pos hm]
      exact ⟨_, rfl⟩

/-! ### Blanks -/

def noBlanks (s : Str) : Str := s.filter (fun c => !isSpace c)

theorem noBlanks_append (a b : Str) : noBlanks (a ++ b) = noBlanks a ++ noBlanks b := List.filter_append ..

theorem noBlanks_of_blanks {w : Str} (h : ∀ c ∈ w, isSpace c = true) : noBlanks w = [] := by
  unfold noBlanks
  rw [List.filter_eq_nil_iff]
  intro c hc
  simp [h c hc]

theorem noBlanks_strip (s : Str) : noBlanks (strip s) = noBlanks s := by
  obtain ⟨w, h, hw⟩ := rstrip_decomp (lstrip s)
  obtain ⟨v, h', hv⟩ := lstrip_decomp s
  unfold strip
  have e1 : noBlanks s = noBlanks (lstrip s) := by
    have := congrArg noBlanks h'
    rwa [noBlanks_append, noBlanks_of_blanks hv, List.nil_append] at this
  have e2 : noBlanks (lstrip s) = noBlanks (rstrip (lstrip s)) := by
    have := congrArg noBlanks h
    rwa [noBlanks_append, noBlanks_of_blanks hw, List.append_nil] at this
  rw [e1, e2]

theorem noBlanks_squeeze (s : Str) : noBlanks (squeeze s) = noBlanks s := by
  have hsp : isSpace ' ' = true := by decide
  induction s with
  | nil => rfl
  | cons c r ih =>
    cases r with
    | nil =>
      unfold squeeze
      split
      · simp [noBlanks, *]
      · rfl
    | cons d r =>
      unfold squeeze
      by_cases hc : isSpace c = true
      · rw [if_pos hc]
        have h2 : noBlanks (c :: d :: r) = noBlanks (d :: r) := by simp [noBlanks, hc]
        split
        · rw [ih, h2]
        · have : noBlanks (' ' :: squeeze (d :: r)) = noBlanks (squeeze (d :: r)) := by simp [noBlanks, hsp]
          rw [this, ih, h2]
      · rw [if_neg hc]
        have h1 : ∀ t, noBlanks (c :: t) = c :: noBlanks t := by intro t; simp [noBlanks, hc]
        rw [h1, h1, ih]

def square (c : Char) : Char := if c = '<' then '[' else if c = '>' then ']' else c

theorem replace_square (s : Str) : replace (replace s ['<'] ['[']) ['>'] [']'] = s.map square := by
  rw [replace_char, replace_char]
  induction s with
  | nil => rfl
  | cons c r ih =>
    rw [List.flatMap_cons, List.flatMap_append, ih, List.map_cons]
    unfold square
    by_cases h1 : c = '<'
    · subst h1; rfl
    · by_cases h2 : c = '>'
      · subst h2; rfl
      · simp [h1, h2]

theorem square_space (c : Char) : isSpace (square c) = isSpace c := by
  unfold square
  split
  · rename_i h; subst h; decide
  · split
    · rename_i h; subst h; decide
    · rfl

theorem noBlanks_map (s : Str) : noBlanks (s.map square) = (noBlanks s).map square := by
  unfold noBlanks
  rw [List.filter_map]
  congr 1
  apply List.filter_congr
  intro c _
  simp [square_space]

theorem finish_noBlanks (s : Str) : noBlanks (finish s) = (noBlanks s).map square := by
  unfold finish
  rw [noBlanks_strip, noBlanks_squeeze, replace_square, noBlanks_map]

theorem squareNoBlanks_eq (s : Str) : squareNoBlanks s = (noBlanks s).map square := rfl

theorem square_square (c : Char) : square (square c) = square c := by
  unfold square
  by_cases h1 : c = '<'
  · subst h1; decide
  · by_cases h2 : c = '>'
    · subst h2; decide
    · simp [h1, h2]

theorem square_ne (c : Char) : square c ≠ '<' ∧ square c ≠ '>' := by
  unfold square
  by_cases h1 : c = '<'
  · subst h1; decide
  · by_cases h2 : c = '>'
    · subst h2; decide
    · simp [h1, h2]

theorem mem_strip {s : Str} {c : Char} (h : c ∈ strip s) : c ∈ s := by
  unfold strip at h
  obtain ⟨w, h1, _⟩ := rstrip_decomp (lstrip s)
  obtain ⟨v, h2, _⟩ := lstrip_decomp s
  rw [h2, h1]
  simp [h]

theorem mem_squeeze {c : Char} : ∀ {s : Str}, c ∈ squeeze s → c = ' ' ∨ c ∈ s := by
  intro s
  induction s with
  | nil => intro h; simp [squeeze] at h
  | cons a r ih =>
    intro h
    cases r with
    | nil =>
      unfold squeeze at h
      split at h
      · left; simpa using h
      · right; exact h
    | cons d r =>
      unfold squeeze at h
      split at h
      · split at h
        · exact (ih h).imp id (fun h => by simp [h])
        · rcases List.mem_cons.1 h with h | h
          · exact .inl h
          · exact (ih h).imp id (fun h => List.mem_cons_of_mem _ h)
      · rcases List.mem_cons.1 h with h | h
        · exact .inr (by simp [h])
        · exact (ih h).imp id (fun h => List.mem_cons_of_mem _ h)

theorem finish_no_angle (s : Str) : '<' ∉ finish s ∧ '>' ∉ finish s := by
  have key : ∀ c : Char, c ≠ ' ' → (∀ d, square d ≠ c) → c ∉ finish s := by
    intro c h1 h2 h
    unfold finish at h
    rcases mem_squeeze (mem_strip h) with h | h
    · exact h1 h
    · rw [replace_square] at h
      obtain ⟨d, _, hd⟩ := List.mem_map.1 h
      exact h2 d hd
  exact ⟨key '<' (by decide) (fun d => (square_ne d).1), key '>' (by decide) (fun d => (square_ne d).2)⟩

/-- More fuel does not change the result. -/
theorem translate_fuel (repl : Str → Str) : ∀ (n m : Nat) (s x : Str), s.length < m →
    translateLoop repl n s = .ok x → translateLoop repl m s = .ok x := by
  intro n
  induction n with
  | zero => intro m s x _ h; simp [translateLoop] at h
  | succ n ih =>
    intro m s x hl h
    cases m with
    | zero => omega
    | succ m =>
      rw [translateLoop] at h ⊢
      by_cases hm : '<' ∈ s
      · rw [if_neg (by simpa using hm)] at h ⊢
        rcases splitArgs_cases s with h' | ⟨a, b, c, h'⟩
        · rw [h'] at h; simp at h
        · have hc := (splitArgs_cut s a b c).1 h'
          have hlen : b.length < s.length := by
            have := congrArg List.length hc.1
            simp at this; omega
          rw [h'] at h ⊢
          simp only at h ⊢
          cases ht : translateLoop repl n (strip b) with
          | error e => rw [ht] at h; simp at h
          | ok y =>
            rw [ht] at h
            rw [ih m (strip b) y (by have := strip_length b; omega) ht]
            exact h
      · rw [if_pos hm] at h ⊢
        exact h

theorem map_square_idem (s : Str) : (s.map square).map square = s.map square := by
  simp [List.map_map, Function.comp_def, square_square]

theorem noBlanks_idem (s : Str) : noBlanks (noBlanks s) = noBlanks s := by
  unfold noBlanks; simp

theorem translate_text_aux : ∀ (n : Nat) (s r : Str), translateLoop id n s = .ok r →
    (noBlanks r).map square = (noBlanks s).map square := by
  intro n
  induction n with
  | zero => intro s r h; simp [translateLoop] at h
  | succ n ih =>
    intro s r h
    rw [translateLoop] at h
    by_cases hm : '<' ∈ s
    · rw [if_neg (by simpa using hm)] at h
      rcases splitArgs_cases s with h' | ⟨a, b, c, h'⟩
      · rw [h'] at h; simp at h
      · have hc := (splitArgs_cut s a b c).1 h'
        rw [h'] at h
        simp only [id] at h
        cases ht : translateLoop id n (strip b) with
        | error e => rw [ht] at h; simp at h
        | ok y =>
          rw [ht] at h
          simp only [Except.ok.injEq] at h
          rw [← h, finish_noBlanks, map_square_idem, hc.1]
          have h1 := ih _ _ ht
          rw [noBlanks_strip] at h1
          have e1 : noBlanks ['<'] = ['<'] := by decide
          have e2 : noBlanks ['>'] = ['>'] := by decide
          have e3 : a ++ '<' :: b ++ '>' :: c = a ++ ['<'] ++ b ++ ['>'] ++ c := by simp
          rw [e3]
          simp only [noBlanks_append, List.map_append, noBlanks_strip, h1]
    · rw [if_pos hm] at h
      simp only [id, Except.ok.injEq] at h
      rw [h]

theorem translate_text (n : Nat) (s r : Str) (hm : '<' ∈ s) (h : translateLoop id n s = .ok r) :
    r.filter (fun c => !isSpace c) = squareNoBlanks s := by
  have h1 := translate_text_aux n s r h
  rw [squareNoBlanks_eq, ← h1]
  cases n with
  | zero => simp [translateLoop] at h
  | succ n =>
    rw [translateLoop, if_neg (by simpa using hm)] at h
    have : ∃ t, r = finish t := by
      split at h
      · split at h
        · simp only [Except.ok.injEq] at h
          exact ⟨_, h.symm⟩
        · cases h
      · cases h
    obtain ⟨t, rfl⟩ := this
    change noBlanks (finish t) = _
    rw [finish_noBlanks, map_square_idem]

end Verif.TArgs
