import Verif.Re.Value

/-! One pass of the rules of the values. -/

namespace Verif.Re
open Verif.Py Spec Verif.Inst Verif.Inst.Spec
open Verif.Scope (isWordChar)

theorem lits_append (v w : Str) (k : Re) : lits (v ++ w) k = lits v (lits w k) := List.foldr_append

/-- An identifier of ASCII characters. -/
theorem ident_of {u : Char → Bool} {w : Str} (hne : w ≠ []) (h : ∀ c ∈ w, c.toNat < 128 ∧ isWordChar (fun _ => false) c = true) : Ident u w := by
  refine ⟨hne, fun c hc => ?_⟩
  obtain ⟨h1, h2⟩ := h c hc
  unfold isWordChar at h2 ⊢
  rw [if_pos h1] at h2 ⊢
  exact h2

/-! ### Rules that find nothing -/

theorem sub_quiet' {u : Char → Bool} {r : Re} {tmpl : List Tok} (hr : NeverEmpty u r) {s : Str} (h : Quiet u r [] s []) : sub u r tmpl s = s :=
  sub_quiet tmpl hr h

/-- The matches begin with `std`, `::` or a character, and a word. -/
def StdLike (u : Char → Bool) (r : Re) : Prop :=
  ∀ a m b k k', Matches u r a m b k k' → ¬ EndsInWord u a ∧ ∃ v s, (v = "nullopt".toList ∨ v = "string".toList) ∧ ¬ BeginsWithWord u s ∧
    (m ++ b = "std".toList ++ ("::".toList ++ (v ++ s)) ∨ ∃ c, m ++ b = "std".toList ++ (c :: (v ++ s)))

theorem stdIdent (u : Char → Bool) : Ident u "std".toList := ident_of (by decide) (by decide)
theorem nulloptIdent (u : Char → Bool) : Ident u "nullopt".toList := ident_of (by decide) (by decide)
theorem stringIdent (u : Char → Bool) : Ident u "string".toList := ident_of (by decide) (by decide)

theorem stdLike_colon {u : Char → Bool} {v : Str} {k : Re} (hv : v = "nullopt".toList ∨ v = "string".toList) (hk : Stops u k) :
    StdLike u (.seq .wordB (lits "std".toList (lits "::".toList (lits v k)))) := by
  intro a m b k k' h
  obtain ⟨h1, _⟩ := headed_lits (stdIdent u) (stops_chr (c := ':') rfl _) a m b k k' h
  refine ⟨h1, ?_⟩
  obtain ⟨m1, m2, k1, rfl, h2, h3⟩ := matches_seq h
  obtain ⟨rfl, _, _⟩ := matches_wordB h2
  obtain ⟨m', rfl, h4⟩ := matches_lits _ h3
  obtain ⟨m'', rfl, h5⟩ := matches_lits _ h4
  obtain ⟨m3, rfl, h6⟩ := matches_lits _ h5
  have hid : Ident u v := by
    rcases hv with rfl | rfl
    · exact nulloptIdent u
    · exact stringIdent u
  refine ⟨v, m3 ++ b, hv, hk _ _ _ _ _ (ends_append hid.1 hid.2) h6, .inl ?_⟩
  simp only [List.append_assoc, List.nil_append]

theorem matches_any {u : Char → Bool} {a m b : Str} {k k' : List (Nat × Str)} (h : Matches u .any a m b k k') : ∃ c, m = [c] := by
  cases h with
  | any c => exact ⟨c, rfl⟩

theorem stdLike_any {u : Char → Bool} {v : Str} {k : Re} (hv : v = "nullopt".toList ∨ v = "string".toList) (hk : Stops u k) :
    StdLike u (.seq .wordB (lits "std".toList (.seq .any (lits v k)))) := by
  intro a m b k k' h
  obtain ⟨m1, m2, k1, rfl, h2, h3⟩ := matches_seq h
  obtain ⟨rfl, _, hb⟩ := matches_wordB h2
  obtain ⟨m', rfl, h4⟩ := matches_lits _ h3
  obtain ⟨m4, m5, k5, rfl, h7, h8⟩ := matches_seq h4
  obtain ⟨c, rfl⟩ := matches_any h7
  obtain ⟨m3, rfl, h6⟩ := matches_lits _ h8
  have hid : Ident u v := by
    rcases hv with rfl | rfl
    · exact nulloptIdent u
    · exact stringIdent u
  refine ⟨fun ha => hb ⟨fun _ => ?_, fun _ => ha⟩, v, m3 ++ b, hv, hk _ _ _ _ _ (ends_append hid.1 hid.2) h6, .inr ⟨c, ?_⟩⟩
  · rw [List.append_assoc]
    exact begins_append (stdIdent u).1 (stdIdent u).2
  · simp only [List.append_assoc, List.nil_append, List.cons_append]

theorem quiet_inside_of {u : Char → Bool} {r : Re} (hr : ∀ a m b k k', Matches u r a m b k k' → ¬ EndsInWord u a) (w : Str) : ∀ {a : Str} (b : Str),
    EndsInWord u a → (∀ c ∈ w, isWordChar u c = true) → Quiet u r a w b := by
  induction w with
  | nil => intro a b _ _; exact quiet_nil _ _ _ _
  | cons c w ih =>
    intro a b ha hw
    rw [quiet_cons]
    refine ⟨?_, ih b (ends_concat.2 (hw c (by simp))) (fun x hx => hw x (by simp [hx]))⟩
    rintro m b' _ ⟨k, hm⟩
    exact (hr _ _ _ _ _ hm) ha

/-- The first word of a text of pieces. -/
theorem first_word {u : Char → Bool} {v s : Str} (hv : v = "nullopt".toList ∨ v = "string".toList) (hs : ¬ BeginsWithWord u s) : ∀ {l : List VTok},
    Lexed u l → vtext l = v ++ s → ∃ m, l = .word v :: m := by
  have hid : Ident u v := by
    rcases hv with rfl | rfl
    · exact nulloptIdent u
    · exact stringIdent u
  have hne : ∃ x y, v = x :: y ∧ isWordChar u x = true ∧ isDigit x = false := by
    rcases hv with rfl | rfl
    · exact ⟨_, _, rfl, rfl, by decide⟩
    · exact ⟨_, _, rfl, rfl, by decide⟩
  obtain ⟨x, y, hxy, hx1, hx2⟩ := hne
  intro l hl e
  match l, hl, e with
  | [], _, e =>
    rw [hxy] at e
    cases e
  | .word w :: l, hl, e =>
    rw [vtext_cons] at e
    obtain ⟨h1, _⟩ := word_prefix_unique hl.1.2 hid.2 (apart_begins hl.2.2.1 hl.2.2.2) hs e
    have h2 : w = v := h1
    exact ⟨l, by rw [h2]⟩
  | .num b s' :: l, hl, e =>
    obtain ⟨c, t, hb, hc⟩ := body_head hl.1
    rw [vtext_cons, hxy] at e
    have : c = x := by
      have e2 : (b ++ s') ++ vtext l = x :: (y ++ s) := e
      rw [hb] at e2
      exact (List.cons.inj e2).1
    rw [this, hx2] at hc
    cases hc
  | .scope :: l, _, e =>
    rw [hxy] at e
    have : ':' = x := (List.cons.inj e).1
    rw [← this] at hx1
    cases hx1
  | .sep c :: l, hl, e =>
    rw [hxy] at e
    have : c = x := (List.cons.inj e).1
    rw [← this, hl.1] at hx1
    cases hx1

theorem std_not_begin {u : Char → Bool} {c : Char} {s t : Str} (hc : isWordChar u c = false) (e : c :: s = "std".toList ++ t) : False := by
  have : c = 's' := (List.cons.inj e).1
  rw [this] at hc
  cases hc

/-- Such a rule finds nothing in a calm text. -/
theorem quiet_std {u : Char → Bool} {r : Re} (hr : StdLike u r) : ∀ {l : List VTok} (a : Str), Lexed u l → Calm l → Quiet u r a (vtext l) []
  | [], a, _, _ => quiet_nil _ _ _ _
  | .sep c :: l, a, hl, hc => by
    rw [vtext_cons, quiet_append]
    refine ⟨quiet_one ?_, quiet_std hr _ hl.2.2 hc.2⟩
    rintro m b' e ⟨k, hm⟩
    obtain ⟨_, v, s, _, _, h⟩ := hr _ _ _ _ _ hm
    rcases h with h | ⟨d, h⟩
    · exact std_not_begin hl.1 (e.trans h)
    · exact std_not_begin hl.1 (e.trans h)
  | .scope :: l, a, hl, hc => by
    have hq : ∀ a t, Quiet u r a [':'] t := by
      intro a t
      refine quiet_one ?_
      rintro m b' e ⟨k, hm⟩
      obtain ⟨_, v, s, _, _, h⟩ := hr _ _ _ _ _ hm
      rcases h with h | ⟨d, h⟩
      · exact std_not_begin (u := u) rfl (e.trans h)
      · exact std_not_begin (u := u) rfl (e.trans h)
    rw [vtext_cons, quiet_append]
    refine ⟨?_, quiet_std (l := l) hr _ hl hc⟩
    show Quiet u r a ([':'] ++ [':']) _
    rw [quiet_append]
    exact ⟨hq _ _, hq _ _⟩
  | .num b s :: l, a, hl, hc => by
    rw [vtext_cons, quiet_append]
    refine ⟨?_, quiet_std hr _ hl.2.2.2.2.2 hc⟩
    intro x c y e m b' e' hm
    obtain ⟨k, hm⟩ := hm
    obtain ⟨_, v, t, _, _, h⟩ := hr _ _ _ _ _ hm
    have hcs : c = 's' := by
      rcases h with h | ⟨d, h⟩
      · exact (List.cons.inj (e'.trans h)).1
      · exact (List.cons.inj (e'.trans h)).1
    have hmem : c ∈ b ++ s := by
      have e2 : b ++ s = x ++ c :: y := e
      rw [e2]
      simp
    rw [hcs] at hmem
    rcases List.mem_append.1 hmem with h | h
    · rcases core_numCh ⟨[], b, .inl rfl, hl.1, rfl⟩ _ h with h | h
      · exact absurd h (by decide)
      · exact absurd h (by decide)
    · exact absurd (hl.2.1 _ h) (by decide)
  | .word w :: l, a, hl, hc => by
    rw [vtext_cons, quiet_append]
    refine ⟨?_, quiet_std hr _ hl.2.2.2 hc.2.2⟩
    have hb := apart_begins hl.2.2.1 hl.2.2.2
    obtain ⟨x, y, rfl⟩ : ∃ x y, w = x :: y := List.exists_cons_of_ne_nil hl.1.1
    show Quiet u r a (x :: y) _
    rw [quiet_cons]
    refine ⟨?_, quiet_inside_of (fun a m b k k' h => (hr a m b k k' h).1) y _ (ends_concat.2 (hl.1.2 x (by simp))) (fun z hz => hl.1.2 z (by simp [hz]))⟩
    rintro m b' e ⟨k, hm⟩
    obtain ⟨_, v, s, hv, hs, h⟩ := hr _ _ _ _ _ hm
    rw [List.append_nil] at e
    have hid : Ident u v := by
      rcases hv with rfl | rfl
      · exact nulloptIdent u
      · exact stringIdent u
    have colon : x :: y = "std".toList → ∀ d, vtext l ≠ d :: (v ++ s) := by
      intro hw d e2
      match l, hl, hc, e2 with
      | [], _, _, e2 => cases e2
      | .word z :: l, hl, _, _ => exact hl.2.2.1.1 z l rfl
      | .num b s :: l, hl, _, _ => exact hl.2.2.1.2 b s l rfl
      | .sep c :: l, hl, hc, e2 =>
        have e3 : vtext l = v ++ s := (List.cons.inj e2).2
        obtain ⟨m', rfl⟩ := first_word hv hs hl.2.2.2.2.2 e3
        have := hc.2.1 hw (.sep c) v m' rfl
        rcases hv with rfl | rfl
        · exact this.1 rfl
        · exact this.2 rfl
      | .scope :: l, hl, hc, e2 =>
        have e3 : ':' :: vtext l = v ++ s := (List.cons.inj e2).2
        obtain ⟨p, q, rfl⟩ : ∃ x y, v = x :: y := List.exists_cons_of_ne_nil hid.1
        have h1 := hid.2 p (by simp)
        have h2 : ':' = p := (List.cons.inj e3).1
        rw [← h2] at h1
        cases h1
    rcases h with h | ⟨d, h⟩
    · -- `::`
      have e2 : (x :: y) ++ vtext l = "std".toList ++ ("::".toList ++ (v ++ s)) := e.trans h
      obtain ⟨h1, h2⟩ := word_prefix_unique hl.1.2 (stdIdent u).2 hb (by
        show ¬ BeginsWithWord u (':' :: (':' :: (v ++ s)))
        rw [begins_cons]
        exact fun h => by cases h) e2
      have h3 : vtext l = ':' :: (':' :: (v ++ s)) := h2
      match l, hl, hc, h3 with
      | [], _, _, h3 => cases h3
      | .word z :: l, hl, _, _ => exact hl.2.2.1.1 z l rfl
      | .num b s :: l, hl, _, _ => exact hl.2.2.1.2 b s l rfl
      | .sep c :: l, hl, hc, h3 =>
        have hc1 : c = ':' := (List.cons.inj h3).1
        have h4 : vtext l = ':' :: (v ++ s) := (List.cons.inj h3).2
        have h5 := hl.2.2.2.2.1 hc1
        match l, hl, h4, h5 with
        | [], _, h4, _ => cases h4
        | .word z :: l, hl, h4, _ =>
          obtain ⟨p, q, hz⟩ : ∃ x y, z = x :: y := List.exists_cons_of_ne_nil hl.2.2.2.2.2.1.1
          have h6 := hl.2.2.2.2.2.1.2 p (by rw [hz]; simp)
          rw [vtext_cons] at h4
          have h7 : z ++ vtext l = ':' :: (v ++ s) := h4
          rw [hz] at h7
          have h8 : p = ':' := (List.cons.inj h7).1
          rw [h8] at h6
          cases h6
        | .num b s' :: l, hl, h4, _ =>
          obtain ⟨c', t, hb, hc'⟩ := body_head hl.2.2.2.2.2.1
          rw [vtext_cons] at h4
          have h7 : (b ++ s') ++ vtext l = ':' :: (v ++ s) := h4
          rw [hb] at h7
          have h8 : c' = ':' := (List.cons.inj h7).1
          rw [h8] at hc'
          cases hc'
        | .sep c' :: l, _, h4, h5 =>
          have h8 : c' = ':' := (List.cons.inj h4).1
          exact (h5 l).1 (by rw [h8])
        | .scope :: l, _, _, h5 => exact (h5 l).2 rfl
      | .scope :: l, hl, hc, h3 =>
        have h4 : vtext l = v ++ s := (List.cons.inj (List.cons.inj h3).2).2
        obtain ⟨m', rfl⟩ := first_word (l := l) hv hs hl.2.2.2 h4
        have := hc.2.1 h1 .scope v m' rfl
        rcases hv with rfl | rfl
        · exact this.1 rfl
        · exact this.2 rfl
    · -- one character
      have e2 : (x :: y) ++ vtext l = "std".toList ++ (d :: (v ++ s)) := e.trans h
      by_cases hd : isWordChar u d = true
      · have e3 : (x :: y) ++ vtext l = ("std".toList ++ d :: v) ++ s := by
          rw [e2, List.append_assoc]
          rfl
        obtain ⟨h1, h2⟩ := word_prefix_unique hl.1.2 (by
          intro c hcm
          rcases List.mem_append.1 hcm with hcm | hcm
          · exact (stdIdent u).2 c hcm
          rcases List.mem_cons.1 hcm with rfl | hcm
          · exact hd
          · exact hid.2 c hcm) hb hs e3
        rcases hv with rfl | rfl
        · exact hc.1.2.1 d h1
        · exact hc.1.2.2 d h1
      · obtain ⟨h1, h2⟩ := word_prefix_unique hl.1.2 (stdIdent u).2 hb (by rw [begins_cons]; exact hd) e2
        exact colon h1 d h2

end Verif.Re
