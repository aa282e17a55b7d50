import Verif.Re.ValuePass
import Verif.Repl.Lemmas

/-! All the rules of the values. -/

namespace Verif.Re
open Verif.Py Spec Verif.Inst Verif.Inst.Spec
open Verif.Scope (isWordChar)

/-- White space is in no word. -/
def SpaceApart (u : Char → Bool) : Prop := ∀ c, isSpace c = true → isWordChar u c = false

theorem matches_star_space {u : Char → Bool} {g : Bool} {a m b : Str} {k k' : List (Nat × Str)} (h : Matches u (.star g reS) a m b k k') :
    (∀ c ∈ m, isSpace c = true) ∧ k' = k := by
  generalize hr : Re.star g reS = r at h
  induction h with
  | starNil => exact ⟨by simp, rfl⟩
  | starCons g r a m m' b k k1 k2 _ h1 _ _ ih =>
    obtain ⟨rfl, rfl⟩ := Re.star.inj hr
    obtain ⟨c, hc, rfl, rfl⟩ := matches_set h1
    obtain ⟨h3, rfl⟩ := ih rfl
    refine ⟨?_, rfl⟩
    intro x hx
    rcases List.mem_append.1 hx with hx | hx
    · rw [List.mem_singleton.1 hx]
      obtain ⟨i, hi, hc⟩ := hc
      rw [List.mem_singleton.1 hi] at hc
      simpa [Item.has] using hc
    · exact h3 x hx
  | _ => cases hr

theorem stops_space {u : Char → Bool} (hu : SpaceApart u) {r : Re} (hr : ∀ a m b k k', Matches u r a m b k k' → ¬ BeginsWithWord u (m ++ b)) :
    Stops u (.seq reS0 r) := by
  intro a m b k k' _ h
  obtain ⟨m1, m2, k1, rfl, h1, h2⟩ := matches_seq h
  obtain ⟨hm, rfl⟩ := matches_star_space h1
  cases m1 with
  | nil => exact hr _ _ _ _ _ h2
  | cons c m1 =>
    rw [List.cons_append, List.cons_append, begins_cons, hu c (hm c (by simp))]
    simp

theorem chr_begins {u : Char → Bool} {c : Char} (hc : isWordChar u c = false) (r : Re) : ∀ a m b k k', Matches u (.seq (.chr c) r) a m b k k' →
    ¬ BeginsWithWord u (m ++ b) := by
  intro a m b k k' h
  obtain ⟨m1, m2, k1, rfl, h1, _⟩ := matches_seq h
  obtain ⟨rfl, _⟩ := matches_chr h1
  rw [List.cons_append, List.cons_append, begins_cons, hc]
  simp

theorem voidIdent (u : Char → Bool) : Ident u "void".toList := ident_of (by decide) (by decide)

/-- The words of a text of pieces. -/
theorem words_vtext {u : Char → Bool} {w : Str} (hw : ∃ c ∈ w, ¬ AnyNum c) : ∀ {l : List VTok}, Lexed u l → .word w ∈ cut u (vtext l) → .word w ∈ l
  | [], _, h => by cases h
  | .word x :: l, hl, h => by
    have hb := cut_begins (apart_begins hl.2.2.1 hl.2.2.2)
    have e : cut u (vtext (.word x :: l)) = .word x :: cut u (vtext l) := cut_word hb _ rfl x hl.1.1 hl.1.2
    rw [e] at h
    rcases List.mem_cons.1 h with h | h
    · rw [Piece.word.inj h]; simp
    · exact List.mem_cons_of_mem _ (words_vtext hw hl.2.2.2 h)
  | .num b s :: l, hl, h => by
    have e : cut u (vtext (.num b s :: l)) = cut u (b ++ s) ++ cut u (vtext l) := cut_append_begins (apart_begins hl.2.2.1 hl.2.2.2.2.2) _
    rw [e] at h
    rcases List.mem_append.1 h with h | h
    · exfalso
      obtain ⟨c, hc, hn⟩ := hw
      rcases List.mem_append.1 (mem_cut h c hc) with h | h
      · exact hn (.inl (core_numCh ⟨[], b, .inl rfl, hl.1, rfl⟩ c h))
      · exact hn (.inr (hl.2.1 c h))
    · exact List.mem_cons_of_mem _ (words_vtext hw hl.2.2.2.2.2 h)
  | .scope :: l, hl, h => by
    have hc : isWordChar u ':' = false := rfl
    have e : cut u (vtext (.scope :: l)) = .sep ':' :: .sep ':' :: cut u (vtext l) := by
      show cut u (':' :: ':' :: vtext l) = _
      rw [cut, if_neg (by rw [hc]; simp), cut, if_neg (by rw [hc]; simp)]
    rw [e] at h
    exact List.mem_cons_of_mem _ (words_vtext (l := l) hw hl (by simpa using h))
  | .sep c :: l, hl, h => by
    have e : cut u (vtext (.sep c :: l)) = .sep c :: cut u (vtext l) := by
      show cut u (c :: vtext l) = _
      rw [cut, if_neg (by rw [hl.1]; simp)]
    rw [e] at h
    exact List.mem_cons_of_mem _ (words_vtext (l := l) hw hl.2.2 (by simpa using h))

theorem calm_word : ∀ {l : List VTok}, Calm l → .word "void".toList ∉ l
  | [], _, h => by cases h
  | .word w :: l, hl, h => by
    rcases List.mem_cons.1 h with h | h
    · exact hl.1.1 (VTok.word.inj h).symm
    · exact calm_word hl.2.2 h
  | .num b s :: l, hl, h => by
    rcases List.mem_cons.1 h with h | h
    · cases h
    · exact calm_word (l := l) hl h
  | .scope :: l, hl, h => by
    rcases List.mem_cons.1 h with h | h
    · cases h
    · exact calm_word (l := l) hl h
  | .sep c :: l, hl, h => by
    rcases List.mem_cons.1 h with h | h
    · cases h
    · exact calm_word (l := l) hl.2 h

/-- A rule for a word that does not occur. -/
theorem sub_absent {u : Char → Bool} {h : Str} (hh : Ident u h) {r : Re} (hr : Headed u h r) (hn : NeverEmpty u r) (hw : ∃ c ∈ h, ¬ AnyNum c)
    (tmpl : List Tok) {l : List VTok} (hl : Lexed u l) (hm : .word h ∉ l) : sub u r tmpl (vtext l) = vtext l := by
  refine sub_quiet tmpl hn ?_
  have := quiet_pieces hh hr (l := cut u (vtext l)) [] [] (cut_spec u _).1 (fun h' => hm (words_vtext hw hl h')) (by rintro ⟨c, hc, _⟩; cases hc)
  rwa [(cut_spec u _).2] at this

theorem not_anyNum {c : Char} (h1 : isDigit c = false) (h2 : c ∉ ".eE+-".toList) (h3 : c ∉ "uUlLzZfFdD".toList) : ¬ AnyNum c := by
  rintro ((h | h) | h)
  · rw [h1] at h; cases h
  · exact h2 h
  · exact h3 h

/-- The separators of digits. -/
theorem sub_reSep {u : Char → Bool} (tmpl : List Tok) {s : Str} (h : '\'' ∉ s) : sub u reSep tmpl s = s := by
  have key : ∀ {a m b : Str} {k k' : List (Nat × Str)}, Matches u reSep a m b k k' → '\'' ∈ m := by
    intro a m b k k' hm
    obtain ⟨m1, m2, k1, rfl, h1, h2⟩ := matches_seq hm
    obtain ⟨m3, m4, k2, rfl, h3, h4⟩ := matches_seq h2
    obtain ⟨rfl, _⟩ := matches_chr h3
    simp
  refine sub_quiet tmpl ?_ ?_
  · rintro a b ⟨k, hm⟩
    cases key hm
  · rintro x c y rfl m b' e ⟨k, hm⟩
    apply h
    have h1 : '\'' ∈ c :: y ++ [] := by rw [e]; exact List.mem_append_left _ (key hm)
    rw [List.append_nil] at h1
    exact List.mem_append_right _ h1

/-- `::` -/
def VTok.dot : VTok → VTok
  | .scope => .sep '.'
  | t => t

theorem scope_fits {u : Char → Bool} {a m b : Str} {k k' : List (Nat × Str)} (h : Matches u (lits "::".toList .eps) a m b k k') : m = "::".toList := by
  obtain ⟨m', rfl, h1⟩ := matches_lits _ h
  obtain ⟨rfl, _⟩ := matches_eps h1
  rfl

theorem quiet_no_colon {u : Char → Bool} {w : Str} (h : ':' ∉ w) (a b : Str) : Quiet u (lits "::".toList .eps) a w b := by
  rintro x c y rfl m b' e ⟨k, hm⟩
  have h1 := scope_fits hm
  rw [h1] at e
  have : c = ':' := (List.cons.inj e).1
  exact h (by rw [this]; simp)

theorem scan_scope {u : Char → Bool} : ∀ {l : List VTok} (a : Str), Lexed u l →
    scan u (lits "::".toList .eps) (litTmpl ".".toList) a.getLast? 0 (vtext l) = vtext (l.map VTok.dot)
  | [], a, _ => scan_nil _ (matchAt_nil (by
      rintro a b ⟨k, h⟩
      cases scope_fits h) a)
  | .word w :: l, a, hl => by
    have hw : ':' ∉ w := fun h => by cases hl.1.2 _ h
    rw [vtext_cons, List.map_cons, vtext_cons]
    show scan _ _ _ _ _ (w ++ vtext l) = w ++ _
    rw [scan_quiet _ _ (quiet_no_colon hw a _), scan_scope _ hl.2.2.2]
  | .num b s :: l, a, hl => by
    have hw : ':' ∉ b ++ s := by
      intro h
      rcases List.mem_append.1 h with h | h
      · rcases core_numCh ⟨[], b, .inl rfl, hl.1, rfl⟩ _ h with h | h
        · exact absurd h (by decide)
        · exact absurd h (by decide)
      · exact absurd (hl.2.1 _ h) (by decide)
    rw [vtext_cons, List.map_cons, vtext_cons]
    show scan _ _ _ _ _ ((b ++ s) ++ vtext l) = (b ++ s) ++ _
    rw [scan_quiet _ _ (quiet_no_colon hw a _), scan_scope _ hl.2.2.2.2.2]
  | .scope :: l, a, hl => by
    have hm : Matches u (lits "::".toList .eps) a "::".toList (vtext l) [] [] :=
      .seq _ _ _ [':'] [':'] _ _ _ _ (.chr _ _ _ _) (.seq _ _ _ [':'] [] _ _ _ _ (.chr _ _ _ _) (.eps _ _ _))
    rw [vtext_cons, List.map_cons, vtext_cons]
    show scan _ _ _ _ _ ("::".toList ++ vtext l) = ".".toList ++ _
    cases h : matchAt u (lits "::".toList .eps) a.getLast? ("::".toList ++ vtext l) with
    | none =>
      rw [matchAt_none_iff] at h
      exact absurd ⟨_, hm⟩ (h _ _ rfl)
    | some x =>
      obtain ⟨m, e1, _, e3⟩ := matchAt_some h
      have e4 := scope_fits e3
      rw [e4] at e1
      rw [scan_hit _ (by decide) h (List.append_cancel_left e1).symm, expand_litTmpl, scan_scope (l := l) _ hl]
  | .sep c :: l, a, hl => by
    have hq : Quiet u (lits "::".toList .eps) a [c] (vtext l) := by
      refine quiet_one ?_
      rintro m b' e ⟨k, hm⟩
      have h1 := scope_fits hm
      rw [h1] at e
      have hc : c = ':' := (List.cons.inj e).1
      have e2 : vtext l = ':' :: b' := (List.cons.inj e).2
      have h5 := hl.2.1 hc
      match l, hl, e2, h5 with
      | [], _, e2, _ => cases e2
      | .word z :: l, hl, e2, _ =>
        obtain ⟨p, q, hz⟩ : ∃ x y, z = x :: y := List.exists_cons_of_ne_nil hl.2.2.1.1
        have h6 := hl.2.2.1.2 p (by rw [hz]; simp)
        rw [vtext_cons] at e2
        have h7 : z ++ vtext l = ':' :: b' := e2
        rw [hz] at h7
        have h8 : p = ':' := (List.cons.inj h7).1
        rw [h8] at h6
        cases h6
      | .num b s' :: l, hl, e2, _ =>
        obtain ⟨c', t, hb, hc'⟩ := body_head hl.2.2.1
        rw [vtext_cons] at e2
        have h7 : (b ++ s') ++ vtext l = ':' :: b' := e2
        rw [hb] at h7
        have h8 : c' = ':' := (List.cons.inj h7).1
        rw [h8] at hc'
        cases hc'
      | .sep c' :: l, _, e2, h5 =>
        have h8 : c' = ':' := (List.cons.inj e2).1
        exact (h5 l).1 (by rw [h8])
      | .scope :: l, _, _, h5 => exact (h5 l).2 rfl
    rw [vtext_cons, List.map_cons, vtext_cons]
    show scan _ _ _ _ _ ([c] ++ vtext l) = [c] ++ _
    rw [scan_quiet _ _ hq, scan_scope _ hl.2.2]

theorem sub_scope {u : Char → Bool} {l : List VTok} (hl : Lexed u l) :
    sub u (lits "::".toList .eps) (litTmpl ".".toList) (vtext l) = vtext (l.map VTok.dot) := scan_scope [] hl

end Verif.Re
