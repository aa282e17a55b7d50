import Verif.Re.Scan
import Verif.Inst.Lemmas

/-! Expressions that begin with `\b` and a word; the replacement of a word. -/

namespace Verif.Re
open Verif.Py Spec Verif.Inst Verif.Inst.Spec
open Verif.Scope (isWordChar)

/-- The characters of `w`, and then `k`. -/
def lits (w : Str) (k : Re) : Re := w.foldr (fun c r => .seq (.chr c) r) k

theorem lits_nil (k : Re) : lits [] k = k := rfl
theorem lits_cons (c : Char) (w : Str) (k : Re) : lits (c :: w) k = .seq (.chr c) (lits w k) := rfl

theorem matches_chr {u : Char → Bool} {c : Char} {a m b : Str} {k k' : List (Nat × Str)} (h : Matches u (.chr c) a m b k k') : m = [c] ∧ k' = k := by
  cases h; exact ⟨rfl, rfl⟩

theorem matches_seq {u : Char → Bool} {r q : Re} {a m b : Str} {k k' : List (Nat × Str)} (h : Matches u (.seq r q) a m b k k') :
    ∃ m1 m2 k1, m = m1 ++ m2 ∧ Matches u r a m1 (m2 ++ b) k k1 ∧ Matches u q (a ++ m1) m2 b k1 k' := by
  cases h with
  | seq _ _ _ m m' _ _ k1 _ h1 h2 => exact ⟨m, m', k1, rfl, h1, h2⟩

theorem matches_wordB {u : Char → Bool} {a m b : Str} {k k' : List (Nat × Str)} (h : Matches u .wordB a m b k k') :
    m = [] ∧ k' = k ∧ ¬ (EndsInWord u a ↔ BeginsWithWord u b) := by
  cases h with
  | wordB _ _ _ h => exact ⟨rfl, rfl, h⟩

theorem matches_lits {u : Char → Bool} (w : Str) {r : Re} : ∀ {a m b : Str} {k k' : List (Nat × Str)}, Matches u (lits w r) a m b k k' →
    ∃ m', m = w ++ m' ∧ Matches u r (a ++ w) m' b k k' := by
  induction w with
  | nil => intro a m b k k' h; exact ⟨m, rfl, by rw [List.append_nil]; exact h⟩
  | cons c w ih =>
    intro a m b k k' h
    obtain ⟨m1, m2, k1, rfl, h1, h2⟩ := matches_seq h
    obtain ⟨rfl, rfl⟩ := matches_chr h1
    obtain ⟨m', rfl, h3⟩ := ih h2
    refine ⟨m', rfl, ?_⟩
    rw [List.append_assoc] at h3
    exact h3

theorem run_lits {u : Char → Bool} {r : Re} (w : Str) : ∀ (a s : Str) (k : List (Nat × Str)),
    run u (lits w r) ⟨a.getLast?, w ++ s, k⟩ = run u r ⟨(a ++ w).getLast?, s, k⟩ := by
  induction w with
  | nil => intro a s k; simp [lits_nil]
  | cons c w ih =>
    intro a s k
    rw [lits_cons, run, run, List.cons_append, step, if_pos (by simp), List.flatMap_singleton]
    have := ih (a ++ [c]) s k
    rw [getLast?_append_one] at this
    rw [this, List.append_assoc]
    rfl

theorem run_wordB {u : Char → Bool} {r : Re} {a s : Str} {k : List (Nat × Str)} (h : ¬ (EndsInWord u a ↔ BeginsWithWord u s)) :
    run u (.seq .wordB r) ⟨a.getLast?, s, k⟩ = run u r ⟨a.getLast?, s, k⟩ := by
  rw [run, run, if_pos ((boundary_iff u a s k).2 h), List.flatMap_singleton]

/-- What follows the word is not a word character, if the expression is to match. -/
def Stops (u : Char → Bool) (r : Re) : Prop :=
  ∀ a m b k k', EndsInWord u a → Matches u r a m b k k' → ¬ BeginsWithWord u (m ++ b)

theorem stops_wordB (u : Char → Bool) (r : Re) : Stops u (.seq .wordB r) := by
  intro a m b k k' ha h hb
  obtain ⟨m1, m2, k1, rfl, h1, _⟩ := matches_seq h
  obtain ⟨rfl, _, h3⟩ := matches_wordB h1
  exact h3 ⟨fun _ => hb, fun _ => ha⟩

theorem begins_cons {u : Char → Bool} {c : Char} {s : Str} : BeginsWithWord u (c :: s) ↔ isWordChar u c = true := by
  unfold BeginsWithWord
  simp

theorem ends_concat {u : Char → Bool} {c : Char} {s : Str} : EndsInWord u (s ++ [c]) ↔ isWordChar u c = true := by
  unfold EndsInWord
  simp

theorem stops_chr {u : Char → Bool} {c : Char} (hc : isWordChar u c = false) (r : Re) : Stops u (.seq (.chr c) r) := by
  intro a m b k k' _ h hb
  obtain ⟨m1, m2, k1, rfl, h1, _⟩ := matches_seq h
  obtain ⟨rfl, _⟩ := matches_chr h1
  rw [List.cons_append, List.cons_append, begins_cons, hc] at hb
  cases hb

/-- The expression matches only at the beginning of a word that is `h`. -/
def Headed (u : Char → Bool) (h : Str) (r : Re) : Prop :=
  ∀ a m b k k', Matches u r a m b k k' → ¬ EndsInWord u a ∧ ∃ s, m ++ b = h ++ s ∧ ¬ BeginsWithWord u s

theorem ends_append {u : Char → Bool} {a w : Str} (hw : w ≠ []) (h : ∀ c ∈ w, isWordChar u c = true) : EndsInWord u (a ++ w) := by
  obtain ⟨x, c, rfl⟩ : ∃ x c, w = x ++ [c] := ⟨_, _, (List.dropLast_concat_getLast hw).symm⟩
  rw [← List.append_assoc, ends_concat]
  exact h c (by simp)

theorem begins_append {u : Char → Bool} {w s : Str} (hw : w ≠ []) (h : ∀ c ∈ w, isWordChar u c = true) : BeginsWithWord u (w ++ s) := by
  cases w with
  | nil => exact absurd rfl hw
  | cons c w => rw [List.cons_append, begins_cons]; exact h c (by simp)

theorem headed_lits {u : Char → Bool} {h : Str} (hh : Ident u h) {r : Re} (hr : Stops u r) : Headed u h (.seq .wordB (lits h r)) := by
  intro a m b k k' hm
  obtain ⟨m1, m2, k1, rfl, h1, h2⟩ := matches_seq hm
  obtain ⟨rfl, _, h3⟩ := matches_wordB h1
  rw [List.append_nil] at h2
  obtain ⟨m', rfl, h4⟩ := matches_lits h h2
  refine ⟨fun ha => h3 ⟨fun _ => ?_, fun _ => ha⟩, m' ++ b, by simp, hr _ _ _ _ _ (ends_append hh.1 hh.2) h4⟩
  rw [List.append_assoc]
  exact begins_append hh.1 hh.2

theorem neverEmpty_lits {u : Char → Bool} {h : Str} (hh : h ≠ []) (r : Re) : NeverEmpty u (.seq .wordB (lits h r)) := by
  rintro a b ⟨k, hm⟩
  obtain ⟨m1, m2, k1, e, h1, h2⟩ := matches_seq hm
  obtain ⟨rfl, rfl⟩ := List.append_eq_nil_iff.1 e.symm
  obtain ⟨m', e', _⟩ := matches_lits h h2
  exact hh (List.append_eq_nil_iff.1 e'.symm).1

/-- The first word of a text is determined. -/
theorem word_prefix_unique {u : Char → Bool} {v w s t : Str} (hv : ∀ c ∈ v, isWordChar u c = true) (hw : ∀ c ∈ w, isWordChar u c = true)
    (hs : ¬ BeginsWithWord u s) (ht : ¬ BeginsWithWord u t) (e : v ++ s = w ++ t) : v = w ∧ s = t := by
  induction v generalizing w with
  | nil =>
    cases w with
    | nil => exact ⟨rfl, e⟩
    | cons c w =>
      rw [List.nil_append] at e
      rw [e, List.cons_append, begins_cons, hw c (by simp)] at hs
      exact absurd rfl hs
  | cons c v ih =>
    cases w with
    | nil =>
      rw [List.nil_append] at e
      rw [← e, List.cons_append, begins_cons, hv c (by simp)] at ht
      exact absurd rfl ht
    | cons d w =>
      rw [List.cons_append, List.cons_append, List.cons.injEq] at e
      obtain ⟨rfl, e⟩ := e
      obtain ⟨rfl, rfl⟩ := ih (fun x hx => hv x (by simp [hx])) (fun x hx => hw x (by simp [hx])) e
      exact ⟨rfl, rfl⟩

/-- A character that is in no word. -/
theorem quiet_sep {u : Char → Bool} {h : Str} (hh : Ident u h) {r : Re} (hr : Headed u h r) {c : Char} (hc : isWordChar u c = false) (a b : Str) :
    Quiet u r a [c] b := by
  rw [quiet_cons]
  refine ⟨?_, quiet_nil _ _ _ _⟩
  rintro m b' e ⟨k, hm⟩
  obtain ⟨_, s, e', _⟩ := hr _ _ _ _ _ hm
  rw [e'] at e
  cases h with
  | nil => exact hh.1 rfl
  | cons d h =>
    have : c = d := (List.cons.inj e).1
    rw [this, hh.2 d (by simp)] at hc
    cases hc

/-- The rest of a word. -/
theorem quiet_inside {u : Char → Bool} {h : Str} {r : Re} (hr : Headed u h r) (w : Str) : ∀ {a : Str} (b : Str), EndsInWord u a →
    (∀ c ∈ w, isWordChar u c = true) → Quiet u r a w b := by
  induction w with
  | nil => intro a b _ _; exact quiet_nil _ _ _ _
  | cons c w ih =>
    intro a b ha hw
    rw [quiet_cons]
    refine ⟨?_, ih b (ends_concat.2 (hw c (by simp))) (fun x hx => hw x (by simp [hx]))⟩
    rintro m b' _ ⟨k, hm⟩
    exact (hr _ _ _ _ _ hm).1 ha

/-- Another word. -/
theorem quiet_word {u : Char → Bool} {h : Str} (hh : Ident u h) {r : Re} (hr : Headed u h r) {w : Str} (hw : Ident u w) (hne : w ≠ h) (a : Str)
    {b : Str} (hb : ¬ BeginsWithWord u b) : Quiet u r a w b := by
  cases w with
  | nil => exact quiet_nil _ _ _ _
  | cons c w =>
    rw [quiet_cons]
    refine ⟨?_, quiet_inside hr w b (ends_concat.2 (hw.2 c (by simp))) (fun x hx => hw.2 x (by simp [hx]))⟩
    rintro m b' e ⟨k, hm⟩
    obtain ⟨_, s, e', hs⟩ := hr _ _ _ _ _ hm
    rw [e'] at e
    exact hne (word_prefix_unique hw.2 hh.2 hb hs e).1

theorem not_begins_text {u : Char → Bool} {l : List Piece} (hl : ∀ v m, l ≠ .word v :: m) (h : Cut u l) : ¬ BeginsWithWord u (text l) := by
  rw [← any_head_iff, head_text hl h]
  simp

/-- A text in which the word does not occur. -/
theorem quiet_pieces {u : Char → Bool} {h : Str} (hh : Ident u h) {r : Re} (hr : Headed u h r) : ∀ {l : List Piece} (a b : Str), Cut u l →
    .word h ∉ l → ¬ BeginsWithWord u b → Quiet u r a (text l) b
  | [], a, b, _, _, _ => quiet_nil _ _ _ _
  | .sep c :: l, a, b, hl, hn, hb => by
    rw [text_cons, quiet_append]
    exact ⟨quiet_sep hh hr hl.1 _ _, quiet_pieces hh hr _ _ hl.2 (fun h' => hn (by simp [h'])) hb⟩
  | .word w :: l, a, b, hl, hn, hb => by
    rw [text_cons, quiet_append]
    refine ⟨quiet_word hh hr ⟨hl.1, hl.2.1⟩ (fun e => hn (by simp [e])) _ ?_, quiet_pieces hh hr _ _ hl.2.2.2 (fun h' => hn (by simp [h'])) hb⟩
    cases l with
    | nil => exact hb
    | cons p l =>
      cases p with
      | word v => exact absurd rfl (hl.2.2.1 v l)
      | sep d =>
        rw [text_cons]
        show ¬ BeginsWithWord u (d :: (text l ++ b))
        rw [begins_cons, hl.2.2.2.1]
        simp

/-- The replacement of `h` by `v`. -/
structure Renames (u : Char → Bool) (r : Re) (tmpl : List Tok) (h v : Str) : Prop where
  ident : Ident u h
  never : NeverEmpty u r
  headed : Headed u h r
  hit : ∀ a b, ¬ EndsInWord u a → ¬ BeginsWithWord u b → ∃ t, matchAt u r a.getLast? (h ++ b) = some t ∧ t.rest = b ∧ expand t.caps tmpl = v

theorem scan_renames {u : Char → Bool} {r : Re} {tmpl : List Tok} {h v : Str} (hr : Renames u r tmpl h v) : ∀ {l : List Piece} (a : Str), Cut u l →
    (EndsInWord u a → ∀ w m, l ≠ .word w :: m) → scan u r tmpl a.getLast? 0 (text l) = text (l.map (ap (put h v)))
  | [], a, _, _ => scan_nil tmpl (matchAt_nil hr.never a)
  | .sep c :: l, a, hl, _ => by
    rw [text_cons, Piece.text, scan_quiet tmpl _ (quiet_sep hr.ident hr.headed hl.1 a (text l)),
      scan_renames hr _ hl.2 (fun he => by rw [ends_concat, hl.1] at he; cases he), List.map_cons, text_cons]
    rfl
  | .word w :: l, a, hl, ha => by
    have hb := not_begins_text hl.2.2.1 hl.2.2.2
    have ih := fun a => scan_renames hr (l := l) a hl.2.2.2 (fun _ => hl.2.2.1)
    rw [text_cons, List.map_cons, text_cons, Piece.text, ap, Piece.text, put]
    by_cases hw : w = h
    · subst hw
      have hna : ¬ EndsInWord u a := fun he => ha he w l rfl
      obtain ⟨t, h1, h2, h3⟩ := hr.hit a (text l) hna hb
      rw [if_pos rfl, scan_hit tmpl hl.1 h1 h2, h3, ih]
    · rw [if_neg hw, scan_quiet tmpl _ (quiet_word hr.ident hr.headed ⟨hl.1, hl.2.1⟩ hw a hb), ih]

/-- Such a rule renames the word, everywhere in any text. -/
theorem sub_renames {u : Char → Bool} {r : Re} {tmpl : List Tok} {h v : Str} (hr : Renames u r tmpl h v) (s : Str) :
    sub u r tmpl s = ren u (put h v) s := by
  have := scan_renames hr (l := cut u s) [] (cut_spec u s).1 (by rintro ⟨c, hc, _⟩; cases hc)
  rw [(cut_spec u s).2] at this
  exact this

/-- A literal replacement text. -/
def litTmpl (v : Str) : List Tok := v.map .chr

theorem expand_litTmpl (k : List (Nat × Str)) (v : Str) : expand k (litTmpl v) = v := by
  induction v with
  | nil => rfl
  | cons c v ih =>
    show c :: expand k (litTmpl v) = c :: v
    rw [ih]

/-- `\bh\b` -/
def wordRe (h : Str) : Re := .seq .wordB (lits h (.seq .wordB .eps))

theorem renames_wordRe {u : Char → Bool} {h : Str} (hh : Ident u h) (v : Str) : Renames u (wordRe h) (litTmpl v) h v where
  ident := hh
  never := neverEmpty_lits hh.1 _
  headed := headed_lits hh (stops_wordB _ _)
  hit := by
    intro a b ha hb
    refine ⟨⟨(a ++ h).getLast?, b, []⟩, ?_, rfl, expand_litTmpl _ _⟩
    unfold matchAt wordRe
    rw [run_wordB (fun e => ha (e.2 (begins_append hh.1 hh.2))), run_lits, run_wordB (fun e => hb (e.1 (ends_append hh.1 hh.2))), run]
    rfl

end Verif.Re
