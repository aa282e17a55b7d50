import Verif.Re.ValueAll

/-! Rules that replace a phrase: some words with what is between them. -/

namespace Verif.Re
open Verif.Py Spec Verif.Inst Verif.Inst.Spec
open Verif.Scope (isWordChar)

/-- No white space comes after white space. -/
def Single (s : Str) : Prop := ∀ x c d y, s = x ++ c :: d :: y → isSpace c = true → isSpace d = false

theorem single_append {x s : Str} (h : Single (x ++ s)) : Single s := by
  rintro y c d z rfl hc
  exact h (x ++ y) c d z (by simp) hc

/-- The matches are the phrase, as whole words. -/
structure Phrase (u : Char → Bool) (r : Re) (tmpl : List Tok) (p v : Str) : Prop where
  never : NeverEmpty u r
  first : BeginsWithWord u p
  sound : ∀ a m b k k', Matches u r a m b k k' → Single (m ++ b) → ¬ EndsInWord u a ∧ m = p ∧ ¬ BeginsWithWord u b
  hit : ∀ a b, ¬ EndsInWord u a → ¬ BeginsWithWord u b → ∃ t, matchAt u r a.getLast? (p ++ b) = some t ∧ t.rest = b ∧ expand t.caps tmpl = v

theorem begins_append' {u : Char → Bool} {p s : Str} (h : BeginsWithWord u p) : BeginsWithWord u (p ++ s) := by
  cases p with
  | nil => obtain ⟨c, hc, _⟩ := h; cases hc
  | cons c p =>
    rw [begins_cons] at h
    rw [List.cons_append, begins_cons]
    exact h

theorem ends_append' {u : Char → Bool} {a p : Str} (h : EndsInWord u p) : EndsInWord u (a ++ p) := by
  obtain ⟨c, hc, hw⟩ := h
  refine ⟨c, ?_, hw⟩
  rw [List.getLast?_append, hc]
  rfl

theorem begins_ne {u : Char → Bool} {p : Str} (h : BeginsWithWord u p) : p ≠ [] := by
  rintro rfl
  obtain ⟨c, hc, _⟩ := h
  cases hc

/-- `\bp\b` -/
theorem phrase_wordRe {u : Char → Bool} {p : Str} (h1 : BeginsWithWord u p) (h2 : EndsInWord u p) (v : Str) : Phrase u (wordRe p) (litTmpl v) p v where
  never := neverEmpty_lits (begins_ne h1) _
  first := h1
  sound := by
    intro a m b k k' h _
    obtain ⟨m1, m2, k1, rfl, e1, e2⟩ := matches_seq h
    obtain ⟨rfl, _, hb⟩ := matches_wordB e1
    rw [List.append_nil] at e2
    obtain ⟨m3, rfl, e3⟩ := matches_lits _ e2
    obtain ⟨m4, m5, k2, rfl, e4, e5⟩ := matches_seq e3
    obtain ⟨rfl, _, hc⟩ := matches_wordB e4
    obtain ⟨rfl, _⟩ := matches_eps e5
    refine ⟨fun ha => hb ⟨fun _ => ?_, fun _ => ha⟩, by simp, fun hb' => hc ⟨fun _ => hb', fun _ => ends_append' h2⟩⟩
    rw [List.append_assoc]
    exact begins_append' h1
  hit := by
    intro a b ha hb
    refine ⟨⟨(a ++ p).getLast?, b, []⟩, ?_, rfl, expand_litTmpl _ _⟩
    unfold matchAt wordRe
    rw [run_wordB (fun e => ha (e.2 (begins_append' h1))), run_lits, run_wordB (fun e => hb (e.1 (ends_append' h2))), run]
    rfl

theorem iter_stop {g : Bool} {f : St → List St} {st : St} (h : f st = []) : ∀ n, iter g f n st = [st]
  | 0 => rfl
  | n + 1 => by
    rw [iter, h]
    cases g <;> rfl

/-- `\s*` at a place without white space. -/
theorem run_space_stop {u : Char → Bool} {r : Re} {st : St} (h : ∀ c s, st.rest = c :: s → isSpace c = false) :
    run u (.seq reS0 r) st = run u r st := by
  rw [run, reS0, run, iter_stop, List.flatMap_singleton]
  obtain ⟨p, s, k⟩ := st
  cases s with
  | nil => rfl
  | cons c s =>
    have hc := h c s rfl
    rw [reS, run, step]
    simp [Item.has, hc]

/-- `\bA \s*B\b` -/
def twoRe (A B : Str) : Re := .seq .wordB (lits A (.seq (.chr ' ') (.seq reS0 (lits B (.seq .wordB .eps)))))

theorem isSpace_blank : isSpace ' ' = true := by decide

theorem phrase_twoRe {u : Char → Bool} (hu : SpaceApart u) {A B : Str} (h1 : BeginsWithWord u A) (h2 : BeginsWithWord u B) (h3 : EndsInWord u B) (v : Str) :
    Phrase u (twoRe A B) (litTmpl v) (A ++ ' ' :: B) v where
  never := neverEmpty_lits (begins_ne h1) _
  first := begins_append' h1
  sound := by
    intro a m b k k' h hs
    obtain ⟨m1, m2, k1, rfl, e1, e2⟩ := matches_seq h
    obtain ⟨rfl, _, hb⟩ := matches_wordB e1
    rw [List.append_nil] at e2
    obtain ⟨m3, rfl, e3⟩ := matches_lits _ e2
    obtain ⟨m4, m5, k2, rfl, e4, e5⟩ := matches_seq e3
    obtain ⟨rfl, _⟩ := matches_chr e4
    obtain ⟨m6, m7, k3, rfl, e6, e7⟩ := matches_seq e5
    obtain ⟨hm6, _⟩ := matches_star_space e6
    obtain ⟨m8, rfl, e8⟩ := matches_lits _ e7
    obtain ⟨m9, m10, k4, rfl, e9, e10⟩ := matches_seq e8
    obtain ⟨rfl, _, hc⟩ := matches_wordB e9
    obtain ⟨rfl, _⟩ := matches_eps e10
    have hm : m6 = [] := by
      cases m6 with
      | nil => rfl
      | cons c m6 =>
        have := hs A ' ' c (m6 ++ (B ++ b)) (by simp) isSpace_blank
        rw [hm6 c (by simp)] at this
        cases this
    subst hm
    refine ⟨fun ha => hb ⟨fun _ => ?_, fun _ => ha⟩, by simp, fun hb' => hc ⟨fun _ => hb', fun _ => ends_append' h3⟩⟩
    rw [List.append_assoc]
    exact begins_append' h1
  hit := by
    intro a b ha hb
    refine ⟨⟨((a ++ A) ++ [' '] ++ B).getLast?, b, []⟩, ?_, rfl, expand_litTmpl _ _⟩
    unfold matchAt twoRe
    have e : A ++ ' ' :: B ++ b = A ++ (' ' :: (B ++ b)) := by simp
    have hB : ∀ c s, B ++ b = c :: s → isSpace c = false := by
      intro c s e
      cases B with
      | nil => exact absurd rfl (begins_ne h2)
      | cons d B =>
        rw [begins_cons] at h2
        have : d = c := (List.cons.inj e).1
        rw [this] at h2
        cases hsp : isSpace c with
        | false => rfl
        | true => rw [hu c hsp] at h2; cases h2
    rw [e, run_wordB (fun e => ha (e.2 (begins_append' h1))), run_lits, run, run, step, if_pos (by simp), List.flatMap_singleton, run_space_stop hB]
    have e3 : some ' ' = ((a ++ A) ++ [' ']).getLast? := by rw [getLast?_append_one]
    rw [e3, run_lits, run_wordB (fun e => hb (e.1 (ends_append' h3))), run]
    rfl

/-- The pieces are replaced, from left to right; the number is the one of the pieces still to skip. -/
def replP (lp : List Piece) (v : Str) : Nat → List Piece → List Piece
  | _, [] => []
  | k + 1, _ :: l => replP lp v k l
  | 0, t :: l => if lp <+: t :: l then .word v :: replP lp v (lp.length - 1) l else t :: replP lp v 0 l

theorem replP_skip (lp : List Piece) (v : Str) (x : List Piece) : ∀ l, replP lp v x.length (x ++ l) = replP lp v 0 l := by
  induction x with
  | nil => intro l; rfl
  | cons t x ih => intro l; rw [List.cons_append, List.length_cons, replP]; exact ih l

theorem cut_suffix {u : Char → Bool} : ∀ {x l : List Piece}, Cut u (x ++ l) → Cut u l
  | [], _, h => h
  | .sep _ :: _, _, h => cut_suffix h.2
  | .word _ :: _, _, h => cut_suffix h.2.2.2

/-- After pieces that end with a word no word comes. -/
theorem cut_after {u : Char → Bool} {w : Str} : ∀ {x l : List Piece}, Cut u (x ++ .word w :: l) → ∀ v m, l ≠ .word v :: m
  | [], _, h => h.2.2.1
  | .sep _ :: _, _, h => cut_after h.2
  | .word _ :: _, _, h => cut_after h.2.2.2

theorem scan_phrase {u : Char → Bool} {r : Re} {tmpl : List Tok} {p v : Str} (hp : Phrase u r tmpl p v) {lq : List Piece} {w : Str}
    (hq : cut u p = lq ++ [.word w]) (n : Nat) :
    ∀ {l : List Piece} (a : Str), l.length = n → Cut u l → Single (text l) → (EndsInWord u a → ∀ w m, l ≠ .word w :: m) →
      scan u r tmpl a.getLast? 0 (text l) = text (replP (cut u p) v 0 l) := by
  induction n using Nat.strongRecOn with
  | _ n ih =>
    intro l a hn hl hs ha
    have htp : text (cut u p) = p := (cut_spec u p).2
    match l, hn, hl, hs, ha with
    | [], _, _, _, _ => exact scan_nil tmpl (matchAt_nil hp.never a)
    | .sep c :: l, hn, hl, hs, _ =>
      have hnp : ¬ cut u p <+: .sep c :: l := by
        rintro ⟨t, e⟩
        have h1 := hp.first
        rw [← htp] at h1
        have h2 : BeginsWithWord u (text (cut u p ++ t)) := by rw [text_append]; exact begins_append' h1
        rw [e, text_cons] at h2
        have h3 : BeginsWithWord u (c :: text l) := h2
        rw [begins_cons, hl.1] at h3
        cases h3
      have hq1 : Quiet u r a [c] (text l) := by
        refine quiet_one ?_
        rintro m b' e ⟨k, hm⟩
        have hs' : Single (m ++ b') := by rw [← e]; exact hs
        obtain ⟨_, rfl, _⟩ := hp.sound _ _ _ _ _ hm hs'
        have h3 : BeginsWithWord u (c :: text l) := by
          have e2 : c :: text l = m ++ b' := e
          rw [e2]; exact begins_append' hp.first
        rw [begins_cons, hl.1] at h3
        cases h3
      rw [replP, if_neg hnp, text_cons, text_cons]
      show scan u r tmpl a.getLast? 0 ([c] ++ text l) = [c] ++ _
      rw [scan_quiet tmpl _ hq1, ih l.length (by rw [← hn]; simp) _ rfl hl.2 (single_append (x := [c]) hs) (fun he => by
        rw [ends_concat, hl.1] at he; cases he)]
    | .word x :: l, hn, hl, hs, ha =>
      have hna : ¬ EndsInWord u a := fun he => ha he x l rfl
      by_cases hpre : cut u p <+: .word x :: l
      · obtain ⟨t, e⟩ := hpre
        have ht : ∀ z m, t ≠ .word z :: m := by
          have : Cut u (lq ++ .word w :: t) := by
            have e2 : lq ++ .word w :: t = .word x :: l := by
              rw [← e, hq, List.append_assoc]; rfl
            rw [e2]; exact hl
          exact cut_after this
        have hct : Cut u t := by
          have : Cut u (cut u p ++ t) := by rw [e]; exact hl
          exact cut_suffix this
        have hb := not_begins_text ht hct
        obtain ⟨t1, h1, h2, h3⟩ := hp.hit a (text t) hna hb
        have et : text (.word x :: l) = p ++ text t := by rw [← e, text_append, htp]
        have hlen : t.length < n := by
          rw [← hn, ← e, List.length_append, hq]
          simp only [List.length_append, List.length_singleton]
          omega
        have e4 : replP (cut u p) v 0 (.word x :: l) = .word v :: replP (cut u p) v 0 t := by
          rw [replP, if_pos ⟨t, e⟩]
          congr 1
          cases hcp : cut u p with
          | nil => rw [hcp] at hq; simp at hq
          | cons y z =>
            rw [hcp] at e
            have : l = z ++ t := ((List.cons.inj e).2).symm
            rw [this, List.length_cons, Nat.add_sub_cancel, replP_skip]
        rw [et, scan_hit tmpl (begins_ne hp.first) h1 h2, h3, e4, text_cons]
        rw [ih t.length hlen _ rfl hct (by rw [et] at hs; exact single_append hs) (fun _ => ht)]
        rfl
      · have hx : Quiet u r a x (text l) := by
          obtain ⟨c, y, rfl⟩ : ∃ c y, x = c :: y := List.exists_cons_of_ne_nil hl.1
          rw [quiet_cons]
          refine ⟨?_, ?_⟩
          · rintro m b' e ⟨k, hm⟩
            have hs' : Single (m ++ b') := by rw [← e]; exact hs
            obtain ⟨_, rfl, hb⟩ := hp.sound _ _ _ _ _ hm hs'
            apply hpre
            have e2 : cut u (text (.word (c :: y) :: l)) = cut u (m ++ b') := by rw [← e]; rfl
            rw [cut_text hl, cut_append_begins hb] at e2
            exact ⟨_, e2.symm⟩
          · intro x1 d x2 e m b' e' hf
            obtain ⟨k, hm⟩ := hf
            have hs' : Single (m ++ b') := by
              rw [← e']
              have hs2 : Single ((c :: x1) ++ (d :: x2 ++ text l)) := by
                have e5 : (c :: x1) ++ (d :: x2 ++ text l) = text (.word (c :: y) :: l) := by
                  rw [text_cons, Piece.text, e]; simp
                rw [e5]; exact hs
              exact single_append hs2
            obtain ⟨h1, _, _⟩ := hp.sound _ _ _ _ _ hm hs'
            apply h1
            have : a ++ [c] ++ x1 = a ++ (c :: x1) := by simp
            rw [this]
            refine ends_append (by simp) (fun z hz => hl.2.1 z ?_)
            rw [e]
            rcases List.mem_cons.1 hz with rfl | hz
            · simp
            · simp [hz]
        rw [replP, if_neg hpre, text_cons, text_cons]
        show scan u r tmpl a.getLast? 0 (x ++ text l) = x ++ _
        have hs2 : Single (x ++ text l) := hs
        rw [scan_quiet tmpl _ hx, ih l.length (by rw [← hn]; simp) _ rfl hl.2.2.2 (single_append hs2) (fun _ => hl.2.2.1)]

/-- A rule for a phrase, in a text. -/
theorem sub_phrase {u : Char → Bool} {r : Re} {tmpl : List Tok} {p v : Str} (hp : Phrase u r tmpl p v) {lq : List Piece} {w : Str}
    (hq : cut u p = lq ++ [.word w]) {l : List Piece} (hl : Cut u l) (hs : Single (text l)) :
    sub u r tmpl (text l) = text (replP (cut u p) v 0 l) :=
  scan_phrase hp hq l.length [] rfl hl hs (by rintro ⟨c, hc, _⟩; cases hc)

end Verif.Re
