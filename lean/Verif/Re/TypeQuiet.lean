import Verif.Re.TypeTok

/-! Rules of the types that find nothing. -/

namespace Verif.Re
open Verif.Py Spec Verif.Inst Verif.Inst.Spec
open Verif.Scope (isWordChar)

/-! ### A character that every match has -/

def needs (c : Char) : Re → Bool
  | .chr d => decide (d = c)
  | .group _ r => needs c r
  | .seq a b => needs c a || needs c b
  | _ => false

theorem needs_mem {u : Char → Bool} {c : Char} (r : Re) : ∀ {a m b : Str} {k k' : List (Nat × Str)}, needs c r = true → Matches u r a m b k k' → c ∈ m := by
  induction r with
  | chr d =>
    intro a m b k k' h hm
    obtain ⟨rfl, _⟩ := matches_chr hm
    have := of_decide_eq_true h
    simp [this]
  | group n r ih =>
    intro a m b k k' h hm
    cases hm with
    | group _ _ _ _ _ _ _ hm => exact ih h hm
  | seq p q ih1 ih2 =>
    intro a m b k k' h hm
    obtain ⟨m1, m2, k1, rfl, h1, h2⟩ := matches_seq hm
    rw [needs, Bool.or_eq_true] at h
    rcases h with h | h
    · exact List.mem_append_left _ (ih1 h h1)
    · exact List.mem_append_right _ (ih2 h h2)
  | _ => intro a m b k k' h; cases h

theorem neverEmpty_needs {u : Char → Bool} {c : Char} {r : Re} (h : needs c r = true) : NeverEmpty u r := by
  rintro a b ⟨k, hm⟩
  cases needs_mem r h hm

theorem quiet_needs {u : Char → Bool} {c : Char} {r : Re} (h : needs c r = true) {s t : Str} (hs : c ∉ s) (ht : c ∉ t) (a : Str) : Quiet u r a s t := by
  rintro x d y rfl m b' e ⟨k, hm⟩
  have h1 : c ∈ d :: y ++ t := by rw [e]; exact List.mem_append_left _ (needs_mem r h hm)
  rcases List.mem_append.1 h1 with h1 | h1
  · exact hs (List.mem_append_right _ h1)
  · exact ht h1

theorem sub_needs {u : Char → Bool} {c : Char} {r : Re} (h : needs c r = true) (tmpl : List Tok) {s : Str} (hs : c ∉ s) : sub u r tmpl s = s :=
  sub_quiet tmpl (neverEmpty_needs h) (quiet_needs h hs (by simp) [])

theorem needs_lits {c : Char} {w : Str} (h : c ∈ w) (k : Re) : needs c (lits w k) = true := by
  induction w with
  | nil => cases h
  | cons d w ih =>
    rw [lits_cons, needs, needs, Bool.or_eq_true]
    rcases List.mem_cons.1 h with h | h
    · exact .inl (by simp [h])
    · exact .inr (ih h)

theorem needs_lits_right {c : Char} (w : Str) {k : Re} (h : needs c k = true) : needs c (lits w k) = true := by
  induction w with
  | nil => exact h
  | cons d w ih => rw [lits_cons, needs, ih, Bool.or_true]

/-! ### A word that does not occur -/

theorem sub_absent_word {u : Char → Bool} {h : Str} (hh : Ident u h) {r : Re} (hr : Headed u h r) (hn : NeverEmpty u r) (tmpl : List Tok) {s : Str}
    (hs : .word h ∉ cut u s) : sub u r tmpl s = s := by
  refine sub_quiet tmpl hn ?_
  have := quiet_pieces hh hr (l := cut u s) [] [] (cut_spec u _).1 hs (by rintro ⟨c, hc, _⟩; cases hc)
  rwa [(cut_spec u _).2] at this

/-- A word of a text. -/
theorem mem_cut_word {u : Char → Bool} {a w b : Str} (hw : Ident u w) (ha : ¬ EndsInWord u a) (hb : ¬ BeginsWithWord u b) : .word w ∈ cut u (a ++ (w ++ b)) := by
  have h1 : cut u (w ++ b) = .word w :: cut u b := cut_word (cut_begins hb) _ rfl w hw.1 hw.2
  rcases List.eq_nil_or_concat a with rfl | ⟨x, c, rfl⟩
  · rw [List.nil_append, h1]; simp
  · have hc : isWordChar u c = false := by
      have : ¬ isWordChar u c = true := fun h => ha (by rw [List.concat_eq_append]; exact ends_concat.2 h)
      simpa using this
    rw [List.concat_eq_append, List.append_assoc]
    show .word w ∈ cut u (x ++ c :: (w ++ b))
    rw [cut_append_sep u c hc, h1]
    simp

/-! ### `const char` -/

theorem matches_star_chr {u : Char → Bool} {g : Bool} {d : Char} {a m b : Str} {k k' : List (Nat × Str)} (h : Matches u (.star g (.chr d)) a m b k k') :
    ∃ n, m = List.replicate n d := by
  generalize hr : Re.star g (.chr d) = r at h
  induction h with
  | starNil => exact ⟨0, rfl⟩
  | starCons g r a m m' b k k1 k2 _ h1 _ _ ih =>
    obtain ⟨rfl, rfl⟩ := Re.star.inj hr
    obtain ⟨rfl, rfl⟩ := matches_chr h1
    obtain ⟨n, rfl⟩ := ih rfl
    exact ⟨n + 1, rfl⟩
  | _ => cases hr

/-- `\bconst \s*char*\b` -/
def constRe1 : Re := .seq .wordB (lits "const ".toList (.seq reS0 (lits "cha".toList (.seq (.star true (.chr 'r')) (.seq .wordB .eps)))))
/-- `\bconst \s*char *\b` -/
def constRe2 : Re := .seq .wordB (lits "const ".toList (.seq reS0 (lits "char".toList (.seq (.star true (.chr ' ')) (.seq .wordB .eps)))))

theorem ident_cha {u : Char → Bool} (n : Nat) : Ident u ("cha".toList ++ List.replicate n 'r') := by
  refine ident_of (by simp) ?_
  intro c hc
  rcases List.mem_append.1 hc with hc | hc
  · exact (by decide : ∀ c ∈ "cha".toList, c.toNat < 128 ∧ isWordChar (fun _ => false) c = true) c hc
  · rw [(List.mem_replicate.1 hc).2]
    decide

theorem not_ends_space {u : Char → Bool} (hu : SpaceApart u) {a m : Str} (hm : ∀ c ∈ m, isSpace c = true) : ¬ EndsInWord u ((a ++ "const ".toList) ++ m) := by
  rcases List.eq_nil_or_concat m with rfl | ⟨x, c, rfl⟩
  · rw [List.append_nil]
    have : a ++ "const ".toList = (a ++ "const".toList) ++ [' '] := by rw [List.append_assoc]; rfl
    rw [this, ends_concat, hu ' ' isSpace_blank]
    simp
  · rw [List.concat_eq_append, ← List.append_assoc, ends_concat, hu c (hm c (by simp))]
    simp

theorem sub_const1 {u : Char → Bool} (hu : SpaceApart u) (tmpl : List Tok) {s : Str} (hs : ∀ w, .word w ∈ cut u s → ¬ CharWord w) : sub u constRe1 tmpl s = s := by
  refine sub_quiet tmpl (neverEmpty_lits (by decide) _) ?_
  rintro x c y rfl m b' e ⟨k, h⟩
  obtain ⟨m1, m2, k1, rfl, h1, h2⟩ := matches_seq h
  obtain ⟨rfl, _, _⟩ := matches_wordB h1
  rw [List.append_nil] at h2
  obtain ⟨m3, rfl, h3⟩ := matches_lits _ h2
  obtain ⟨m4, m5, k2, rfl, h4, h5⟩ := matches_seq h3
  obtain ⟨hm4, _⟩ := matches_star_space h4
  obtain ⟨m6, rfl, h6⟩ := matches_lits _ h5
  obtain ⟨m7, m8, k3, rfl, h7, h8⟩ := matches_seq h6
  obtain ⟨n, rfl⟩ := matches_star_chr h7
  obtain ⟨m9, m10, k4, rfl, h9, h10⟩ := matches_seq h8
  obtain ⟨rfl, _, hb⟩ := matches_wordB h9
  obtain ⟨rfl, _⟩ := matches_eps h10
  have hid := ident_cha (u := u) n
  refine hs ("cha".toList ++ List.replicate n 'r') ?_ ⟨n, rfl⟩
  have e2 : x ++ c :: y = ((x ++ "const ".toList) ++ m4) ++ (("cha".toList ++ List.replicate n 'r') ++ b') := by
    have e3 : c :: y = c :: y ++ [] := (List.append_nil _).symm
    rw [e3, e]
    simp only [List.append_assoc, List.nil_append]
  rw [e2]
  refine mem_cut_word hid ?_ (fun hb' => hb ⟨fun _ => hb', fun _ => ?_⟩)
  · exact not_ends_space hu hm4
  · rw [List.append_assoc]
    exact ends_append hid.1 hid.2

theorem sub_const2 {u : Char → Bool} (hu : SpaceApart u) (tmpl : List Tok) {s : Str} (hs : ∀ w, .word w ∈ cut u s → ¬ CharWord w) : sub u constRe2 tmpl s = s := by
  refine sub_quiet tmpl (neverEmpty_lits (by decide) _) ?_
  rintro x c y rfl m b' e ⟨k, h⟩
  obtain ⟨m1, m2, k1, rfl, h1, h2⟩ := matches_seq h
  obtain ⟨rfl, _, _⟩ := matches_wordB h1
  rw [List.append_nil] at h2
  obtain ⟨m3, rfl, h3⟩ := matches_lits _ h2
  obtain ⟨m4, m5, k2, rfl, h4, h5⟩ := matches_seq h3
  obtain ⟨hm4, _⟩ := matches_star_space h4
  obtain ⟨m6, rfl, h6⟩ := matches_lits _ h5
  obtain ⟨m7, m8, k3, rfl, h7, h8⟩ := matches_seq h6
  obtain ⟨n, rfl⟩ := matches_star_chr h7
  obtain ⟨m9, m10, k4, rfl, h9, h10⟩ := matches_seq h8
  obtain ⟨rfl, _, hb⟩ := matches_wordB h9
  obtain ⟨rfl, _⟩ := matches_eps h10
  have hid : Ident u "char".toList := ident_cha (u := u) 1
  refine hs "char".toList ?_ ⟨1, rfl⟩
  have e2 : x ++ c :: y = ((x ++ "const ".toList) ++ m4) ++ ("char".toList ++ (List.replicate n ' ' ++ b')) := by
    have e3 : c :: y = c :: y ++ [] := (List.append_nil _).symm
    rw [e3, e]
    simp only [List.append_assoc, List.nil_append]
  rw [e2]
  refine mem_cut_word hid (not_ends_space hu hm4) (fun hb' => ?_)
  cases n with
  | zero =>
    refine hb ⟨fun _ => hb', fun _ => ?_⟩
    show EndsInWord u (_ ++ List.replicate 0 ' ')
    rw [List.replicate_zero, List.append_nil]
    exact ends_append hid.1 hid.2
  | succ n =>
    rw [List.replicate_succ, List.cons_append, begins_cons, hu ' ' isSpace_blank] at hb'
    cases hb'

/-! ### A character that is removed -/

theorem sub_remove {u : Char → Bool} (c : Char) (s : Str) : sub u (lits [c] .eps) [] s = s.filter (fun d => decide (d ≠ c)) := by
  have hn : NeverEmpty u (lits [c] .eps) := neverEmpty_needs (c := c) (needs_lits (by simp) _)
  have key : ∀ (s a : Str), scan u (lits [c] .eps) [] a.getLast? 0 s = s.filter (fun d => decide (d ≠ c)) := by
    intro s
    induction s with
    | nil => intro a; exact scan_nil _ (matchAt_nil hn a)
    | cons d s ih =>
      intro a
      by_cases hd : d = c
      · subst hd
        have h : matchAt u (lits [d] .eps) a.getLast? ([d] ++ s) = some ⟨(a ++ [d]).getLast?, s, []⟩ := by
          unfold matchAt
          rw [run_lits, run]
          rfl
        have h2 := scan_hit [] (m := [d]) (by simp) h rfl
        show scan u _ [] _ 0 ([d] ++ s) = _
        rw [h2, ih, List.filter_cons_of_neg (by simp)]
        rfl
      · rw [scan_keep [] ((matchAt_none_iff u _ a _).2 ?_), ih, List.filter_cons_of_pos (by simpa using hd)]
        rintro m b e ⟨k, hm⟩
        obtain ⟨m', rfl, _⟩ := matches_lits _ hm
        exact hd (List.cons.inj e).1
  exact key s []

end Verif.Re
