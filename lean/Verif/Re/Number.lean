import Verif.Re.SpecValue
import Verif.Re.Words
import Verif.Re.Std

/-! The expression of the numbers with a suffix. -/

namespace Verif.Re
open Verif.Py Spec Verif.Inst Verif.Inst.Spec
open Verif.Scope (isWordChar)

theorem matches_set {u : Char → Bool} {items : List Item} {a m b : Str} {k k' : List (Nat × Str)} (h : Matches u (.set false items) a m b k k') :
    ∃ c, InSet u items c ∧ m = [c] ∧ k' = k := by
  cases h with
  | set _ c _ _ _ hc => exact ⟨c, hc, rfl, rfl⟩

theorem matches_eps {u : Char → Bool} {a m b : Str} {k k' : List (Nat × Str)} (h : Matches u .eps a m b k k') : m = [] ∧ k' = k := by
  cases h; exact ⟨rfl, rfl⟩

theorem matches_alt {u : Char → Bool} {r q : Re} {a m b : Str} {k k' : List (Nat × Str)} (h : Matches u (.alt r q) a m b k k') :
    Matches u r a m b k k' ∨ Matches u q a m b k k' := by
  cases h with
  | altL _ _ _ _ _ _ _ h => exact .inl h
  | altR _ _ _ _ _ _ _ h => exact .inr h

theorem matches_group {u : Char → Bool} {n : Nat} {r : Re} {a m b : Str} {k k' : List (Nat × Str)} (h : Matches u (.group n r) a m b k k') :
    ∃ k1, Matches u r a m b k k1 ∧ k' = (n, m) :: k1 := by
  cases h with
  | group _ _ _ _ _ _ k1 h => exact ⟨k1, h, rfl⟩

theorem inSet_one {u : Char → Bool} {fs : List Char} {c : Char} : InSet u (fs.map .one) c ↔ c ∈ fs := by
  unfold InSet
  constructor
  · rintro ⟨i, hi, h⟩
    obtain ⟨d, hd, rfl⟩ := List.mem_map.1 hi
    have : c = d := by simpa [Item.has] using h
    rwa [this]
  · intro h
    exact ⟨.one c, List.mem_map.2 ⟨c, h, rfl⟩, by simp [Item.has]⟩

theorem inSet_digit {u : Char → Bool} {c : Char} : InSet u [.range '0' '9'] c ↔ isDigit c = true := by
  unfold InSet
  simp [Item.has, isDigit]

theorem matches_reD {u : Char → Bool} {a m b : Str} {k k' : List (Nat × Str)} (h : Matches u reD a m b k k') :
    ∃ c, isDigit c = true ∧ m = [c] ∧ k' = k := by
  obtain ⟨c, h1, h2, h3⟩ := matches_set h
  exact ⟨c, inSet_digit.1 h1, h2, h3⟩

theorem matches_starD {u : Char → Bool} {a m b : Str} {k k' : List (Nat × Str)} (h : Matches u (.star true reD) a m b k k') :
    Digits m ∧ k' = k := by
  generalize hr : Re.star true reD = r at h
  induction h with
  | starNil => exact ⟨by simp [Digits], rfl⟩
  | starCons g r a m m' b k k1 k2 _ h1 _ _ ih =>
    obtain ⟨rfl, rfl⟩ := Re.star.inj hr
    obtain ⟨c, hc, rfl, rfl⟩ := matches_reD h1
    obtain ⟨h3, rfl⟩ := ih rfl
    refine ⟨?_, rfl⟩
    intro x hx
    rcases List.mem_append.1 hx with hx | hx
    · rw [List.mem_singleton.1 hx]; exact hc
    · exact h3 x hx
  | _ => cases hr

theorem starD {u : Char → Bool} {m : Str} (hm : Digits m) : ∀ (a b : Str) (k : List (Nat × Str)), Matches u (.star true reD) a m b k k := by
  induction m with
  | nil => intro a b k; exact .starNil _ _ _ _ _
  | cons c m ih =>
    intro a b k
    exact .starCons true reD a [c] m b k k k (by simp) (.set _ _ _ _ _ (inSet_digit.2 (hm c (by simp))))
      (ih (fun x hx => hm x (by simp [hx])) _ _ _)

theorem matches_D1 {u : Char → Bool} {a m b : Str} {k k' : List (Nat × Str)} (h : Matches u reD1 a m b k k') : m ≠ [] ∧ Digits m ∧ k' = k := by
  obtain ⟨m1, m2, k1, rfl, h1, h2⟩ := matches_seq h
  obtain ⟨c, hc, rfl, rfl⟩ := matches_reD h1
  obtain ⟨h3, rfl⟩ := matches_starD h2
  refine ⟨by simp, ?_, rfl⟩
  intro x hx
  rcases List.mem_append.1 hx with hx | hx
  · rw [List.mem_singleton.1 hx]; exact hc
  · exact h3 x hx

theorem d1 {u : Char → Bool} {m : Str} (hm : Digits m) (hne : m ≠ []) (a b : Str) (k : List (Nat × Str)) : Matches u reD1 a m b k k := by
  cases m with
  | nil => exact absurd rfl hne
  | cons c m =>
    exact .seq reD _ a [c] m b k k k (.set _ _ _ _ _ (inSet_digit.2 (hm c (by simp)))) (starD (fun x hx => hm x (by simp [hx])) _ _ _)

theorem matches_sign {u : Char → Bool} {a m b : Str} {k k' : List (Nat × Str)} (h : Matches u reSign a m b k k') : IsSign m ∧ k' = k := by
  rcases matches_alt h with h | h
  · obtain ⟨c, hc, rfl, rfl⟩ := matches_set h
    have : c ∈ ['+', '-'] := inSet_one.1 hc
    rcases List.mem_cons.1 this with rfl | this
    · exact ⟨.inr (.inl rfl), rfl⟩
    · rw [List.mem_singleton.1 this]; exact ⟨.inr (.inr rfl), rfl⟩
  · obtain ⟨rfl, rfl⟩ := matches_eps h
    exact ⟨.inl rfl, rfl⟩

theorem sign {u : Char → Bool} {m : Str} (hm : IsSign m) (a b : Str) (k : List (Nat × Str)) : Matches u reSign a m b k k := by
  rcases hm with rfl | rfl | rfl
  · exact .altR _ _ _ _ _ _ _ (.eps _ _ _)
  · exact .altL _ _ _ _ _ _ _ (.set _ _ _ _ _ (inSet_one (fs := ['+', '-']).2 (by simp)))
  · exact .altL _ _ _ _ _ _ _ (.set _ _ _ _ _ (inSet_one (fs := ['+', '-']).2 (by simp)))

/-- A number with its sign. -/
def Core (s : Str) : Prop := ∃ g b, IsSign g ∧ Body b ∧ s = g ++ b

theorem matches_num {u : Char → Bool} {a m b : Str} {k k' : List (Nat × Str)} (h : Matches u reNum a m b k k') : Core m ∧ k' = k := by
  obtain ⟨g, m1, k1, rfl, h1, h2⟩ := matches_seq h
  clear h
  obtain ⟨hg, rfl⟩ := matches_sign h1
  clear h1
  obtain ⟨i, m, k2, rfl, h1, h3⟩ := matches_seq h2
  clear h2
  obtain ⟨hi, hi', rfl⟩ := matches_D1 h1
  clear h1
  obtain ⟨f, m, k3, rfl, h1, h4⟩ := matches_seq h3
  clear h3
  have hf : IsFrac f ∧ k3 = k2 := by
    rcases matches_alt h1 with h1 | h1
    · obtain ⟨m1, m2, k4, rfl, h2, h3⟩ := matches_seq h1
      obtain ⟨rfl, rfl⟩ := matches_chr h2
      obtain ⟨m3, m4, k4, rfl, h2, h3⟩ := matches_seq h3
      obtain ⟨rfl, rfl⟩ := matches_eps h3
      obtain ⟨h4, rfl⟩ := matches_starD h2
      exact ⟨.inr ⟨m3, h4, by simp⟩, rfl⟩
    · obtain ⟨rfl, rfl⟩ := matches_eps h1
      exact ⟨.inl rfl, rfl⟩
  obtain ⟨hf, hk⟩ := hf
  subst hk
  clear h1
  obtain ⟨e, m, k4, rfl, h1, h5⟩ := matches_seq h4
  clear h4
  obtain ⟨rfl, rfl⟩ := matches_eps h5
  have he : IsExp e ∧ k' = k3 := by
    rcases matches_alt h1 with h1 | h1
    · obtain ⟨m1, m2, k4, rfl, h2, h3⟩ := matches_seq h1
      obtain ⟨c, hc, rfl, rfl⟩ := matches_set h2
      have hc : c ∈ ['e', 'E'] := inSet_one.1 hc
      clear h2
      obtain ⟨g', m3, k4, rfl, h2, h4⟩ := matches_seq h3
      clear h3
      obtain ⟨hg', rfl⟩ := matches_sign h2
      clear h2
      obtain ⟨d, m4, k4, rfl, h2, h3⟩ := matches_seq h4
      clear h4
      obtain ⟨rfl, rfl⟩ := matches_eps h3
      obtain ⟨hd, hd', rfl⟩ := matches_D1 h2
      exact ⟨.inr ⟨c, g', d, by simpa using hc, hg', hd, hd', by simp⟩, rfl⟩
    · obtain ⟨rfl, rfl⟩ := matches_eps h1
      exact ⟨.inl rfl, rfl⟩
  obtain ⟨he, rfl⟩ := he
  exact ⟨⟨g, i ++ (f ++ e), hg, ⟨i, f, e, hi, hi', hf, he, rfl⟩, by simp⟩, rfl⟩

theorem num {u : Char → Bool} {m : Str} (hm : Core m) (a b : Str) (k : List (Nat × Str)) : Matches u reNum a m b k k := by
  obtain ⟨g, _, hg, ⟨i, f, e, hi, hi', hf, he, rfl⟩, rfl⟩ := hm
  refine .seq _ _ _ _ _ _ _ _ _ (sign hg _ _ _) (.seq _ _ _ _ _ _ _ _ _ (d1 hi' hi _ _ _) (.seq _ _ _ _ _ _ _ k _ ?_ ?_))
  · rcases hf with rfl | ⟨d, hd, rfl⟩
    · exact .altR _ _ _ _ _ _ _ (.eps _ _ _)
    · refine .altL _ _ _ _ _ _ _ (.seq _ _ _ ['.'] d _ _ _ _ (.chr _ _ _ _) ?_)
      have := Matches.seq (u := u) (.star true reD) .eps (a ++ g ++ i ++ ['.']) d [] (e ++ b) k k k (starD hd _ _ _) (.eps _ _ _)
      rwa [List.append_nil] at this
  · have h : ∀ a', Matches u (.alt (.seq (.set false [.one 'e', .one 'E']) (.seq reSign (.seq reD1 .eps))) .eps) a' e b k k := by
      intro a'
      rcases he with rfl | ⟨c, g', d, hc, hg', hd, hd', rfl⟩
      · exact .altR _ _ _ _ _ _ _ (.eps _ _ _)
      · refine .altL _ _ _ _ _ _ _ (.seq _ _ _ [c] (g' ++ d) _ _ _ _ (.set _ _ _ _ _ (inSet_one (fs := ['e', 'E']).2 (by simpa using hc)))
          (.seq _ _ _ _ _ _ _ _ _ (sign hg' _ _ _) ?_))
        have := Matches.seq (u := u) reD1 .eps (a' ++ [c] ++ g') d [] b k k k (d1 hd' hd _ _ _) (.eps _ _ _)
        rwa [List.append_nil] at this
    have := Matches.seq (u := u) _ .eps (a ++ g ++ i ++ f) e [] b k k k (h _) (.eps _ _ _)
    rwa [List.append_nil] at this

theorem alnum_iff {u : Char → Bool} {c : Char} : InSet u [.range 'a' 'z', .range 'A' 'Z', .range '0' '9'] c ↔ Alnum c := by
  unfold InSet Alnum
  simp [Item.has]

/-- The matches of the expression. -/
theorem matches_suffix {u : Char → Bool} {fs : List Char} {a m b : Str} {k k' : List (Nat × Str)}
    (h : Matches u (reSuffix (fs.map .one)) a m b k k') : (∀ c, a.getLast? = some c → ¬ Alnum c) ∧ ¬ BeginsWithWord u b ∧
    ∃ s f, Core s ∧ f ∈ fs ∧ m = s ++ [f] ∧ k' = (2, [f]) :: (1, s) :: k := by
  obtain ⟨m0, m, k1, rfl, h1, h2⟩ := matches_seq h
  clear h
  cases h1 with
  | notBehind _ _ _ _ hb =>
    rw [List.append_nil] at h2
    obtain ⟨s, m', k1, rfl, h1, h3⟩ := matches_seq h2
    clear h2
    obtain ⟨k2, h2, rfl⟩ := matches_group h1
    clear h1
    obtain ⟨hs, rfl⟩ := matches_num h2
    clear h2
    obtain ⟨m1, m, k3, rfl, h1, h4⟩ := matches_seq h3
    clear h3
    obtain ⟨k4, h2, rfl⟩ := matches_group h1
    clear h1
    obtain ⟨m2, m3, k5, rfl, h1, h3⟩ := matches_seq h2
    clear h2
    obtain ⟨rfl, rfl⟩ := matches_eps h3
    clear h3
    obtain ⟨f, hf, rfl, rfl⟩ := matches_set h1
    clear h1
    obtain ⟨m4, m5, k6, rfl, h1, h3⟩ := matches_seq h4
    clear h4
    obtain ⟨rfl, rfl⟩ := matches_eps h3
    clear h3
    refine ⟨fun c hc => fun ha => hb c hc (alnum_iff.2 ha), ?_⟩
    generalize hB : [] ++ b = B at h1
    rw [List.nil_append] at hB
    subst hB
    cases h1 with
    | ahead _ _ m b' _ _ h1 =>
      rcases matches_alt h1 with h1 | h1
      · obtain ⟨m1, m2, k4, rfl, h2, h3⟩ := matches_seq h1
        obtain ⟨rfl, rfl⟩ := matches_eps h3
        obtain ⟨c, hc, rfl, rfl⟩ := matches_set h2
        refine ⟨?_, s, f, hs, inSet_one.1 hf, by simp, rfl⟩
        show ¬ BeginsWithWord u (c :: b')
        rw [begins_cons]
        obtain ⟨i, hi, hc⟩ := hc
        rw [List.mem_singleton.1 hi] at hc
        simpa [Item.has] using hc
      · obtain ⟨m1, m2, k4, rfl, h2, h3⟩ := matches_seq h1
        obtain ⟨rfl, rfl⟩ := matches_eps h3
        cases h2 with
        | atEnd _ _ _ hb =>
          refine ⟨?_, s, f, hs, inSet_one.1 hf, by simp, rfl⟩
          simp only [List.nil_append] at hb ⊢
          rcases hb with rfl | rfl
          · rintro ⟨c, hc, _⟩; cases hc
          · rw [begins_cons]
            have : isWordChar u '\n' = false := rfl
            rw [this]; simp

theorem suffix {u : Char → Bool} {fs : List Char} {a b s : Str} {f : Char} (ha : ∀ c, a.getLast? = some c → ¬ Alnum c) (hb : ¬ BeginsWithWord u b)
    (hs : Core s) (hf : f ∈ fs) (k : List (Nat × Str)) : Matches u (reSuffix (fs.map .one)) a (s ++ [f]) b k ((2, [f]) :: (1, s) :: k) := by
  refine .seq _ _ _ [] (s ++ [f]) _ _ k _ (.notBehind _ _ _ _ fun c hc h => ha c hc (alnum_iff.1 h)) ?_
  refine .seq _ _ _ s [f] _ _ _ _ (.group _ _ _ _ _ _ _ (num hs _ _ _)) ?_
  have h1 : Matches u (.group 2 (.seq (.set false (fs.map .one)) .eps)) (a ++ [] ++ s) [f] b ((1, s) :: k) ((2, [f]) :: (1, s) :: k) :=
    .group _ _ _ _ _ _ _ (.seq _ _ _ [f] [] _ _ _ _ (.set _ _ _ _ _ (inSet_one.2 hf)) (.eps _ _ _))
  have h2 : ∀ a k, Matches u (.ahead (.alt (.seq (.set false [.word true]) .eps) (.seq .atEnd .eps))) a [] b k k := by
    intro a k
    cases b with
    | nil => exact .ahead _ _ [] [] _ _ (.altR _ _ _ _ _ _ _ (.seq _ _ _ [] [] _ _ _ _ (.atEnd _ _ _ (.inl rfl)) (.eps _ _ _)))
    | cons c b =>
      rw [begins_cons] at hb
      refine .ahead _ _ [c] b _ _ (.altL _ _ _ _ _ _ _ (.seq _ _ _ [c] [] _ _ _ _ (.set _ _ _ _ _ ⟨.word true, by simp, ?_⟩) (.eps _ _ _)))
      simpa [Item.has] using hb
  exact .seq _ _ _ [f] [] _ _ _ _ h1 (.seq _ _ _ [] [] _ _ _ _ (h2 _ _) (.eps _ _ _))

end Verif.Re
