import Verif.Find.Model
import Verif.Find.Spec
import Verif.Re.Words

/-! Searches: where a match is, and the expressions of names. -/

namespace Verif.Find
open Verif.Py Verif.Re Verif.Re.Spec Verif.Find.Spec
open Verif.Scope (isWordChar)

theorem search_iff (u : Char → Bool) (r : Re) (s : Str) : ∀ a : Str,
    search u r a.getLast? s = true ↔ ∃ x m b, s = x ++ m ++ b ∧ Fits u r (a ++ x) m b := by
  have e : ∀ a s : Str, (!(run u r ⟨a.getLast?, s, []⟩).isEmpty) = true ↔ ∃ m b, s = m ++ b ∧ Fits u r a m b := by
    intro a s
    rw [← fits_iff u r a s []]
    cases run u r ⟨a.getLast?, s, []⟩ <;> simp
  induction s with
  | nil =>
    intro a
    rw [search, e]
    constructor
    · rintro ⟨m, b, h1, h2⟩
      exact ⟨[], m, b, h1, by rwa [List.append_nil]⟩
    · rintro ⟨x, m, b, h1, h2⟩
      have hx : x = [] := (List.append_eq_nil_iff.1 (List.append_eq_nil_iff.1 h1.symm).1).1
      subst hx
      exact ⟨m, b, h1, by rwa [List.append_nil] at h2⟩
  | cons c s ih =>
    intro a
    have ih' := ih (a ++ [c])
    rw [getLast?_append_one] at ih'
    rw [search, Bool.or_eq_true, e, ih']
    constructor
    · rintro (⟨m, b, h1, h2⟩ | ⟨x, m, b, h1, h2⟩)
      · exact ⟨[], m, b, h1, by rwa [List.append_nil]⟩
      · refine ⟨c :: x, m, b, by rw [h1]; rfl, ?_⟩
        rwa [List.append_assoc] at h2
    · rintro ⟨x, m, b, h1, h2⟩
      cases x with
      | nil => exact .inl ⟨m, b, h1, by rwa [List.append_nil] at h2⟩
      | cons d x =>
        obtain ⟨rfl, h3⟩ := List.cons.inj h1
        refine .inr ⟨x, m, b, h3, ?_⟩
        rw [List.append_assoc]
        exact h2

theorem fits_alt {u : Char → Bool} {r q : Re} {a m b : Str} : Fits u (.alt r q) a m b ↔ Fits u r a m b ∨ Fits u q a m b := by
  constructor
  · rintro ⟨k, h⟩
    cases h with
    | altL _ _ _ _ _ _ _ h => exact .inl ⟨k, h⟩
    | altR _ _ _ _ _ _ _ h => exact .inr ⟨k, h⟩
  · rintro (⟨k, h⟩ | ⟨k, h⟩)
    · exact ⟨k, .altL _ _ _ _ _ _ _ h⟩
    · exact ⟨k, .altR _ _ _ _ _ _ _ h⟩

/-- Alternatives, in their order. -/
def altAll : List Re → Re
  | [] => .eps
  | [r] => r
  | r :: l => .alt r (altAll l)

theorem fits_altAll {u : Char → Bool} {a m b : Str} : ∀ {l : List Re}, l ≠ [] → (Fits u (altAll l) a m b ↔ ∃ r ∈ l, Fits u r a m b)
  | [], h => absurd rfl h
  | [r], _ => by simp [altAll]
  | r :: q :: l, _ => by
    rw [altAll, fits_alt, fits_altAll (l := q :: l) (by simp)]
    · simp
    · simp

/-! ### The beginning and the end of a line -/

def startRe : Re := .notBehind [.range (Char.ofNat 0) '\t', .range (Char.ofNat 11) (Char.ofNat 0x10FFFF)]
def endRe : Re := .alt (.seq (.ahead (.seq (.chr '\n') .eps)) .eps) (.seq .atEnd .eps)

theorem not_newline (u : Char → Bool) (c : Char) : InSet u [.range (Char.ofNat 0) '\t', .range (Char.ofNat 11) (Char.ofNat 0x10FFFF)] c ↔ c ≠ '\n' := by
  have hm : c.toNat ≤ 0x10FFFF := by
    have := c.valid
    simp only [UInt32.isValidChar, Nat.isValidChar] at this
    rcases this with h | h
    · exact Nat.le_of_lt (Nat.lt_trans h (by decide))
    · exact Nat.le_of_lt_succ h.2
  have hc : c = '\n' ↔ c.toNat = 10 := ⟨fun h => by rw [h]; rfl, fun h => Char.toNat_inj.1 h⟩
  have e : (∃ i ∈ [Item.range (Char.ofNat 0) '\t', .range (Char.ofNat 11) (Char.ofNat 0x10FFFF)], i.has u c = true) ↔
      (0 ≤ c.toNat ∧ c.toNat ≤ 9) ∨ (11 ≤ c.toNat ∧ c.toNat ≤ 0x10FFFF) := by
    have e1 : (Item.range (Char.ofNat 0) '\t').has u c = true ↔ 0 ≤ c.toNat ∧ c.toNat ≤ 9 := by
      unfold Item.has
      rw [Bool.and_eq_true, decide_eq_true_iff, decide_eq_true_iff]
      exact Iff.rfl
    have e2 : (Item.range (Char.ofNat 11) (Char.ofNat 0x10FFFF)).has u c = true ↔ 11 ≤ c.toNat ∧ c.toNat ≤ 0x10FFFF := by
      unfold Item.has
      rw [Bool.and_eq_true, decide_eq_true_iff, decide_eq_true_iff]
      exact Iff.rfl
    rw [← e1, ← e2]
    simp
  unfold InSet
  rw [e, Ne, hc]
  omega

theorem start_iff {u : Char → Bool} {a m b : Str} {k k' : List (Nat × Str)} :
    Matches u startRe a m b k k' ↔ m = [] ∧ k' = k ∧ ∀ c, a.getLast? = some c → c = '\n' := by
  constructor
  · intro h
    cases h with
    | notBehind _ _ _ _ h => exact ⟨rfl, rfl, fun c hc => Classical.byContradiction (fun hn => h c hc ((not_newline u c).2 hn))⟩
  · rintro ⟨rfl, rfl, h⟩
    exact .notBehind _ _ _ _ (fun c hc hi => (not_newline u c).1 hi (h c hc))

theorem matches_eps {u : Char → Bool} {a m b : Str} {k k' : List (Nat × Str)} (h : Matches u .eps a m b k k') : m = [] ∧ k' = k := by
  cases h; exact ⟨rfl, rfl⟩

theorem matches_ahead {u : Char → Bool} {r : Re} {a m b : Str} {k k' : List (Nat × Str)} (h : Matches u (.ahead r) a m b k k') :
    m = [] ∧ ∃ x y, b = x ++ y ∧ Matches u r a x y k k' := by
  cases h with
  | ahead _ _ x y _ _ h => exact ⟨rfl, x, y, rfl, h⟩

theorem matches_atEnd {u : Char → Bool} {a m b : Str} {k k' : List (Nat × Str)} (h : Matches u .atEnd a m b k k') :
    m = [] ∧ k' = k ∧ (b = [] ∨ b = ['\n']) := by
  cases h with
  | atEnd _ _ _ h => exact ⟨rfl, rfl, h⟩

theorem matches_set {u : Char → Bool} {items : List Item} {a m b : Str} {k k' : List (Nat × Str)} (h : Matches u (.set false items) a m b k k') :
    k' = k ∧ ∃ c, m = [c] ∧ InSet u items c := by
  cases h with
  | set _ c _ _ _ h => exact ⟨rfl, c, rfl, h⟩

theorem end_iff {u : Char → Bool} {a m b : Str} {k k' : List (Nat × Str)} :
    Matches u endRe a m b k k' ↔ m = [] ∧ k' = k ∧ ∀ c, b.head? = some c → c = '\n' := by
  constructor
  · intro h
    cases h with
    | altL _ _ _ _ _ _ _ h =>
      obtain ⟨m1, m2, k1, rfl, h1, h2⟩ := matches_seq h
      obtain ⟨rfl, rfl⟩ := matches_eps h2
      obtain ⟨rfl, x, y, e, h3⟩ := matches_ahead h1
      obtain ⟨m4, m5, k4, rfl, h4, h5⟩ := matches_seq h3
      obtain ⟨rfl, rfl⟩ := matches_chr h4
      obtain ⟨rfl, rfl⟩ := matches_eps h5
      refine ⟨rfl, rfl, fun c hc => ?_⟩
      have e' : b = '\n' :: y := e
      rw [e'] at hc
      exact (Option.some.inj hc).symm
    | altR _ _ _ _ _ _ _ h =>
      obtain ⟨m1, m2, k1, rfl, h1, h2⟩ := matches_seq h
      obtain ⟨rfl, rfl⟩ := matches_eps h2
      obtain ⟨rfl, rfl, h3⟩ := matches_atEnd h1
      refine ⟨rfl, rfl, fun c hc => ?_⟩
      rcases h3 with rfl | rfl
      · cases hc
      · exact (Option.some.inj hc).symm
  · rintro ⟨rfl, rfl, h⟩
    cases b with
    | nil => exact .altR _ _ _ _ _ _ _ (.seq _ _ _ [] [] _ _ _ _ (.atEnd _ _ _ (.inl rfl)) (.eps _ _ _))
    | cons c b =>
      have := h c rfl
      subst this
      refine .altL _ _ _ _ _ _ _ (.seq _ _ _ [] [] _ _ _ _ (.ahead _ _ ['\n'] b _ _ (.seq _ _ _ ['\n'] [] _ _ _ _ (.chr _ _ _ _) (.eps _ _ _))) (.eps _ _ _))

/-! ### Names made with a word -/

theorem fits_lits {u : Char → Bool} {w : Str} {r : Re} {a m b : Str} : Fits u (lits w r) a m b ↔ ∃ m', m = w ++ m' ∧ Fits u r (a ++ w) m' b := by
  constructor
  · rintro ⟨k, h⟩
    obtain ⟨m', h1, h2⟩ := matches_lits w h
    exact ⟨m', h1, k, h2⟩
  · rintro ⟨m', rfl, k, h⟩
    refine ⟨k, ?_⟩
    induction w generalizing a with
    | nil => rw [List.append_nil] at h; exact h
    | cons c w ih =>
      refine .seq _ _ _ [c] (w ++ m') _ _ [] _ (.chr _ _ _ _) (ih ?_)
      rw [List.append_assoc]
      exact h

theorem fits_start {u : Char → Bool} {r : Re} {a m b : Str} :
    Fits u (.seq startRe r) a m b ↔ (∀ c, a.getLast? = some c → c = '\n') ∧ Fits u r a m b := by
  constructor
  · rintro ⟨k, h⟩
    obtain ⟨m1, m2, k1, rfl, h1, h2⟩ := matches_seq h
    obtain ⟨rfl, rfl, h3⟩ := start_iff.1 h1
    rw [List.append_nil] at h2
    exact ⟨h3, k, h2⟩
  · rintro ⟨h, k, h2⟩
    exact ⟨k, .seq _ _ _ [] m _ _ [] _ (start_iff.2 ⟨rfl, rfl, h⟩) (by rwa [List.append_nil])⟩

theorem fits_end {u : Char → Bool} {a m b : Str} : Fits u (.seq endRe .eps) a m b ↔ m = [] ∧ ∀ c, b.head? = some c → c = '\n' := by
  constructor
  · rintro ⟨k, h⟩
    obtain ⟨m1, m2, k1, rfl, h1, h2⟩ := matches_seq h
    obtain ⟨rfl, rfl⟩ := matches_eps h2
    obtain ⟨rfl, rfl, h3⟩ := end_iff.1 h1
    exact ⟨rfl, h3⟩
  · rintro ⟨rfl, h⟩
    exact ⟨[], .seq _ _ _ [] [] _ _ [] _ (end_iff.2 ⟨rfl, rfl, h⟩) (.eps _ _ _)⟩

theorem fits_eps {u : Char → Bool} {a m b : Str} : Fits u .eps a m b ↔ m = [] := by
  constructor
  · rintro ⟨k, h⟩
    exact (matches_eps h).1
  · rintro rfl
    exact ⟨[], .eps _ _ _⟩

theorem fits_set {u : Char → Bool} {items : List Item} {r : Re} {a m b : Str} :
    Fits u (.seq (.set false items) r) a m b ↔ ∃ c m', m = c :: m' ∧ InSet u items c ∧ Fits u r (a ++ [c]) m' b := by
  constructor
  · rintro ⟨k, h⟩
    obtain ⟨m1, m2, k1, rfl, h1, h2⟩ := matches_seq h
    obtain ⟨rfl, c, rfl, h3⟩ := matches_set h1
    exact ⟨c, m2, rfl, h3, k, h2⟩
  · rintro ⟨c, m', rfl, h, k, h2⟩
    exact ⟨k, .seq _ _ _ [c] m' _ _ [] _ (.set _ _ _ _ _ h) h2⟩

/-- The five expressions of a word. -/
def nameRes (w : Str) : List Re :=
  [.seq startRe (lits w (.seq endRe .eps)), .seq startRe (lits w (lits ['_'] .eps)), lits ('_' :: w) (.seq endRe .eps),
    .seq startRe (lits w (.seq (.set false [.range 'A' 'Z']) (.seq (.set false [.range 'a' 'z', .one '_']) .eps))),
    lits w (.seq (.set false [.range '0' '9']) (.seq endRe .eps))]

theorem range_iff (u : Char → Bool) (x y c : Char) : (Item.range x y).has u c = true ↔ x.toNat ≤ c.toNat ∧ c.toNat ≤ y.toNat := by
  unfold Item.has
  rw [Bool.and_eq_true, decide_eq_true_iff, decide_eq_true_iff]

theorem one_iff (u : Char → Bool) (x c : Char) : (Item.one x).has u c = true ↔ c = x := by
  unfold Item.has
  rw [decide_eq_true_iff]

theorem set_one {u : Char → Bool} {i : Item} {c : Char} : InSet u [i] c ↔ i.has u c = true := by
  unfold InSet
  simp

theorem set_two {u : Char → Bool} {i j : Item} {c : Char} : InSet u [i, j] c ↔ i.has u c = true ∨ j.has u c = true := by
  unfold InSet
  simp

/-- The text is one line. -/
theorem at_start {name x y : Str} (hn : '\n' ∉ name) (e : name = x ++ y) : (∀ c, x.getLast? = some c → c = '\n') ↔ x = [] := by
  constructor
  · intro h
    cases hx : x.getLast? with
    | none => exact List.getLast?_eq_none_iff.1 hx
    | some c =>
      have := h c hx
      subst this
      exact absurd (by rw [e]; exact List.mem_append_left _ (List.mem_of_getLast? hx)) hn
  · rintro rfl c hc
    cases hc

theorem at_end {name x y : Str} (hn : '\n' ∉ name) (e : name = x ++ y) : (∀ c, y.head? = some c → c = '\n') ↔ y = [] := by
  constructor
  · intro h
    cases y with
    | nil => rfl
    | cons c y =>
      have := h c rfl
      subst this
      exact absurd (by rw [e]; simp) hn
  · rintro rfl c hc
    cases hc

theorem found_iff (u : Char → Bool) (w name : Str) (hn : '\n' ∉ name) :
    (∃ r ∈ nameRes w, ∃ x m b, name = x ++ m ++ b ∧ Fits u r x m b) ↔ Made w name := by
  have e1 : (∃ x m b, name = x ++ m ++ b ∧ Fits u (.seq startRe (lits w (.seq endRe .eps))) x m b) ↔ name = w := by
    constructor
    · rintro ⟨x, m, b, e, h⟩
      obtain ⟨h1, h2⟩ := fits_start.1 h
      obtain ⟨m', rfl, h3⟩ := fits_lits.1 h2
      obtain ⟨rfl, h4⟩ := fits_end.1 h3
      have := (at_start hn (e.trans (List.append_assoc _ _ _))).1 h1
      subst this
      have := (at_end hn e).1 h4
      subst this
      simpa using e
    · rintro rfl
      refine ⟨[], name, [], by simp, fits_start.2 ⟨fun c hc => (by cases hc), fits_lits.2 ⟨[], by simp, fits_end.2 ⟨rfl, fun c hc => (by cases hc)⟩⟩⟩⟩
  have e2 : (∃ x m b, name = x ++ m ++ b ∧ Fits u (.seq startRe (lits w (lits ['_'] .eps))) x m b) ↔ ∃ x, name = w ++ '_' :: x := by
    constructor
    · rintro ⟨x, m, b, e, h⟩
      obtain ⟨h1, h2⟩ := fits_start.1 h
      obtain ⟨m', rfl, h3⟩ := fits_lits.1 h2
      obtain ⟨m2, rfl, h4⟩ := fits_lits.1 h3
      have := fits_eps.1 h4
      subst this
      have := (at_start hn (e.trans (List.append_assoc _ _ _))).1 h1
      subst this
      exact ⟨b, by simpa using e⟩
    · rintro ⟨x, rfl⟩
      exact ⟨[], w ++ ['_'], x, by simp, fits_start.2 ⟨fun c hc => (by cases hc), fits_lits.2 ⟨['_'], rfl, fits_lits.2 ⟨[], rfl, fits_eps.2 rfl⟩⟩⟩⟩
  have e3 : (∃ x m b, name = x ++ m ++ b ∧ Fits u (lits ('_' :: w) (.seq endRe .eps)) x m b) ↔ ∃ x, name = x ++ '_' :: w := by
    constructor
    · rintro ⟨x, m, b, e, h⟩
      obtain ⟨m', rfl, h3⟩ := fits_lits.1 h
      obtain ⟨rfl, h4⟩ := fits_end.1 h3
      have := (at_end hn e).1 h4
      subst this
      exact ⟨x, by simpa using e⟩
    · rintro ⟨x, rfl⟩
      exact ⟨x, '_' :: w, [], by simp, fits_lits.2 ⟨[], by simp, fits_end.2 ⟨rfl, fun c hc => (by cases hc)⟩⟩⟩
  have e4 : (∃ x m b, name = x ++ m ++ b ∧
      Fits u (.seq startRe (lits w (.seq (.set false [.range 'A' 'Z']) (.seq (.set false [.range 'a' 'z', .one '_']) .eps)))) x m b) ↔
      ∃ c d x, name = w ++ c :: d :: x ∧ Upper c ∧ (Lower d ∨ d = '_') := by
    constructor
    · rintro ⟨x, m, b, e, h⟩
      obtain ⟨h1, h2⟩ := fits_start.1 h
      obtain ⟨m', rfl, h3⟩ := fits_lits.1 h2
      obtain ⟨c, m2, rfl, h4, h5⟩ := fits_set.1 h3
      obtain ⟨d, m3, rfl, h6, h7⟩ := fits_set.1 h5
      have := fits_eps.1 h7
      subst this
      have := (at_start hn (e.trans (List.append_assoc _ _ _))).1 h1
      subst this
      refine ⟨c, d, b, by simpa using e, (range_iff u _ _ c).1 (set_one.1 h4), ?_⟩
      rcases set_two.1 h6 with h | h
      · exact .inl ((range_iff u _ _ d).1 h)
      · exact .inr ((one_iff u _ d).1 h)
    · rintro ⟨c, d, x, rfl, hc, hd⟩
      refine ⟨[], w ++ [c, d], x, by simp, fits_start.2 ⟨fun c hc => (by cases hc), fits_lits.2 ⟨[c, d], rfl, fits_set.2 ⟨c, [d], rfl,
        set_one.2 ((range_iff u _ _ c).2 hc), fits_set.2 ⟨d, [], rfl, set_two.2 ?_, fits_eps.2 rfl⟩⟩⟩⟩⟩
      rcases hd with h | h
      · exact .inl ((range_iff u _ _ d).2 h)
      · exact .inr ((one_iff u _ d).2 h)
  have e5 : (∃ x m b, name = x ++ m ++ b ∧ Fits u (lits w (.seq (.set false [.range '0' '9']) (.seq endRe .eps))) x m b) ↔
      ∃ x d, name = x ++ w ++ [d] ∧ Digit d := by
    constructor
    · rintro ⟨x, m, b, e, h⟩
      obtain ⟨m', rfl, h3⟩ := fits_lits.1 h
      obtain ⟨c, m2, rfl, h4, h5⟩ := fits_set.1 h3
      obtain ⟨rfl, h6⟩ := fits_end.1 h5
      have := (at_end hn e).1 h6
      subst this
      exact ⟨x, c, by simpa using e, (range_iff u _ _ c).1 (set_one.1 h4)⟩
    · rintro ⟨x, d, rfl, hd⟩
      exact ⟨x, w ++ [d], [], by simp, fits_lits.2 ⟨[d], rfl, fits_set.2 ⟨d, [], rfl, set_one.2 ((range_iff u _ _ d).2 hd),
        fits_end.2 ⟨rfl, fun c hc => (by cases hc)⟩⟩⟩⟩
  unfold Made nameRes
  rw [← e1, ← e2, ← e3, ← e4, ← e5]
  simp only [List.mem_cons, List.not_mem_nil, or_false, exists_eq_or_imp, exists_eq_left]

theorem sizeRegex_read : compileRegex sizeRegex = some (altAll (sizeWords.flatMap nameRes)) := by decide +kernel

theorem size_iff (u : Char → Bool) (name : Str) (hn : '\n' ∉ name) : looksLikeSize u name = some true ↔ ∃ w ∈ sizeWords, Made w name := by
  have h0 : sizeRegex.length ≠ 0 := by decide +kernel
  unfold looksLikeSize doesMatch
  rw [if_neg h0, sizeRegex_read, Option.map_some, Option.some.injEq]
  have := search_iff u (altAll (sizeWords.flatMap nameRes)) name []
  rw [show ([] : Str).getLast? = none from rfl] at this
  rw [this]
  have hne : sizeWords.flatMap nameRes ≠ [] := by decide
  constructor
  · rintro ⟨x, m, b, e, h⟩
    obtain ⟨r, hr, h2⟩ := (fits_altAll hne).1 h
    obtain ⟨w, hw, hr⟩ := List.mem_flatMap.1 hr
    exact ⟨w, hw, (found_iff u w name hn).1 ⟨r, hr, x, m, b, e, h2⟩⟩
  · rintro ⟨w, hw, h⟩
    obtain ⟨r, hr, x, m, b, e, h2⟩ := (found_iff u w name hn).2 h
    exact ⟨x, m, b, e, (fits_altAll hne).2 ⟨r, List.mem_flatMap.2 ⟨w, hw, hr⟩, h2⟩⟩

theorem size_some (u : Char → Bool) (name : Str) : (looksLikeSize u name).isSome = true := by
  have h0 : sizeRegex.length ≠ 0 := by decide +kernel
  unfold looksLikeSize doesMatch
  rw [if_neg h0, sizeRegex_read]
  rfl

end Verif.Find
