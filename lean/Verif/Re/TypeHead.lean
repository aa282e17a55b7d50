import Verif.Re.TypeLast
import Verif.Num.Lemmas

/-! The rules of the templates of the standard library, where they match. -/

namespace Verif.Re
open Verif.Py Spec Verif.Inst Verif.Inst.Spec
open Verif.Scope (isWordChar)

/-! ### The first match -/

/-- The first match that begins here ends at the text `b`, with the groups `c`. -/
def First (u : Char → Bool) (k : Re) (st : St) (b : Str) (c : List (Nat × Str)) : Prop :=
  ∃ t ts, run u k st = t :: ts ∧ t.rest = b ∧ t.caps = c

theorem first_eps (u : Char → Bool) (p : Option Char) (b : Str) (c : List (Nat × Str)) : First u .eps ⟨p, b, c⟩ b c := ⟨_, [], rfl, rfl, rfl⟩

theorem first_chr {u : Char → Bool} {k : Re} {p : Option Char} {d : Char} {s b : Str} {c c' : List (Nat × Str)} (h : First u k ⟨some d, s, c⟩ b c') :
    First u (.seq (.chr d) k) ⟨p, d :: s, c⟩ b c' := by
  obtain ⟨t, ts, h1, h2, h3⟩ := h
  refine ⟨t, ts, ?_, h2, h3⟩
  rw [run, run, step, if_pos (by simp), List.flatMap_singleton, h1]

theorem iter_spaces {u : Char → Bool} {s : Str} {c : List (Nat × Str)} (hs : ∀ d r, s = d :: r → isSpace d = false) : ∀ (sp : Str) (p : Option Char) (n : Nat),
    (∀ d ∈ sp, isSpace d = true) → sp.length ≤ n → ∃ p' ts, iter true (run u reS) n ⟨p, sp ++ s, c⟩ = ⟨p', s, c⟩ :: ts
  | [], p, n, _, _ => by
    refine ⟨p, [], iter_stop ?_ n⟩
    cases s with
    | nil => rfl
    | cons d r =>
      have hc := hs d r rfl
      rw [List.nil_append, reS, run, step]
      simp [Item.has, hc]
  | d :: sp, p, 0, _, hl => by cases hl
  | d :: sp, p, n + 1, hsp, hl => by
    obtain ⟨p', ts, h⟩ := iter_spaces hs sp (some d) n (fun x hx => hsp x (by simp [hx])) (Nat.le_of_succ_le_succ hl)
    have hd := hsp d (by simp)
    have h1 : run u reS ⟨p, d :: sp ++ s, c⟩ = [⟨some d, sp ++ s, c⟩] := by
      rw [reS, run, List.cons_append, step, if_pos (by simp [Item.has, hd])]
    refine ⟨p', ts ++ [⟨p, d :: sp ++ s, c⟩], ?_⟩
    rw [iter, h1, List.filter_cons_of_pos (by simp), List.filter_nil, List.flatMap_singleton, h, if_pos rfl]
    rfl

/-- `\s*` takes all the white space. -/
theorem first_space {u : Char → Bool} {k : Re} {p : Option Char} {sp s b : Str} {c c' : List (Nat × Str)} (hsp : ∀ d ∈ sp, isSpace d = true)
    (hs : ∀ d r, s = d :: r → isSpace d = false) (h : ∀ p', First u k ⟨p', s, c⟩ b c') : First u (.seq reS0 k) ⟨p, sp ++ s, c⟩ b c' := by
  obtain ⟨p', ts, h1⟩ := iter_spaces (u := u) (c := c) hs sp p (sp ++ s).length hsp (by simp)
  obtain ⟨t, ts', h2, h3, h4⟩ := h p'
  refine ⟨t, ts' ++ ts.flatMap (run u k), ?_, h3, h4⟩
  rw [run, reS0, run]
  show (iter true (run u reS) (sp ++ s).length ⟨p, sp ++ s, c⟩).flatMap (run u k) = _
  rw [h1, List.flatMap_cons, h2]
  rfl

theorem iter_lazy {u : Char → Bool} {g : St → List St} {s : Str} {c : List (Nat × Str)} : ∀ (y : Str) (p : Option Char) (n : Nat), y.length ≤ n → '\n' ∉ y →
    (∀ z p', z ≠ [] → z <:+ y → g ⟨p', z ++ s, c⟩ = []) → (∀ p', ∃ t ts, g ⟨p', s, c⟩ = t :: ts) →
    ∃ p' ts, (iter false (run u .any) n ⟨p, y ++ s, c⟩).flatMap g = g ⟨p', s, c⟩ ++ ts
  | [], p, 0, _, _, _, _ => ⟨p, [], by rw [iter, List.flatMap_singleton]; simp⟩
  | [], p, n + 1, _, _, _, _ => by
    refine ⟨p, ?_⟩
    rw [iter]
    simp only [Bool.false_eq_true, if_false, List.nil_append, List.flatMap_cons]
    exact ⟨_, rfl⟩
  | d :: y, p, 0, hl, _, _, _ => by cases hl
  | d :: y, p, n + 1, hl, hn, hz, hg => by
    obtain ⟨p', ts, h⟩ := iter_lazy (u := u) y (some d) n (Nat.le_of_succ_le_succ hl) (fun h => hn (by simp [h]))
      (fun z p' h1 h2 => hz z p' h1 (h2.trans (List.suffix_cons d y))) hg
    have h1 : run u .any ⟨p, d :: y ++ s, c⟩ = [⟨some d, y ++ s, c⟩] := by
      rw [run, List.cons_append, step, if_pos (by simpa using fun e : d = '\n' => hn (by simp [e]))]
    refine ⟨p', ts, ?_⟩
    rw [iter, h1, List.filter_cons_of_pos (by simp), List.filter_nil, List.flatMap_singleton]
    simp only [Bool.false_eq_true, if_false]
    rw [List.flatMap_cons, hz (d :: y) p (by simp) (List.suffix_refl _), List.nil_append, h]

theorem between_eq (p q : Option Char) (y s : Str) (c c' : List (Nat × Str)) : between ⟨p, y ++ s, c⟩ ⟨q, s, c'⟩ = y := by
  unfold between
  simp

/-- `(.*?)` takes the shortest text after which the rest matches. -/
theorem first_lazy {u : Char → Bool} {k : Re} {n : Nat} {p : Option Char} {y s b : Str} {c c' : List (Nat × Str)} (hy : '\n' ∉ y)
    (hz : ∀ z p' c'', z ≠ [] → z <:+ y → run u k ⟨p', z ++ s, c''⟩ = []) (h : ∀ p', First u k ⟨p', s, (n, y) :: c⟩ b c') :
    First u (.seq (reLazy n) k) ⟨p, y ++ s, c⟩ b c' := by
  have e : run u (.seq (reLazy n) k) ⟨p, y ++ s, c⟩ = (iter false (run u .any) (y ++ s).length ⟨p, y ++ s, c⟩).flatMap
      (fun t => run u k ⟨t.prev, t.rest, (n, between ⟨p, y ++ s, c⟩ t) :: t.caps⟩) := by
    rw [run, reLazy, run, run, run, List.flatMap_map]
    show ((iter false (run u .any) (y ++ s).length ⟨p, y ++ s, c⟩).flatMap (fun t => [t])).flatMap _ = _
    rw [List.flatMap_assoc]
    congr 1
    funext t
    rw [List.flatMap_singleton]
  obtain ⟨p', ts, h1⟩ := iter_lazy (u := u) (c := c) (g := fun t => run u k ⟨t.prev, t.rest, (n, between ⟨p, y ++ s, c⟩ t) :: t.caps⟩) y p (y ++ s).length
    (by simp) hy (fun z p' h1 h2 => hz z p' _ h1 h2) (fun p' => by
      obtain ⟨t, ts, h1, _, _⟩ := h p'
      exact ⟨t, ts, by dsimp only; rw [between_eq]; exact h1⟩)
  obtain ⟨t, ts', h2, h3, h4⟩ := h p'
  refine ⟨t, ts' ++ ts, ?_, h3, h4⟩
  rw [e, h1]
  dsimp only
  rw [between_eq, h2]
  rfl

/-- No match begins here. -/
theorem run_none {u : Char → Bool} {k : Re} {p : Option Char} {s : Str} {c : List (Nat × Str)} (h : ∀ a m b c', s = m ++ b → ¬ Matches u k a m b c c') :
    run u k ⟨p, s, c⟩ = [] := by
  cases hr : run u k ⟨p, s, c⟩ with
  | nil => rfl
  | cons t ts =>
    exfalso
    have hp : p = (p.toList).getLast? := by cases p <;> rfl
    rw [hp] at hr
    obtain ⟨m, h1, _, h3⟩ := run_sound u k p.toList s c t (by rw [hr]; simp)
    exact h _ m _ _ h1 h3

/-- `\s*d` does not match when other characters come before `d`. -/
theorem space_chr_none {u : Char → Bool} {k : Re} {d : Char} {p : Option Char} {z s : Str} {c : List (Nat × Str)} (hz : d ∉ z)
    (hn : ∃ e ∈ z, isSpace e = false) : run u (.seq reS0 (.seq (.chr d) k)) ⟨p, z ++ s, c⟩ = [] := by
  refine run_none (fun a m b c' e h => ?_)
  obtain ⟨m1, m2, k1, rfl, h1, h2⟩ := matches_seq h
  obtain ⟨hm1, _⟩ := matches_star_space h1
  obtain ⟨m3, m4, k2, rfl, h3, _⟩ := matches_seq h2
  obtain ⟨rfl, _⟩ := matches_chr h3
  obtain ⟨x, hx, hxs⟩ := hn
  simp only [List.append_assoc, List.singleton_append] at e
  rcases List.append_eq_append_iff.1 e with ⟨a', e1, e2⟩ | ⟨a', e1, e2⟩
  · have : isSpace x = true := hm1 x (by rw [e1]; simp [hx])
    rw [this] at hxs
    cases hxs
  · cases a' with
    | nil =>
      rw [List.append_nil] at e1
      have : isSpace x = true := hm1 x (by rw [← e1]; exact hx)
      rw [this] at hxs
      cases hxs
    | cons y a' =>
      obtain ⟨rfl, _⟩ := List.cons.inj e2
      exact hz (by rw [e1]; simp)

/-! ### The templates -/

theorem first_angle {u : Char → Bool} {p : Option Char} {x A : Str} (hx : '>' ∉ x) (hn : '\n' ∉ x) :
    First u angle ⟨p, '<' :: (x ++ '>' :: A), []⟩ A [(1, x)] := by
  refine first_chr (first_lazy hn (fun z p' c'' h1 h2 => ?_) (fun p' => first_chr (first_eps _ _ _ _)))
  refine run_none (fun a m b c' e h => ?_)
  obtain ⟨m1, m2, k1, rfl, h3, _⟩ := matches_seq h
  obtain ⟨rfl, _⟩ := matches_chr h3
  cases z with
  | nil => exact h1 rfl
  | cons d z =>
    have := (List.cons.inj e).1
    subst this
    exact hx (h2.subset (by simp))

/-- A suffix of a text that does not end with white space. -/
theorem suffix_ink {y z : Str} (hy : ∀ c, y.getLast? = some c → isSpace c = false) (h1 : z ≠ []) (h2 : z <:+ y) : ∃ e ∈ z, isSpace e = false := by
  obtain ⟨a, rfl⟩ := h2
  rcases List.eq_nil_or_concat z with rfl | ⟨z', d, rfl⟩
  · exact absurd rfl h1
  · rw [List.concat_eq_append] at *
    refine ⟨d, by simp, hy d ?_⟩
    rw [← List.append_assoc, List.getLast?_append_of_ne_nil _ (by simp)]
    rfl

theorem head_space {a s : Str} {d : Char} {r : Str} (h : ∀ c, a.head? = some c → isSpace c = false) (hs : ∀ d r, s = d :: r → isSpace d = false)
    (e : a ++ s = d :: r) : isSpace d = false := by
  cases a with
  | nil => exact hs d r e
  | cons c a => obtain ⟨rfl, _⟩ := List.cons.inj e; exact h c rfl

/-- `\s*(.*?)\s*d` takes the text up to `d` without the white space around it. -/
theorem first_trim {u : Char → Bool} {k : Re} {n : Nat} {d : Char} {p : Option Char} {x s b : Str} {c c' : List (Nat × Str)} (hd : isSpace d = false)
    (hx : d ∉ x) (hn : '\n' ∉ x) (h : ∀ p', First u k ⟨p', s, (n, strip x) :: c⟩ b c') :
    First u (.seq reS0 (.seq (reLazy n) (.seq reS0 (.seq (.chr d) k)))) ⟨p, x ++ d :: s, c⟩ b c' := by
  obtain ⟨a, a', e, ha, ha'⟩ := Num.strip_decomp x
  obtain ⟨hc1, hc2⟩ := Num.strip_clean x
  have hm : ∀ c ∈ strip x, c ∈ x := fun c hc => by rw [e]; simp [hc]
  have hsp : ∀ (e : Char) (r : Str), d :: s = e :: r → isSpace e = false := fun e r he => by obtain ⟨rfl, _⟩ := List.cons.inj he; exact hd
  generalize strip x = y at *
  subst e
  rw [show a ++ y ++ a' ++ d :: s = a ++ (y ++ (a' ++ d :: s)) by simp only [List.append_assoc]]
  by_cases hy : y = []
  · subst hy
    have e3 : a ++ ([] ++ (a' ++ d :: s)) = (a ++ a') ++ ([] ++ d :: s) := by simp
    rw [e3]
    refine first_space (fun x hx => (List.mem_append.1 hx).elim (ha x) (ha' x)) (by simpa using hsp) (fun p' => ?_)
    refine first_lazy (by simp) (fun z p' c'' h1 h2 => absurd (List.suffix_nil.1 h2) h1) (fun p' => ?_)
    have e4 : d :: s = [] ++ d :: s := rfl
    rw [e4]
    exact first_space (by simp) hsp (fun p' => first_chr (h _))
  · refine first_space ha ?_ (fun p' => ?_)
    · intro e r he
      cases y with
      | nil => exact absurd rfl hy
      | cons c y => obtain ⟨rfl, _⟩ := List.cons.inj he; exact hc1 c rfl
    · refine first_lazy (fun hh => hn (hm _ hh)) (fun z p' c'' h1 h2 => ?_) (fun p' => first_space ha' hsp (fun p' => first_chr (h _)))
      rw [show z ++ (a' ++ d :: s) = (z ++ a') ++ d :: s by simp only [List.append_assoc]]
      obtain ⟨w, hw, hws⟩ := suffix_ink hc2 h1 h2
      refine space_chr_none (fun hh => ?_) ⟨w, by simp [hw], hws⟩
      rcases List.mem_append.1 hh with hh | hh
      · exact hx (hm d (h2.subset hh))
      · exact hx (by simp [hh])

theorem first_vector {u : Char → Bool} {p : Option Char} {x A : Str} (hx : '>' ∉ x) (hn : '\n' ∉ x) :
    First u (.seq reS0 (.seq (.chr '<') (.seq reS0 (.seq (reLazy 1) (.seq reS0 (.seq (.chr '>') .eps)))))) ⟨p, '<' :: (x ++ '>' :: A), []⟩ A [(1, strip x)] := by
  refine first_space (sp := []) (by simp) (fun d r e => by obtain ⟨rfl, _⟩ := List.cons.inj e; rfl) (fun p' => first_chr ?_)
  exact first_trim rfl hx hn (fun p' => first_eps _ _ _ _)

theorem first_comma {u : Char → Bool} {p : Option Char} {x y A : Str} (hc : ',' ∉ x) (hn : '\n' ∉ x) (hy : '>' ∉ y) (hn' : '\n' ∉ y) :
    First u (.seq reS0 (.seq (reLazy 1) comma)) ⟨p, x ++ ',' :: (y ++ '>' :: A), []⟩ A [(2, strip y), (1, strip x)] :=
  first_trim rfl hc hn (fun p' => first_trim rfl hy hn' (fun p'' => first_eps _ _ _ _))

theorem first_array {u : Char → Bool} {p : Option Char} {x y A : Str} (hc : ',' ∉ x) (hn : '\n' ∉ x) (hy : '>' ∉ y) (hn' : '\n' ∉ y) :
    First u (.seq reS0 (.seq (.chr '<') (.seq reS0 (.seq (reLazy 1) comma)))) ⟨p, '<' :: (x ++ ',' :: (y ++ '>' :: A)), []⟩ A [(2, strip y), (1, strip x)] :=
  first_space (sp := []) (by simp) (fun d r e => by obtain ⟨rfl, _⟩ := List.cons.inj e; rfl) (fun p' => first_chr (first_comma hc hn hy hn'))

theorem first_map {u : Char → Bool} {p : Option Char} {x y A : Str} (hc : ',' ∉ x) (hn : '\n' ∉ x) (hy : '>' ∉ y) (hn' : '\n' ∉ y) :
    First u (.seq (.chr '<') (.seq reS0 (.seq (reLazy 1) comma))) ⟨p, '<' :: (x ++ ',' :: (y ++ '>' :: A)), []⟩ A [(2, strip y), (1, strip x)] :=
  first_chr (first_comma hc hn hy hn')

/-! ### `std::function` -/

theorem matches_star_any {u : Char → Bool} {g : Bool} {m : Str} (hm : '\n' ∉ m) : ∀ (a b : Str) (k : List (Nat × Str)), Matches u (.star g .any) a m b k k := by
  induction m with
  | nil => intro a b k; exact .starNil _ _ _ _ _
  | cons c m ih =>
    intro a b k
    refine .starCons g .any a [c] m b k k k (by simp) (.any c _ _ _ (fun e => hm (by simp [e]))) (ih (fun h => hm (by simp [h])) _ _ _)

theorem matches_greedy {u : Char → Bool} {n : Nat} {m : Str} (hm : '\n' ∉ m) (a b : Str) (k : List (Nat × Str)) : Matches u (reGreedy n) a m b k ((n, m) :: k) := by
  refine .group n _ a m b k k ?_
  have := Matches.seq (u := u) (.star true .any) .eps a m [] b k k k (matches_star_any hm _ _ _) (.eps _ _ _)
  rwa [List.append_nil] at this

theorem caps_star_any {u : Char → Bool} {g : Bool} {a m b : Str} {k k' : List (Nat × Str)} (h : Matches u (.star g .any) a m b k k') : k' = k := by
  generalize hr : Re.star g .any = r at h
  induction h with
  | starNil => rfl
  | starCons g r a m m' b k k1 k2 _ h1 _ _ ih =>
    obtain ⟨rfl, rfl⟩ := Re.star.inj hr
    have := ih rfl
    cases h1
    exact this
  | _ => cases hr

theorem greedy_caps {u : Char → Bool} {n : Nat} {a m b : Str} {k k' : List (Nat × Str)} (h : Matches u (reGreedy n) a m b k k') : k' = (n, m) :: k := by
  unfold reGreedy at h
  cases h with
  | group _ _ _ _ _ _ _ h =>
    obtain ⟨m1, m2, k1, rfl, h1, h2⟩ := matches_seq h
    obtain ⟨rfl, rfl⟩ := matches_eps h2
    rw [caps_star_any h1]

/-- A text is cut at its only `d`. -/
theorem only_cut {d : Char} {a b a' b' : Str} (h1 : d ∉ a) (h2 : d ∉ b) (e : a ++ d :: b = a' ++ d :: b') : a' = a ∧ b' = b := by
  rcases List.append_eq_append_iff.1 e with ⟨x, e1, e2⟩ | ⟨x, e1, e2⟩
  · cases x with
    | nil => rw [List.append_nil] at e1; exact ⟨e1, (List.cons.inj e2).2.symm⟩
    | cons y x =>
      obtain ⟨rfl, e3⟩ := List.cons.inj e2
      exact absurd (by rw [e3]; simp) h2
  · cases x with
    | nil => rw [List.append_nil] at e1; exact ⟨e1.symm, (List.cons.inj e2).2⟩
    | cons y x =>
      obtain ⟨rfl, e3⟩ := List.cons.inj e2
      exact absurd (by rw [e1]; simp) h1

def functionRe : Re := .seq (.chr '<') (.seq (reGreedy 1) (.seq (.chr '(') (.seq (reGreedy 2) (lits ")>".toList .eps))))

theorem first_function {u : Char → Bool} {p : Option Char} {r ps A : Str} (h1 : '(' ∉ r) (h2 : '(' ∉ ps) (hr : '>' ∉ r) (hp : '>' ∉ ps) (hA : '>' ∉ A)
    (n1 : '\n' ∉ r) (n2 : '\n' ∉ ps) : First u functionRe ⟨p, '<' :: ((r ++ '(' :: ps ++ ")".toList) ++ '>' :: A), []⟩ A [(2, ps), (1, r)] := by
  have hpe : p = (p.toList).getLast? := by cases p <;> rfl
  have hex : Matches u functionRe p.toList ('<' :: (r ++ ('(' :: (ps ++ ")>".toList)))) A [] [(2, ps), (1, r)] := by
    refine .seq _ _ _ ['<'] _ _ _ _ _ (.chr _ _ _ _) ?_
    refine .seq _ _ _ r _ _ _ _ _ (matches_greedy n1 _ _ _) ?_
    refine .seq _ _ _ ['('] _ _ _ _ _ (.chr _ _ _ _) ?_
    refine .seq _ _ _ ps _ _ _ _ _ (matches_greedy n2 _ _ _) ?_
    refine .seq _ _ _ [')'] ['>'] _ _ _ _ (.chr _ _ _ _) ?_
    exact .seq _ _ _ ['>'] [] _ _ _ _ (.chr _ _ _ _) (.eps _ _ _)
  obtain ⟨k', hrun⟩ := run_complete hex []
  have e : '<' :: (r ++ ('(' :: (ps ++ ")>".toList))) ++ A = '<' :: ((r ++ '(' :: ps ++ ")".toList) ++ '>' :: A) := by
    simp only [List.append_assoc, List.cons_append]
    rfl
  rw [e, ← hpe] at hrun
  cases hl : run u functionRe ⟨p, '<' :: ((r ++ '(' :: ps ++ ")".toList) ++ '>' :: A), []⟩ with
  | nil => rw [hl] at hrun; cases hrun
  | cons t ts =>
    refine ⟨t, ts, hl, ?_⟩
    rw [hpe] at hl
    obtain ⟨m, e1, _, hm⟩ := run_sound u functionRe p.toList _ [] t (by rw [hl]; simp)
    obtain ⟨m1, m2, k1, rfl, g1, g2⟩ := matches_seq hm
    obtain ⟨rfl, rfl⟩ := matches_chr g1
    obtain ⟨m3, m4, k2, rfl, g3, g4⟩ := matches_seq g2
    have c1 := greedy_caps g3
    obtain ⟨m5, m6, k3, rfl, g5, g6⟩ := matches_seq g4
    obtain ⟨rfl, rfl⟩ := matches_chr g5
    obtain ⟨m7, m8, k4, rfl, g7, g8⟩ := matches_seq g6
    have c2 := greedy_caps g7
    obtain ⟨m9, rfl, g9⟩ := matches_lits _ g8
    obtain ⟨rfl, c3⟩ := matches_eps g9
    have e2 : (r ++ '(' :: ps ++ ")".toList) ++ '>' :: A = (m3 ++ '(' :: m7 ++ ")".toList) ++ '>' :: t.rest := by
      have := (List.cons.inj e1).2
      refine this.trans ?_
      show m3 ++ ('(' :: (m7 ++ [')', '>'])) ++ t.rest = _
      simp only [List.append_assoc, List.cons_append, List.nil_append]
      rfl
    obtain ⟨e3, e4⟩ := only_cut (by
      intro h
      rcases List.mem_append.1 h with h | h
      · rcases List.mem_append.1 h with h | h
        · exact hr h
        · rcases List.mem_cons.1 h with h | h
          · cases h
          · exact hp h
      · exact absurd h (by decide)) hA e2
    have e5 : r ++ '(' :: ps = m3 ++ '(' :: m7 := (List.append_cancel_right e3).symm
    obtain ⟨e6, e7⟩ := only_cut h1 h2 e5
    refine ⟨e4, ?_⟩
    rw [c3, c2, c1, e6, e7]

/-! ### A rule for `std::K`, where it matches -/

theorem ends_sep {u : Char → Bool} {c : Char} (hc : isWordChar u c = false) (a : Str) : ¬ EndsInWord u (a ++ [c]) := by
  rw [ends_concat, hc]
  simp

theorem sub_std {u : Char → Bool} {K : Str} {k : Re} (hK : Ident u K) (hk : Stops u k) (t : List Tok) {P R A : Str} {c : List (Nat × Str)}
    (hP : ¬ EndsInWord u P) (hPs : .word "std".toList ∉ cut u P) (hAs : .word "std".toList ∉ cut u A)
    (h : ∀ p, First u k ⟨p, R ++ A, []⟩ A c) :
    sub u (stdRe K k) t (P ++ ("std".toList ++ ("::".toList ++ (K ++ (R ++ A))))) = P ++ (expand c t ++ A) := by
  have hst : Stops u (lits "::".toList (lits K k)) := stops_chr (colon_sep u) _
  have hhead : Headed u "std".toList (stdRe K k) := headed_lits (stdIdent u) hst
  have hne : NeverEmpty u (stdRe K k) := neverEmpty_lits (by decide) _
  have q1 : Quiet u (stdRe K k) [] P ("std".toList ++ ("::".toList ++ (K ++ (R ++ A)))) := by
    rcases List.eq_nil_or_concat P with rfl | ⟨x, d, rfl⟩
    · exact quiet_nil _ _ _ _
    · rw [List.concat_eq_append] at *
      have hd : isWordChar u d = false := by
        have : ¬ isWordChar u d = true := fun h => hP (ends_concat.2 h)
        simpa using this
      rw [quiet_append]
      refine ⟨?_, quiet_sep (stdIdent u) hhead hd _ _⟩
      have hx : cut u (x ++ [d]) = cut u x ++ [.sep d] := cut_append_sep u d hd x []
      have := quiet_pieces (stdIdent u) hhead (l := cut u x) [] ([d] ++ ("std".toList ++ ("::".toList ++ (K ++ (R ++ A))))) (cut_spec u _).1
        (fun h => hPs (by rw [hx]; exact List.mem_append_left _ h)) (by rw [List.singleton_append, begins_cons, hd]; simp)
      rwa [(cut_spec u _).2] at this
  obtain ⟨st, ts, h1, h2, h3⟩ := h (P ++ "std".toList ++ "::".toList ++ K).getLast?
  have hm : matchAt u (stdRe K k) P.getLast? (("std".toList ++ ("::".toList ++ (K ++ R))) ++ A) = some st := by
    have e : ("std".toList ++ ("::".toList ++ (K ++ R))) ++ A = "std".toList ++ ("::".toList ++ (K ++ (R ++ A))) := by simp only [List.append_assoc]
    rw [e]
    unfold matchAt stdRe
    rw [run_wordB (fun e => hP (e.2 (begins_append (stdIdent u).1 (stdIdent u).2))), run_lits, run_lits, run_lits, h1]
    rfl
  have q2 : Quiet u (stdRe K k) (P ++ ("std".toList ++ ("::".toList ++ (K ++ R)))) A [] := by
    have := quiet_pieces (stdIdent u) hhead (l := cut u A) (P ++ ("std".toList ++ ("::".toList ++ (K ++ R)))) [] (cut_spec u _).1 hAs
      (by rintro ⟨c, hc, _⟩; cases hc)
    rwa [(cut_spec u _).2] at this
  unfold sub
  have s1 := scan_quiet t P q1
  have s2 := scan_hit t (a := P) (by simp) hm h2
  have s3 := scan_quiet t A q2
  have s4 := scan_nil t (matchAt_nil hne (P ++ ("std".toList ++ ("::".toList ++ (K ++ R))) ++ A))
  rw [List.append_nil] at s3
  rw [s4, List.append_nil] at s3
  have e : P ++ ("std".toList ++ ("::".toList ++ (K ++ (R ++ A)))) = P ++ (("std".toList ++ ("::".toList ++ (K ++ R))) ++ A) := by
    simp only [List.append_assoc]
  rw [e]
  have e' : "std".toList ++ ("::".toList ++ (K ++ (R ++ A))) = ("std".toList ++ ("::".toList ++ (K ++ R))) ++ A := by simp only [List.append_assoc]
  rw [e', List.nil_append, s2, s3, h3] at s1
  exact s1

end Verif.Re
