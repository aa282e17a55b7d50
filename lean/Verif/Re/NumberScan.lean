import Verif.Re.Number

/-! The numbers of a value lose their suffix. -/

namespace Verif.Re
open Verif.Py Spec Verif.Inst Verif.Inst.Spec
open Verif.Scope (isWordChar)

/-- The characters of a number without its suffix. -/
def NumCh (c : Char) : Prop := isDigit c = true ∨ c ∈ ".eE+-".toList

theorem core_numCh {s : Str} (h : Core s) : ∀ c ∈ s, NumCh c := by
  have hs : ∀ g, IsSign g → ∀ c ∈ g, NumCh c := by
    rintro g (rfl | rfl | rfl) c hc
    · cases hc
    · rw [List.mem_singleton.1 hc]; exact .inr (by decide)
    · rw [List.mem_singleton.1 hc]; exact .inr (by decide)
  obtain ⟨g, _, hg, ⟨i, f, e, hi, hi', hf, he, rfl⟩, rfl⟩ := h
  intro c hc
  rcases List.mem_append.1 hc with hc | hc
  · exact hs g hg c hc
  rcases List.mem_append.1 hc with hc | hc
  · exact .inl (hi' c hc)
  rcases List.mem_append.1 hc with hc | hc
  · rcases hf with rfl | ⟨d, hd, rfl⟩
    · cases hc
    · rcases List.mem_cons.1 hc with rfl | hc
      · exact .inr (by decide)
      · exact .inl (hd c hc)
  · rcases he with rfl | ⟨x, g', d, hx, hg', hd, hd', rfl⟩
    · cases hc
    · rcases List.mem_cons.1 hc with rfl | hc
      · rcases hx with rfl | rfl <;> exact .inr (by decide)
      rcases List.mem_append.1 hc with hc | hc
      · exact hs g' hg' c hc
      · exact .inl (hd' c hc)

theorem body_head {b : Str} (h : Body b) : ∃ c t, b = c :: t ∧ isDigit c = true := by
  obtain ⟨i, f, e, hi, hi', _, _, rfl⟩ := h
  cases i with
  | nil => exact absurd rfl hi
  | cons c i => exact ⟨c, i ++ (f ++ e), rfl, hi' c (by simp)⟩

theorem core_head {s : Str} (h : Core s) : ∃ c t, s = c :: t ∧ (isDigit c = true ∨ ((c = '+' ∨ c = '-') ∧ Body t)) := by
  obtain ⟨g, b, hg, hb, rfl⟩ := h
  rcases hg with rfl | rfl | rfl
  · obtain ⟨c, t, rfl, hc⟩ := body_head hb
    exact ⟨c, t, rfl, .inl hc⟩
  · exact ⟨'+', b, rfl, .inr ⟨.inl rfl, hb⟩⟩
  · exact ⟨'-', b, rfl, .inr ⟨.inr rfl, hb⟩⟩

/-- A sign comes only after `e` or `E`; `p` is the character before. -/
def good (p : Char) : Str → Prop
  | [] => True
  | c :: s => ((c = '+' ∨ c = '-') → p = 'e' ∨ p = 'E') ∧ good c s

theorem good_digits {d s : Str} (hd : Digits d) (hs : ∀ p, good p s) (p : Char) : good p (d ++ s) := by
  induction d generalizing p with
  | nil => exact hs p
  | cons c d ih =>
    refine ⟨?_, ih (fun x hx => hd x (by simp [hx])) c⟩
    have hc := hd c (by simp)
    rintro (rfl | rfl) <;> exact absurd hc (by decide)

theorem good_body {b : Str} (h : Body b) (p : Char) : good p b := by
  obtain ⟨i, f, e, hi, hi', hf, he, rfl⟩ := h
  have h1 : ∀ p, good p e := by
    intro p
    rcases he with rfl | ⟨x, g', d, hx, hg', hd, hd', rfl⟩
    · trivial
    · have hD : ∀ q, good q d := by
        intro q
        have := good_digits (s := []) hd' (fun _ => trivial) q
        rwa [List.append_nil] at this
      refine ⟨?_, ?_⟩
      · rcases hx with rfl | rfl <;> (rintro (h | h) <;> exact absurd h (by decide))
      · rcases hg' with rfl | rfl | rfl
        · exact hD _
        · exact ⟨fun _ => hx, hD _⟩
        · exact ⟨fun _ => hx, hD _⟩
  refine good_digits hi' (fun p => ?_) p
  rcases hf with rfl | ⟨d, hd, rfl⟩
  · exact h1 p
  · refine ⟨?_, good_digits hd h1 _⟩
    rintro (h | h) <;> exact absurd h (by decide)

theorem good_split {x y : Str} {c : Char} (hc : c = '+' ∨ c = '-') : ∀ {p : Char}, good p (x ++ c :: y) →
    x.getLast?.getD p = 'e' ∨ x.getLast?.getD p = 'E' := by
  induction x with
  | nil => intro p h; exact h.1 hc
  | cons d x ih =>
    intro p h
    have := ih h.2
    cases x with
    | nil => exact this
    | cons e x => rwa [List.getLast?_cons_cons, List.getLast?_eq_some_getLast (List.cons_ne_nil _ _)] at *

/-- In a number, a sign which is not the first character comes after `e` or `E`. -/
theorem core_sign {s x y : Str} {c : Char} (h : Core s) (hc : c = '+' ∨ c = '-') (e : s = x ++ c :: y) (hx : x ≠ []) :
    x.getLast? = some 'e' ∨ x.getLast? = some 'E' := by
  obtain ⟨g, b, hg, hb, rfl⟩ := h
  have hb0 := good_body hb '0'
  have key : ∀ z, b = z ++ c :: y → z.getLast? = some 'e' ∨ z.getLast? = some 'E' := by
    intro z e
    rw [e] at hb0
    cases hz : z.getLast? with
    | none =>
      have := good_split hc hb0
      rw [hz] at this
      rcases this with h | h <;> exact absurd h (by decide)
    | some q =>
      have := good_split hc hb0
      rw [hz] at this
      rcases this with h | h
      · exact .inl (congrArg some h)
      · exact .inr (congrArg some h)
  have step : ∀ d, d :: b = x ++ c :: y → x.getLast? = some 'e' ∨ x.getLast? = some 'E' := by
    intro d e
    cases x with
    | nil => exact absurd rfl hx
    | cons d' x =>
      have e2 := (List.cons.inj e).2
      have := key x e2
      cases x with
      | nil => rcases this with h | h <;> cases h
      | cons q x => rw [List.getLast?_cons_cons]; exact this
  rcases hg with rfl | rfl | rfl
  · exact key x e
  · exact step _ e
  · exact step _ e

theorem body_last {b : Str} (h : Body b) : b.getLast? ≠ some 'e' ∧ b.getLast? ≠ some 'E' := by
  obtain ⟨i, f, e, hi, hi', hf, he, rfl⟩ := h
  have hd : ∀ d, d ≠ [] → Digits d → ∀ x : Str, (x ++ d).getLast? ≠ some 'e' ∧ (x ++ d).getLast? ≠ some 'E' := by
    intro d hne hd x
    have h1 : (x ++ d).getLast? = some (d.getLast hne) := by
      rw [List.getLast?_append, List.getLast?_eq_some_getLast hne]; rfl
    have h2 := hd _ (List.getLast_mem hne)
    rw [h1]
    constructor
    · intro h; rw [Option.some.inj h] at h2; exact absurd h2 (by decide)
    · intro h; rw [Option.some.inj h] at h2; exact absurd h2 (by decide)
  rcases he with rfl | ⟨x, g', d, hx, hg', hd1, hd', rfl⟩
  · rw [List.append_nil]
    rcases hf with rfl | ⟨d, hd1, rfl⟩
    · rw [List.append_nil]; exact hd i hi hi' []
    · cases d with
      | nil => rw [List.getLast?_append]; constructor <;> (intro h; exact absurd (Option.some.inj h) (by decide))
      | cons c d =>
        have := hd (c :: d) (by simp) hd1 (i ++ ['.'])
        rwa [List.append_assoc] at this
  · have := hd d hd1 hd' (i ++ (f ++ (x :: g')))
    simpa [List.append_assoc] using this

theorem alnum_word {u : Char → Bool} {c : Char} (h : Alnum c) : isWordChar u c = true := by
  unfold Alnum at h
  unfold isWordChar
  rw [if_pos (by omega)]
  rcases h with h | h | h <;> simp [h]

theorem digit_alnum {c : Char} (h : isDigit c = true) : Alnum c := by
  have hh : 48 ≤ c.toNat ∧ c.toNat ≤ 57 := by simpa [isDigit] using h
  exact .inr (.inr hh)

/-- The suffixes that are dropped. -/
structure Suffixes (fs : List Char) : Prop where
  letters : ∀ c ∈ fs, c ∈ "fFdD".toList

theorem suffix_not_numCh {c : Char} (h : c ∈ "uUlLzZfFdD".toList) : ¬ NumCh c := by
  have : ∀ c ∈ "uUlLzZfFdD".toList, isDigit c = false ∧ c ∉ ".eE+-".toList := by decide
  obtain ⟨h1, h2⟩ := this c h
  rintro (h | h)
  · rw [h1] at h; cases h
  · exact h2 h

theorem Suffixes.mem {fs : List Char} (hf : Suffixes fs) {c : Char} (h : c ∈ fs) : c ∈ "uUlLzZfFdD".toList := by
  have : ∀ c ∈ "fFdD".toList, c ∈ "uUlLzZfFdD".toList := by decide
  exact this c (hf.letters c h)

theorem suffix_word {u : Char → Bool} {c : Char} (h : c ∈ "uUlLzZfFdD".toList) : isWordChar u c = true := by
  have h0 : ∀ c ∈ "uUlLzZfFdD".toList, isWordChar (fun _ => false) c = true ∧ c.toNat < 128 := by decide
  obtain ⟨h1, h2⟩ := h0 c h
  unfold isWordChar at h1 ⊢
  rw [if_pos h2] at h1 ⊢
  exact h1

/-- Two ways to cut a text in a part of a number and what follows. -/
theorem cut_eq {x y s t : Str} {c d : Char} (hx : ∀ q ∈ x, NumCh q) (hy : ∀ q ∈ y, NumCh q) (hc : ¬ NumCh c) (hd : ¬ NumCh d)
    (e : x ++ c :: s = y ++ d :: t) : x = y ∧ c = d ∧ s = t := by
  induction x generalizing y with
  | nil =>
    cases y with
    | nil => obtain ⟨rfl, rfl⟩ := List.cons.inj e; exact ⟨rfl, rfl, rfl⟩
    | cons q y => exact absurd ((List.cons.inj e).1 ▸ hy q (by simp)) hc
  | cons p x ih =>
    cases y with
    | nil => exact absurd ((List.cons.inj e).1 ▸ hx p (by simp)) hd
    | cons q y =>
      obtain ⟨rfl, e'⟩ := List.cons.inj e
      obtain ⟨rfl, h⟩ := ih (fun z hz => hx z (by simp [hz])) (fun z hz => hy z (by simp [hz])) e'
      exact ⟨rfl, h⟩

/-- No match begins in a number whose suffix is kept. -/
theorem no_match {u : Char → Bool} {fs : List Char} (hf : Suffixes fs) {a r s t m b : Str} (hr : r ≠ []) (hr' : ∀ c ∈ r, NumCh c)
    (hl : r.getLast? ≠ some 'e' ∧ r.getLast? ≠ some 'E') (hs : ∀ c ∈ s, c ∈ "uUlLzZfFdD".toList) (hk : ∀ c, c ∈ fs → s ≠ [c])
    (ht : ¬ BeginsWithWord u t) (hdot : t.head? ≠ some '.') (e : r ++ s ++ t = m ++ b) : ¬ Fits u (reSuffix (fs.map .one)) a m b := by
  rintro ⟨k, h⟩
  obtain ⟨_, hb, q, f, hq, hfs, rfl, _⟩ := matches_suffix h
  have hq' := core_numCh hq
  have hfn := suffix_not_numCh (hf.mem hfs)
  rw [List.append_assoc, List.append_assoc] at e
  cases s with
  | cons c s =>
    obtain ⟨rfl, rfl, e'⟩ := cut_eq hr' hq' (suffix_not_numCh (hs c (by simp))) hfn e
    cases s with
    | nil => exact hk c hfs rfl
    | cons d s =>
      have e2 : d :: (s ++ t) = b := e'
      rw [← e2, begins_cons, suffix_word (hs d (by simp))] at hb
      exact hb rfl
  | nil =>
    rw [List.nil_append] at e
    rcases List.append_eq_append_iff.1 e with ⟨z, rfl, e2⟩ | ⟨z, rfl, e2⟩
    · -- the number goes on after the end of r
      cases z with
      | nil =>
        rw [List.nil_append] at e2
        rw [e2, List.cons_append, begins_cons, suffix_word (hf.mem hfs)] at ht
        exact ht rfl
      | cons d z =>
        have hd := hq' d (by simp)
        rw [e2, List.cons_append, begins_cons] at ht
        rw [e2, List.cons_append] at hdot
        have hd2 : d = '+' ∨ d = '-' := by
          rcases hd with hd | hd
          · exfalso
            apply ht
            exact alnum_word (digit_alnum hd)
          · have : d ∈ ['.', 'e', 'E', '+', '-'] := hd
            rcases List.mem_cons.1 this with rfl | this
            · exact absurd rfl hdot
            rcases List.mem_cons.1 this with rfl | this
            · exact absurd rfl ht
            rcases List.mem_cons.1 this with rfl | this
            · exact absurd rfl ht
            simpa using this
        rcases core_sign hq hd2 rfl hr with h | h
        · exact hl.1 h
        · exact hl.2 h
    · -- the suffix is in r
      cases z with
      | nil =>
        rw [List.nil_append] at e2
        rw [← e2, List.cons_append, begins_cons, suffix_word (hf.mem hfs)] at ht
        exact ht rfl
      | cons d z =>
        rw [List.cons_append, List.cons_append, List.nil_append] at e2
        rw [(List.cons.inj e2).1] at hfn
        exact hfn (hr' d (by simp))

theorem neverEmpty_suffix (u : Char → Bool) (fs : List Char) : NeverEmpty u (reSuffix (fs.map .one)) := by
  rintro a b ⟨k, h⟩
  obtain ⟨_, _, q, f, _, _, e, _⟩ := matches_suffix h
  cases q <;> cases e

/-- A match begins with a digit or with a sign and a digit, and not after a letter or a digit. -/
theorem suffix_head {u : Char → Bool} {fs : List Char} {a m b t : Str} {c : Char} (h : Fits u (reSuffix (fs.map .one)) a m b)
    (e : c :: t = m ++ b) : (∀ d, a.getLast? = some d → ¬ Alnum d) ∧
    (isDigit c = true ∨ ((c = '+' ∨ c = '-') ∧ ∃ d, t.head? = some d ∧ isDigit d = true)) := by
  obtain ⟨k, h⟩ := h
  obtain ⟨ha, hb, q, f, hq, hfs, rfl, _⟩ := matches_suffix h
  refine ⟨ha, ?_⟩
  obtain ⟨d, r, rfl, hd⟩ := core_head hq
  obtain ⟨rfl, e2⟩ := List.cons.inj e
  rcases hd with hd | ⟨hd, hr⟩
  · exact .inl hd
  · obtain ⟨x, y, rfl, hx⟩ := body_head hr
    exact .inr ⟨hd, x, by rw [e2]; rfl, hx⟩

theorem quiet_one {u : Char → Bool} {r : Re} {a b : Str} {c : Char} (h : ∀ m b', c :: b = m ++ b' → ¬ Fits u r a m b') : Quiet u r a [c] b := by
  rw [quiet_cons]
  exact ⟨h, quiet_nil _ _ _ _⟩

/-- No number begins in a plain word. -/
theorem quiet_plain {u : Char → Bool} {fs : List Char} {w : Str} (hw : Ident u w) (hp : Plain w) (a b : Str) :
    Quiet u (reSuffix (fs.map .one)) a w b := by
  intro x c y e m b' e' hm
  obtain ⟨ha, hc⟩ := suffix_head hm e'
  rcases hc with hc | ⟨hc, _⟩
  · obtain ⟨p, h1, h2⟩ := hp x c y e hc
    refine ha p ?_ h2
    rw [List.getLast?_append, h1]
    rfl
  · have := hw.2 c (by rw [e]; simp)
    rcases hc with rfl | rfl <;> cases this

/-- No match begins in a number that is kept. -/
theorem quiet_num {u : Char → Bool} {fs : List Char} (hf : Suffixes fs) {g b s t : Str} (hg : IsSign g) (hb : Body b)
    (hs : ∀ c ∈ s, c ∈ "uUlLzZfFdD".toList) (hk : ∀ c, c ∈ fs → s ≠ [c])
    (ht : ¬ BeginsWithWord u t) (hdot : t.head? ≠ some '.') (a : Str) : Quiet u (reSuffix (fs.map .one)) a (g ++ b ++ s) t := by
  have hcore : Core (g ++ b) := ⟨g, b, hg, hb, rfl⟩
  intro x c y e m b' e' hm
  by_cases hx : x.length < (g ++ b).length
  · rcases List.append_eq_append_iff.1 e with ⟨z, rfl, e2⟩ | ⟨z, e1, e2⟩
    · simp only [List.length_append] at hx; omega
    · cases z with
      | nil => rw [e1, List.append_nil] at hx; omega
      | cons d z =>
        obtain ⟨rfl, rfl⟩ := List.cons.inj e2
        refine no_match (a := a ++ x) hf (r := c :: z) (by simp) (fun q hq => core_numCh hcore q (by rw [e1]; simp [List.mem_append.2 (.inr hq)]))
          ?_ hs hk ht hdot (by rw [← e']; simp) hm
        have hlast : (g ++ b).getLast? = (c :: z).getLast? := by
          rw [e1, List.getLast?_append, List.getLast?_eq_some_getLast (List.cons_ne_nil _ _)]; rfl
        have hlast2 : (g ++ b).getLast? = b.getLast? := by
          obtain ⟨q, r, rfl, _⟩ := body_head hb
          rw [List.getLast?_append, List.getLast?_eq_some_getLast (List.cons_ne_nil _ _)]; rfl
        rw [← hlast, hlast2]
        exact body_last hb
  · have hcs : c ∈ s := by
      rcases List.append_eq_append_iff.1 e with ⟨z, rfl, e2⟩ | ⟨z, e1, e2⟩
      · rw [e2]; simp
      · cases z with
        | nil => rw [List.nil_append] at e2; rw [← e2]; simp
        | cons d z => exfalso; apply hx; rw [e1]; simp
    obtain ⟨_, hc⟩ := suffix_head hm e'
    have h1 := suffix_not_numCh (hs c hcs)
    rcases hc with hc | ⟨hc, _⟩
    · exact h1 (.inl hc)
    · rcases hc with rfl | rfl <;> exact h1 (.inr (by decide))

/-- The match of a number that loses its suffix. -/
theorem hit_num {u : Char → Bool} {fs : List Char} (hf : Suffixes fs) {g b t a : Str} {c : Char} (hg : IsSign g) (hb : Body b) (hc : c ∈ fs)
    (ht : ¬ BeginsWithWord u t) (ha : ∀ d, a.getLast? = some d → ¬ Alnum d) :
    scan u (reSuffix (fs.map .one)) [.ref 1] a.getLast? 0 (g ++ b ++ [c] ++ t) =
      g ++ b ++ scan u (reSuffix (fs.map .one)) [.ref 1] (a ++ (g ++ b ++ [c])).getLast? 0 t := by
  have hcore : Core (g ++ b) := ⟨g, b, hg, hb, rfl⟩
  have hm := suffix (u := u) (fs := fs) ha ht hcore hc []
  cases h : matchAt u (reSuffix (fs.map .one)) a.getLast? (g ++ b ++ [c] ++ t) with
  | none =>
    rw [matchAt_none_iff] at h
    exact absurd ⟨_, hm⟩ (h _ _ rfl)
  | some x =>
    obtain ⟨m, e1, _, e3⟩ := matchAt_some h
    obtain ⟨_, hb', q, f, hq, hfs, rfl, hk⟩ := matches_suffix e3
    have e4 : g ++ b ++ c :: t = q ++ f :: x.rest := by simpa [List.append_assoc] using e1
    obtain ⟨h1, h2, h3⟩ := cut_eq (core_numCh hcore) (core_numCh hq) (suffix_not_numCh (hf.mem hc)) (suffix_not_numCh (hf.mem hfs)) e4
    have he : expand [(2, [f]), (1, g ++ b)] [.ref 1] = g ++ b := by
      show (g ++ b) ++ [] = g ++ b
      rw [List.append_nil]
    rw [scan_hit [.ref 1] (by simp) h h3.symm, hk, ← h1, he]

theorem vtext_cons (t : VTok) (l : List VTok) : vtext (t :: l) = t.text ++ vtext l := List.flatMap_cons

theorem apart_begins {u : Char → Bool} {l : List VTok} (h : Apart l) (hl : Lexed u l) : ¬ BeginsWithWord u (vtext l) := by
  match l, h, hl with
  | [], _, _ => rintro ⟨c, hc, _⟩; cases hc
  | .word w :: l, h, _ => exact absurd rfl (h.1 w l)
  | .num b s :: l, h, _ => exact absurd rfl (h.2 b s l)
  | .scope :: l, _, _ =>
    rw [vtext_cons]
    show ¬ BeginsWithWord u (':' :: (':' :: vtext l))
    rw [begins_cons]
    exact fun h => by cases h
  | .sep c :: l, _, hl =>
    rw [vtext_cons]
    show ¬ BeginsWithWord u (c :: vtext l)
    rw [begins_cons, hl.1]
    simp

theorem head_dot {u : Char → Bool} {l : List VTok} (h : Apart l) (hl : Lexed u l) (hd : ∀ m, l ≠ .sep '.' :: m) : (vtext l).head? ≠ some '.' := by
  match l, h, hl with
  | [], _, _ => exact fun h => by cases h
  | .word w :: l, h, _ => exact absurd rfl (h.1 w l)
  | .num b s :: l, h, _ => exact absurd rfl (h.2 b s l)
  | .scope :: l, _, _ =>
    intro h
    exact absurd (Option.some.inj h) (by decide)
  | .sep c :: l, _, hl =>
    intro h
    have : c = '.' := Option.some.inj h
    exact hd l (by rw [this])

/-- The suffix is dropped or not. -/
theorem drop_cases (fs : List Char) (b s : Str) : (∃ c, s = [c] ∧ c ∈ fs ∧ VTok.drop fs (.num b s) = .num b []) ∨
    ((∀ c, c ∈ fs → s ≠ [c]) ∧ VTok.drop fs (.num b s) = .num b s) := by
  match s with
  | [] => exact .inr ⟨fun c _ => by simp, rfl⟩
  | [c] =>
    by_cases h : c ∈ fs
    · exact .inl ⟨c, rfl, h, if_pos h⟩
    · exact .inr ⟨fun d hd e => h (by rw [(List.cons.inj e).1]; exact hd), if_neg h⟩
  | c :: d :: s => exact .inr ⟨fun c _ => by simp, rfl⟩

/-- The numbers lose their suffix and nothing else changes. -/
theorem scan_numbers {u : Char → Bool} {fs : List Char} (hf : Suffixes fs) : ∀ (l : List VTok) (a : Str), Lexed u l →
    ((∃ b s m, l = .num b s :: m) → ∀ d, a.getLast? = some d → ¬ Alnum d) →
    scan u (reSuffix (fs.map .one)) [.ref 1] a.getLast? 0 (vtext l) = vtext (l.map (VTok.drop fs))
  | [], a, _, _ => scan_nil _ (matchAt_nil (neverEmpty_suffix u fs) a)
  | .word w :: l, a, hl, _ => by
    rw [vtext_cons, List.map_cons, vtext_cons]
    show scan _ _ _ _ _ (w ++ vtext l) = w ++ _
    rw [scan_quiet _ _ (quiet_plain hl.1 hl.2.1 a (vtext l)), scan_numbers hf l _ hl.2.2.2]
    rintro ⟨b, s, m, e⟩
    exact absurd e (hl.2.2.1.2 b s m)
  | .scope :: l, a, hl, _ => by
    rw [vtext_cons, List.map_cons, vtext_cons]
    show scan _ _ _ _ _ (([':'] ++ [':']) ++ vtext l) = ([':'] ++ [':']) ++ _
    have hq : ∀ a t, Quiet u (reSuffix (fs.map .one)) a [':'] t := by
      intro a t
      refine quiet_one fun m b' e hm => ?_
      obtain ⟨_, hc⟩ := suffix_head hm e
      rcases hc with hc | ⟨hc, _⟩
      · exact absurd hc (by decide)
      · exact absurd hc (by decide)
    have hq2 : Quiet u (reSuffix (fs.map .one)) a ([':'] ++ [':']) (vtext l) := by
      rw [quiet_append]
      exact ⟨hq _ _, hq _ _⟩
    rw [scan_quiet _ _ hq2, scan_numbers hf l _ hl]
    intro _ d hd
    rw [← List.append_assoc, getLast?_append_one] at hd
    rw [← Option.some.inj hd]
    unfold Alnum
    decide
  | .num b s :: l, a, hl, ha => by
    obtain ⟨hb, hs, hap, hdot, _, hl'⟩ := hl
    have ha' := ha ⟨b, s, l, rfl⟩
    have ht := apart_begins hap hl'
    have ih := fun a => scan_numbers hf l a hl' (by rintro ⟨b, s, m, e⟩; exact absurd e (hap.2 b s m))
    rw [vtext_cons, List.map_cons, vtext_cons]
    rcases drop_cases fs b s with ⟨c, rfl, hc, e⟩ | ⟨hk, e⟩
    · rw [e]
      have := hit_num hf (g := []) (.inl rfl) hb hc ht ha'
      show scan _ _ _ _ _ (b ++ [c] ++ vtext l) = (b ++ []) ++ _
      rw [List.append_nil]
      rw [List.nil_append] at this
      rw [this, ih]
    · rw [e]
      show scan _ _ _ _ _ (b ++ s ++ vtext l) = (b ++ s) ++ _
      have := quiet_num hf (g := []) (.inl rfl) hb hs hk ht (head_dot hap hl' hdot) a
      rw [List.nil_append] at this
      rw [scan_quiet _ _ this, ih]
  | .sep c :: l, a, hl, _ => by
    have hc := hl.1
    have ih := scan_numbers hf l (a ++ [c]) hl.2.2 (by
      intro _ d hd ha
      rw [getLast?_append_one] at hd
      rw [← Option.some.inj hd] at ha
      rw [alnum_word ha] at hc
      cases hc)
    have quiet : Quiet u (reSuffix (fs.map .one)) a [c] (vtext l) →
        scan u (reSuffix (fs.map .one)) [.ref 1] a.getLast? 0 (vtext (.sep c :: l)) = vtext ((VTok.sep c :: l).map (VTok.drop fs)) := by
      intro hq
      rw [vtext_cons, List.map_cons, vtext_cons]
      show scan _ _ _ _ _ ([c] ++ vtext l) = [c] ++ _
      rw [scan_quiet _ _ hq, ih]
    by_cases hq : ∃ m b', c :: vtext l = m ++ b' ∧ Fits u (reSuffix (fs.map .one)) a m b'
    · obtain ⟨m, b', e, hm⟩ := hq
      obtain ⟨ha, hcc⟩ := suffix_head hm e
      rcases hcc with hcc | ⟨hcc, d, hd, hd'⟩
      · rw [alnum_word (digit_alnum hcc)] at hc
        cases hc
      · have hsg : IsSign [c] := by
          rcases hcc with rfl | rfl
          · exact .inr (.inl rfl)
          · exact .inr (.inr rfl)
        match l, hl, ih, quiet, e, hd with
        | [], _, _, _, _, hd => cases hd
        | .word w :: l, hl, _, _, _, hd =>
          exfalso
          obtain ⟨hw, hp, _⟩ := hl.2.2
          obtain ⟨x, y, rfl⟩ : ∃ x y, w = x :: y := List.exists_cons_of_ne_nil hw.1
          have : x = d := Option.some.inj hd
          subst this
          obtain ⟨p, h1, _⟩ := hp [] x y rfl hd'
          cases h1
        | .scope :: l, _, _, _, _, hd =>
          have : ':' = d := Option.some.inj hd
          subst this
          exact absurd hd' (by decide)
        | .sep x :: l, hl, _, _, _, hd =>
          have : x = d := Option.some.inj hd
          subst this
          have hx := hl.2.2.1
          rw [alnum_word (digit_alnum hd')] at hx
          cases hx
        | .num b s :: l, hl, _, quiet, e, _ =>
          obtain ⟨hb, hs, hap, hdot, _, hl'⟩ := hl.2.2
          have ht := apart_begins hap hl'
          rcases drop_cases fs b s with ⟨f, rfl, hf1, e1⟩ | ⟨hk, e1⟩
          · have ih2 := fun a => scan_numbers hf l a hl' (by rintro ⟨b, s, m, e⟩; exact absurd e (hap.2 b s m))
            have := hit_num hf hsg hb hf1 ht ha
            rw [vtext_cons, vtext_cons, List.map_cons, List.map_cons, vtext_cons, vtext_cons, e1]
            have e2 : (VTok.sep c).text ++ ((VTok.num b [f]).text ++ vtext l) = [c] ++ b ++ [f] ++ vtext l := by
              show [c] ++ ((b ++ [f]) ++ vtext l) = _
              simp
            rw [e2, this, ih2]
            show _ = [c] ++ ((b ++ []) ++ _)
            simp
          · refine quiet (quiet_one fun m b' e2 => ?_)
            have hqn := quiet_num hf hsg hb hs hk ht (head_dot hap hl' hdot) a
            have hqn2 : Quiet u (reSuffix (fs.map .one)) a (c :: (b ++ s)) (vtext l) := by simpa using hqn
            rw [quiet_cons] at hqn2
            refine hqn2.1 m b' ?_
            rw [← e2, vtext_cons]
            rfl
    · refine quiet (quiet_one fun m b' e hm => hq ⟨m, b', e, hm⟩)

theorem sub_numbers {u : Char → Bool} {fs : List Char} (hf : Suffixes fs) {l : List VTok} (hl : Lexed u l) :
    sub u (reSuffix (fs.map .one)) [.ref 1] (vtext l) = vtext (l.map (VTok.drop fs)) :=
  scan_numbers hf l [] hl (fun _ d hd => by cases hd)

end Verif.Re
