import Verif.Re.Lemmas

/-! The replacement: what is kept and what is replaced. -/

namespace Verif.Re
open Verif.Py Spec
open Verif.Scope (isWordChar)

/-- The last character of `a ++ m` depends only on the last one of `a`. -/
theorem getLast?_append_eq (a m : Str) : (a ++ m).getLast? = m.getLast?.or a.getLast? := List.getLast?_append

theorem fits_iff (u : Char → Bool) (r : Re) (a s : Str) (k : List (Nat × Str)) :
    run u r ⟨a.getLast?, s, k⟩ ≠ [] ↔ ∃ m b, s = m ++ b ∧ Fits u r a m b := by
  constructor
  · intro h
    obtain ⟨t, ht⟩ := List.exists_mem_of_ne_nil _ h
    obtain ⟨m, e1, _, e3⟩ := run_sound u r a s k t ht
    obtain ⟨k1, hk1⟩ := run_complete e3 []
    obtain ⟨m2, f1, _, f3⟩ := run_sound u r a (m ++ t.rest) [] _ hk1
    have : m2 = m := (List.append_cancel_right f1).symm
    subst this
    exact ⟨m2, t.rest, e1, k1, f3⟩
  · rintro ⟨m, b, rfl, k1, h⟩ e
    obtain ⟨k2, hk⟩ := run_complete h k
    rw [e] at hk
    cases hk

theorem matchAt_none_iff (u : Char → Bool) (r : Re) (a s : Str) :
    matchAt u r a.getLast? s = none ↔ ∀ m b, s = m ++ b → ¬ Fits u r a m b := by
  unfold matchAt
  rw [List.head?_eq_none_iff]
  constructor
  · intro h m b e hf
    exact (fits_iff u r a s []).2 ⟨m, b, e, hf⟩ h
  · intro h
    refine Classical.byContradiction (fun hne => ?_)
    obtain ⟨m, b, e, hf⟩ := (fits_iff u r a s []).1 hne
    exact h m b e hf

theorem matchAt_some {u : Char → Bool} {r : Re} {a s : Str} {t : St} (h : matchAt u r a.getLast? s = some t) :
    ∃ m, s = m ++ t.rest ∧ t.prev = (a ++ m).getLast? ∧ Matches u r a m t.rest [] t.caps :=
  run_sound u r a s [] t (List.mem_of_head? h)

theorem scan_skip (u : Char → Bool) (r : Re) (tmpl : List Tok) (m : Str) : ∀ (a b : Str),
    scan u r tmpl a.getLast? m.length (m ++ b) = scan u r tmpl (a ++ m).getLast? 0 b := by
  induction m with
  | nil => intro a b; simp
  | cons c m ih =>
    intro a b
    rw [List.cons_append, List.length_cons, scan]
    have := ih (a ++ [c]) b
    rw [getLast?_append_one] at this
    rw [this, List.append_assoc]
    rfl

/-- One match that is not empty. -/
theorem scan_hit {u : Char → Bool} {r : Re} (tmpl : List Tok) {a m b : Str} {t : St} (hm : m ≠ [])
    (h : matchAt u r a.getLast? (m ++ b) = some t) (ht : t.rest = b) :
    scan u r tmpl a.getLast? 0 (m ++ b) = expand t.caps tmpl ++ scan u r tmpl (a ++ m).getLast? 0 b := by
  cases m with
  | nil => exact absurd rfl hm
  | cons c m =>
    rw [List.cons_append] at h ⊢
    rw [scan, h]
    dsimp only
    have hn : (c :: (m ++ b)).length - t.rest.length = m.length + 1 := by
      rw [ht]
      simp only [List.length_cons, List.length_append]
      omega
    rw [hn, if_pos (by omega), Nat.add_sub_cancel]
    have := scan_skip u r tmpl m (a ++ [c]) b
    rw [getLast?_append_one] at this
    rw [this, List.append_assoc]
    rfl

theorem scan_keep {u : Char → Bool} {r : Re} (tmpl : List Tok) {a s : Str} {c : Char} (h : matchAt u r a.getLast? (c :: s) = none) :
    scan u r tmpl a.getLast? 0 (c :: s) = c :: scan u r tmpl (a ++ [c]).getLast? 0 s := by
  rw [scan, h, getLast?_append_one]

theorem scan_nil {u : Char → Bool} {r : Re} (tmpl : List Tok) {a : Str} (h : matchAt u r a.getLast? [] = none) :
    scan u r tmpl a.getLast? 0 [] = [] := by
  rw [scan, h]

/-- The expression matches no empty text. -/
def NeverEmpty (u : Char → Bool) (r : Re) : Prop := ∀ a b, ¬ Fits u r a [] b

theorem matchAt_nil {u : Char → Bool} {r : Re} (h : NeverEmpty u r) (a : Str) : matchAt u r a.getLast? [] = none := by
  rw [matchAt_none_iff]
  intro m b e hf
  have := List.append_eq_nil_iff.1 e.symm
  rw [this.1] at hf
  exact h _ _ hf

/-- The replacement meets its specification. -/
theorem scan_replaced {u : Char → Bool} {r : Re} (tmpl : List Tok) (hr : NeverEmpty u r) (n : Nat) : ∀ (a s : Str), s.length = n →
    Replaced u r tmpl a s (scan u r tmpl a.getLast? 0 s) := by
  induction n using Nat.strongRecOn with
  | _ n ih =>
    intro a s hn
    cases s with
    | nil => rw [scan_nil tmpl (matchAt_nil hr a)]; exact .done a
    | cons c s =>
      cases hm : matchAt u r a.getLast? (c :: s) with
      | none =>
        rw [scan_keep tmpl hm]
        refine .keep a c s _ ((matchAt_none_iff u r a _).1 hm) (ih s.length ?_ _ _ rfl)
        rw [← hn]
        simp
      | some t =>
        obtain ⟨m, e1, e2, e3⟩ := matchAt_some hm
        have hne : m ≠ [] := by
          rintro rfl
          obtain ⟨k1, hk1⟩ := run_complete e3 []
          exact hr _ _ ⟨_, e3⟩
        rw [e1] at hm ⊢
        rw [scan_hit tmpl hne hm rfl]
        refine .hit a m t.rest t.caps _ hne e3 (ih t.rest.length ?_ _ _ rfl)
        rw [← hn, e1, List.length_append]
        have := List.length_pos_iff.2 hne
        omega

/-! ### Parts of a text where no match begins -/

/-- No match begins in `x`, after `a` and before `b`. -/
def Quiet (u : Char → Bool) (r : Re) (a x b : Str) : Prop :=
  ∀ x1 c x2, x = x1 ++ c :: x2 → ∀ m b', c :: x2 ++ b = m ++ b' → ¬ Fits u r (a ++ x1) m b'

theorem quiet_nil (u : Char → Bool) (r : Re) (a b : Str) : Quiet u r a [] b := by
  intro x1 c x2 h
  simp at h

theorem quiet_cons {u : Char → Bool} {r : Re} {a x b : Str} {c : Char} :
    Quiet u r a (c :: x) b ↔ (∀ m b', c :: x ++ b = m ++ b' → ¬ Fits u r a m b') ∧ Quiet u r (a ++ [c]) x b := by
  constructor
  · intro h
    refine ⟨fun m b' e => by simpa using h [] c x rfl m b' e, fun x1 d x2 e m b' e' => ?_⟩
    have := h (c :: x1) d x2 (by rw [e]; rfl) m b' e'
    simpa using this
  · rintro ⟨h1, h2⟩ x1 d x2 e m b' e'
    cases x1 with
    | nil =>
      rw [List.nil_append, List.cons.injEq] at e
      obtain ⟨rfl, rfl⟩ := e
      simpa using h1 m b' e'
    | cons y x1 =>
      rw [List.cons_append, List.cons.injEq] at e
      obtain ⟨rfl, rfl⟩ := e
      have := h2 x1 d x2 rfl m b' e'
      simpa using this

theorem quiet_append {u : Char → Bool} {r : Re} (x : Str) : ∀ {a y b : Str}, Quiet u r a (x ++ y) b ↔ Quiet u r a x (y ++ b) ∧ Quiet u r (a ++ x) y b := by
  induction x with
  | nil => intro a y b; simp [quiet_nil]
  | cons c x ih =>
    intro a y b
    rw [List.cons_append, quiet_cons, quiet_cons, ih]
    simp only [List.cons_append, List.append_assoc, List.nil_append, and_assoc]

theorem scan_quiet {u : Char → Bool} {r : Re} (tmpl : List Tok) (x : Str) : ∀ {a b : Str}, Quiet u r a x b →
    scan u r tmpl a.getLast? 0 (x ++ b) = x ++ scan u r tmpl (a ++ x).getLast? 0 b := by
  induction x with
  | nil => intro a b _; simp
  | cons c x ih =>
    intro a b h
    rw [quiet_cons] at h
    have h1 : matchAt u r a.getLast? (c :: (x ++ b)) = none := (matchAt_none_iff u r a _).2 h.1
    rw [List.cons_append, scan_keep tmpl h1, ih h.2, List.append_assoc]
    rfl

/-- A text where no match begins is unchanged. -/
theorem sub_quiet {u : Char → Bool} {r : Re} (tmpl : List Tok) {s : Str} (hr : NeverEmpty u r) (h : Quiet u r [] s []) : sub u r tmpl s = s := by
  have := scan_quiet tmpl s h
  rw [List.append_nil, List.nil_append, scan_nil tmpl (matchAt_nil hr s), List.append_nil] at this
  exact this

end Verif.Re
