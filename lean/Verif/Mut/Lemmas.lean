import Verif.Mut.Model
import Verif.Mut.Spec
import Verif.Re.Scan

/-! The patterns of immutable values. -/

namespace Verif.Mut
open Verif.Py Verif.Re Verif.Re.Spec

/-- The texts of an expression that looks at nothing around it. -/
def Lang (u : Char → Bool) : Re → Str → Prop
  | .eps, m => m = []
  | .chr c, m => m = [c]
  | .any, m => ∃ c, m = [c] ∧ c ≠ '\n'
  | .set neg items, m => ∃ c, m = [c] ∧ if neg then ¬ InSet u items c else InSet u items c
  | .seq a b, m => ∃ x y, m = x ++ y ∧ Lang u a x ∧ Lang u b y
  | .alt a b, m => Lang u a m ∨ Lang u b m
  | .star _ r, m => ∃ l : List Str, (∀ x ∈ l, x ≠ [] ∧ Lang u r x) ∧ m = l.flatten
  | _, _ => False

def pure : Re → Bool
  | .eps => true
  | .chr _ => true
  | .any => true
  | .set _ _ => true
  | .seq a b => pure a && pure b
  | .alt a b => pure a && pure b
  | .star _ r => pure r
  | _ => false

theorem lang_of {u : Char → Bool} {r : Re} {a m b : Str} {k k' : List (Nat × Str)} (h : Matches u r a m b k k') : pure r = true → Lang u r m ∧ k' = k := by
  induction h with
  | eps => exact fun _ => ⟨rfl, rfl⟩
  | chr => exact fun _ => ⟨rfl, rfl⟩
  | any c a b k h => exact fun _ => ⟨⟨c, rfl, h⟩, rfl⟩
  | set items c a b k h => exact fun _ => ⟨⟨c, rfl, by simpa using h⟩, rfl⟩
  | notSet items c a b k h => exact fun _ => ⟨⟨c, rfl, by simpa using h⟩, rfl⟩
  | wordB => intro h; cases h
  | atEnd => intro h; cases h
  | notBehind => intro h; cases h
  | ahead => intro h; cases h
  | group => intro h; cases h
  | seq r q a m m' b k k' k'' _ _ ih1 ih2 =>
    intro hp
    rw [pure, Bool.and_eq_true] at hp
    obtain ⟨h1, e1⟩ := ih1 hp.1
    obtain ⟨h2, e2⟩ := ih2 hp.2
    exact ⟨⟨m, m', rfl, h1, h2⟩, e2.trans e1⟩
  | altL r q a m b k k' _ ih =>
    intro hp
    rw [pure, Bool.and_eq_true] at hp
    exact ⟨.inl (ih hp.1).1, (ih hp.1).2⟩
  | altR r q a m b k k' _ ih =>
    intro hp
    rw [pure, Bool.and_eq_true] at hp
    exact ⟨.inr (ih hp.2).1, (ih hp.2).2⟩
  | starNil => exact fun _ => ⟨⟨[], fun _ hx => (by cases hx), rfl⟩, rfl⟩
  | starCons g r a m m' b k k' k'' hm _ _ ih1 ih2 =>
    intro hp
    obtain ⟨h1, e1⟩ := ih1 hp
    obtain ⟨⟨l, hl, e⟩, e2⟩ := ih2 hp
    refine ⟨⟨m :: l, fun x hx => ?_, by rw [e]; rfl⟩, e2.trans e1⟩
    rcases List.mem_cons.1 hx with rfl | hx
    · exact ⟨hm, h1⟩
    · exact hl x hx

theorem matches_of {u : Char → Bool} : ∀ {r : Re} {m : Str}, pure r = true → Lang u r m → ∀ a b k, Matches u r a m b k k
  | .eps, _, _, h, a, b, k => by rw [show _ = [] from h]; exact .eps a b k
  | .chr c, _, _, h, a, b, k => by rw [show _ = [c] from h]; exact .chr c a b k
  | .any, _, _, h, a, b, k => by
    obtain ⟨c, rfl, hc⟩ := h
    exact .any c a b k hc
  | .set neg items, _, _, h, a, b, k => by
    obtain ⟨c, rfl, hc⟩ := h
    cases neg with
    | false => exact .set items c a b k (by simpa using hc)
    | true => exact .notSet items c a b k (by simpa using hc)
  | .seq r q, _, hp, h, a, b, k => by
    rw [pure, Bool.and_eq_true] at hp
    obtain ⟨x, y, rfl, h1, h2⟩ := h
    exact .seq r q a x y b k k k (matches_of hp.1 h1 _ _ _) (matches_of hp.2 h2 _ _ _)
  | .alt r q, _, hp, h, a, b, k => by
    rw [pure, Bool.and_eq_true] at hp
    rcases h with h | h
    · exact .altL r q a _ b k k (matches_of hp.1 h _ _ _)
    · exact .altR r q a _ b k k (matches_of hp.2 h _ _ _)
  | .star g r, _, hp, h, a, b, k => by
    obtain ⟨l, hl, rfl⟩ := h
    rw [pure] at hp
    induction l generalizing a with
    | nil => exact .starNil g r a b k
    | cons x l ih =>
      exact .starCons g r a x l.flatten b k k k (hl x (by simp)).1 (matches_of hp (hl x (by simp)).2 _ _ _)
        (ih (a ++ x) (fun y hy => hl y (List.mem_cons_of_mem _ hy)))
  | .wordB, _, hp, _, _, _, _ => by cases hp
  | .atEnd, _, hp, _, _, _, _ => by cases hp
  | .notBehind _, _, hp, _, _, _, _ => by cases hp
  | .ahead _, _, hp, _, _, _, _ => by cases hp
  | .group _ _, _, hp, _, _, _, _ => by cases hp

theorem matches_iff {u : Char → Bool} {r : Re} {a m b : Str} {k k' : List (Nat × Str)} (hp : pure r = true) :
    Matches u r a m b k k' ↔ Lang u r m ∧ k' = k :=
  ⟨fun h => lang_of h hp, fun h => by rw [h.2]; exact matches_of hp h.1 a b k⟩

/-- One after the other, up to the end. -/
def full (l : List Re) : Re := l.foldr .seq .atEnd

/-- The parts of a text. -/
def Parts (u : Char → Bool) : List Re → Str → Prop
  | [], s => s = []
  | r :: l, s => ∃ x y, s = x ++ y ∧ Lang u r x ∧ Parts u l y

theorem full_fits {u : Char → Bool} : ∀ {l : List Re}, (∀ r ∈ l, pure r = true) → ∀ {s : Str}, s.getLast? ≠ some '\n' → ∀ (a : Str) (k : List (Nat × Str)),
    (∃ m b k', s = m ++ b ∧ Matches u (full l) a m b k k') ↔ Parts u l s
  | [], _, s, hs, a, k => by
    constructor
    · rintro ⟨m, b, k', rfl, h⟩
      cases h with
      | atEnd _ _ _ hb =>
        rcases hb with rfl | rfl
        · rfl
        · exact absurd rfl hs
    · intro h
      exact ⟨[], [], k, by rw [show s = [] from h]; rfl, .atEnd a [] k (.inl rfl)⟩
  | r :: l, hp, s, hs, a, k => by
    have ih := fun {s : Str} (hs : s.getLast? ≠ some '\n') a k => full_fits (u := u) (l := l) (fun x hx => hp x (List.mem_cons_of_mem _ hx)) hs a k
    constructor
    · rintro ⟨m, b, k', rfl, h⟩
      cases h with
      | seq r' q a' x y b' _ k1 _ h1 h2 =>
        have h3 := lang_of h1 (hp r (by simp))
        refine ⟨x, y ++ b, by rw [List.append_assoc], h3.1, ?_⟩
        refine (ih ?_ (a ++ x) k1).1 ⟨y, b, k', rfl, h2⟩
        intro e
        apply hs
        rw [List.append_assoc, List.getLast?_append, e]
        rfl
    · rintro ⟨x, y, rfl, h1, h2⟩
      have hy : y.getLast? ≠ some '\n' := by
        intro e
        apply hs
        rw [List.getLast?_append, e]
        rfl
      obtain ⟨m, b, k', e, h3⟩ := (ih hy (a ++ x) k).2 h2
      refine ⟨x ++ m, b, k', by rw [e, List.append_assoc], ?_⟩
      exact .seq r (full l) a x m b k k k' (matches_of (hp r (by simp)) h1 _ _ _) h3

theorem full_start {u : Char → Bool} {l : List Re} (hp : ∀ r ∈ l, pure r = true) {s : Str} (hs : s.getLast? ≠ some '\n') :
    matchesStart u (full l) s = true ↔ Parts u l s := by
  rw [← full_fits hp hs [] []]
  unfold matchesStart
  rw [Option.isSome_iff_ne_none]
  constructor
  · intro h
    refine Classical.byContradiction (fun hne => h ?_)
    have := (matchAt_none_iff u (full l) [] s).2
    refine this (fun m b e hf => hne ?_)
    obtain ⟨k', hk⟩ := hf
    exact ⟨m, b, k', e, hk⟩
  · rintro ⟨m, b, k', e, h⟩ hn
    exact (matchAt_none_iff u (full l) [] s).1 hn m b e ⟨k', h⟩

end Verif.Mut
