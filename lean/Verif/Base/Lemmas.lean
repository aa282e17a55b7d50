import Verif.Base.Spec
import Verif.Scope.Lemmas

namespace Verif.Base
open Verif.Py Verif.Scope Spec

theorem isPresent_iff (ms : List Method) (m : Method) : isPresent ms m = true ↔ ∃ p ∈ ms, SameSignature p m := by
  unfold isPresent SameSignature
  simp

theorem addMethod_spec (ms : List Method) (m : Method) :
    ∃ rest, addMethod ms m = ms ++ rest ∧ (∀ r ∈ rest, r = m ∧ ∀ p ∈ ms, ¬ SameSignature p r) ∧ rest.length ≤ 1 ∧
      ∃ p ∈ addMethod ms m, SameSignature p m := by
  unfold addMethod
  by_cases h : isPresent ms m = true
  · rw [if_pos h]
    exact ⟨[], by simp, by simp, by simp, (isPresent_iff ms m).1 h⟩
  · rw [if_neg h]
    refine ⟨[m], rfl, ?_, by simp, m, by simp, rfl, rfl⟩
    intro r hr
    simp at hr
    subst hr
    refine ⟨rfl, ?_⟩
    intro p hp hs
    exact h ((isPresent_iff _ _).2 ⟨p, hp, hs⟩)

/-- What a list grown by the loops looks like. -/
def Grown (own ms : List Method) (src : List Method) : Prop :=
  ∃ rest, ms = own ++ rest ∧ (∀ r ∈ rest, r ∈ src) ∧ (∀ r ∈ rest, ∀ p ∈ own, ¬ SameSignature p r) ∧
    rest.Pairwise (fun a b => ¬ SameSignature a b)

theorem grown_add {own ms src : List Method} (h : Grown own ms src) {m : Method} (hm : m ∈ src) :
    Grown own (addMethod ms m) src := by
  obtain ⟨rest, rfl, h1, h2, h3⟩ := h
  obtain ⟨r2, e, g1, g2, _⟩ := addMethod_spec (own ++ rest) m
  refine ⟨rest ++ r2, by rw [e, List.append_assoc], ?_, ?_, ?_⟩
  · intro r hr
    rcases List.mem_append.1 hr with hr | hr
    · exact h1 r hr
    · rw [(g1 r hr).1]; exact hm
  · intro r hr p hp
    rcases List.mem_append.1 hr with hr | hr
    · exact h2 r hr p hp
    · exact (g1 r hr).2 p (List.mem_append_left _ hp)
  · rw [List.pairwise_append]
    refine ⟨h3, ?_, ?_⟩
    · match r2, g2 with
      | [], _ => exact List.Pairwise.nil
      | [x], _ => exact List.pairwise_singleton _ _
    · intro a ha b hb
      exact (g1 b hb).2 a (List.mem_append_right _ ha)

theorem grown_foldl {own src : List Method} : ∀ (bms : List Method) (ms : List Method), Grown own ms src →
    (∀ m ∈ bms, m ∈ src) → Grown own (bms.foldl addMethod ms) src
  | [], _, h, _ => h
  | b :: bms, ms, h, hb => grown_foldl bms _ (grown_add h (hb b (by simp))) (fun m hm => hb m (by simp [hm]))

theorem foldl_mono : ∀ (bms ms : List Method) (p : Method), p ∈ ms → p ∈ bms.foldl addMethod ms
  | [], _, _, h => h
  | b :: bms, ms, p, h => by
    rw [List.foldl_cons]
    apply foldl_mono bms
    obtain ⟨rest, e, _⟩ := addMethod_spec ms b
    rw [e]; exact List.mem_append_left _ h

theorem foldl_covers : ∀ (bms ms : List Method) (m : Method), m ∈ bms → ∃ p ∈ bms.foldl addMethod ms, SameSignature p m
  | [], _, _, h => by simp at h
  | b :: bms, ms, m, h => by
    rw [List.foldl_cons]
    rcases List.mem_cons.1 h with rfl | h
    · obtain ⟨_, _, _, _, p, hp, hs⟩ := addMethod_spec ms m
      exact ⟨p, foldl_mono bms _ p hp, hs⟩
    · exact foldl_covers bms _ m h

theorem addBases_spec (rec : Nat → Option (List Method)) {own src : List Method} :
    ∀ (bs : List Nat) (ms out : List Method), addBases rec ms bs = some out → Grown own ms src →
    (∀ b ∈ bs, ∀ bms, rec b = some bms → ∀ m ∈ bms, m ∈ src) →
    Grown own out src ∧ (∀ p ∈ ms, p ∈ out) ∧
    ∀ b ∈ bs, ∃ bms, rec b = some bms ∧ ∀ m ∈ bms, ∃ p ∈ out, SameSignature p m
  | [], ms, out, h, hg, _ => by
    simp only [addBases, Option.some.injEq] at h
    subst h
    exact ⟨hg, fun p hp => hp, by simp⟩
  | b :: bs, ms, out, h, hg, hsrc => by
    unfold addBases at h
    cases hr : rec b with
    | none => rw [hr] at h; cases h
    | some bms =>
      rw [hr] at h
      simp only [] at h
      obtain ⟨h1, h2, h3⟩ := addBases_spec rec bs _ out h
        (grown_foldl bms ms hg (hsrc b (by simp) bms hr)) (fun b' hb' => hsrc b' (by simp [hb']))
      refine ⟨h1, fun p hp => h2 p (foldl_mono bms ms p hp), ?_⟩
      intro b' hb'
      rcases List.mem_cons.1 hb' with rfl | hb'
      · refine ⟨bms, hr, ?_⟩
        intro m hm
        obtain ⟨p, hp, hs⟩ := foldl_covers bms ms m hm
        exact ⟨p, h2 p hp, hs⟩
      · exact h3 b' hb'

theorem addBases_some (rec : Nat → Option (List Method)) : ∀ (bs : List Nat) (ms : List Method),
    (∀ b ∈ bs, rec b ≠ none) → addBases rec ms bs ≠ none
  | [], _, _ => by simp [addBases]
  | b :: bs, ms, h => by
    unfold addBases
    cases hr : rec b with
    | none => exact absurd hr (h b (by simp))
    | some bms => exact addBases_some rec bs _ (fun b' hb' => h b' (by simp [hb']))

theorem addBases_none (rec : Nat → Option (List Method)) : ∀ (bs : List Nat) (ms : List Method),
    (∃ b ∈ bs, rec b = none) → addBases rec ms bs = none
  | [], _, h => by obtain ⟨b, hb, _⟩ := h; simp at hb
  | b :: bs, ms, h => by
    unfold addBases
    cases hr : rec b with
    | none => rfl
    | some bms =>
      apply addBases_none rec bs
      obtain ⟨b', hb', hn⟩ := h
      rcases List.mem_cons.1 hb' with rfl | hb'
      · rw [hr] at hn; cases hn
      · exact ⟨b', hb', hn⟩

/-- The source of the methods: all the methods of all the classes. -/
def allMethods (structs : List Struct) (i : Nat) (m : Method) : Prop :=
  m.virtual = true ∧ ∃ j s, Ancestor structs i j ∧ structs[j]? = some s ∧ m ∈ s.methods

/-! ### text of scopes -/

/-- A prefix without `:` of a text whose first `:` is after `c` is a prefix of `c`. -/
theorem prefix_of_colon : ∀ (l c r : Str), ':' ∉ l → l <+: c ++ ':' :: r → l <+: c
  | [], _, _, _, _ => List.nil_prefix
  | x :: l, [], r, hl, h => by
    rw [List.nil_append] at h
    have := (List.cons_prefix_cons.1 h).1
    exact absurd (this ▸ List.mem_cons_self) hl
  | x :: l, y :: c, r, hl, h => by
    rw [List.cons_append] at h
    obtain ⟨h1, h2⟩ := List.cons_prefix_cons.1 h
    exact List.cons_prefix_cons.2 ⟨h1, prefix_of_colon l c r (fun hm => hl (by simp [hm])) h2⟩

theorem eq_of_colon : ∀ (s c a b : Str), ':' ∉ s → ':' ∉ c → s ++ ':' :: a <+: c ++ ':' :: b → s = c ∧ a <+: b
  | [], [], a, b, _, _, h => ⟨rfl, (List.cons_prefix_cons.1 h).2⟩
  | [], y :: c, a, b, _, hc, h => by
    have := (List.cons_prefix_cons.1 (by simpa using h)).1
    exact absurd (this ▸ List.mem_cons_self) hc
  | x :: s, [], a, b, hs, _, h => by
    rw [List.nil_append, List.cons_append] at h
    have := (List.cons_prefix_cons.1 h).1
    exact absurd (this ▸ List.mem_cons_self) hs
  | x :: s, y :: c, a, b, hs, hc, h => by
    rw [List.cons_append, List.cons_append] at h
    obtain ⟨h1, h2⟩ := List.cons_prefix_cons.1 h
    obtain ⟨h3, h4⟩ := eq_of_colon s c a b (fun hm => hs (by simp [hm])) (fun hm => hc (by simp [hm])) h2
    exact ⟨by rw [h1, h3], h4⟩

theorem scope_prefix : ∀ (S : List Str) (l : Str) (C : List Str), (∀ x ∈ S ++ [l], Ident x) → (∀ x ∈ C, Ident x) → C ≠ [] →
    join colons (S ++ [l]) <+: join colons C ++ colons → ∃ l', S ++ [l'] <+: C ∧ l <+: l'
  | S, l, [], _, _, hne, _ => absurd rfl hne
  | [], l, c :: C, hS, hC, _, h => by
    rw [List.nil_append] at h
    have h1 : join colons [l] = l := rfl
    rw [h1] at h
    have h2 : ∃ r, join colons (c :: C) ++ colons = c ++ ':' :: r := by
      cases C with
      | nil => exact ⟨[':'], rfl⟩
      | cons d C => exact ⟨':' :: (join colons (d :: C) ++ colons), by rw [join_cons_cons]; simp [colons]⟩
    obtain ⟨r, hr⟩ := h2
    rw [hr] at h
    exact ⟨c, by simp, prefix_of_colon l c r (hS l (by simp)).2 h⟩
  | s :: S, l, c :: C, hS, hC, _, h => by
    have e1 : join colons (s :: S ++ [l]) = s ++ ':' :: ':' :: join colons (S ++ [l]) := by
      cases S with
      | nil => show join colons [s, l] = _; rw [join_cons_cons]; simp [colons]
      | cons t S => rw [List.cons_append, List.cons_append, join_cons_cons]; simp [colons]
    rw [e1] at h
    have hs := (hS s (by simp)).2
    have hc := (hC c (by simp)).2
    have hne : S ++ [l] ≠ [] := by simp
    have hhead : ∀ b, join colons (S ++ [l]) <+: ':' :: b → False := by
      intro b hb
      cases hj : join colons (S ++ [l]) with
      | nil =>
        have : ∃ x xs, S ++ [l] = x :: xs := by
          cases S with
          | nil => exact ⟨l, [], rfl⟩
          | cons t S => exact ⟨t, S ++ [l], rfl⟩
        obtain ⟨x, xs, hx⟩ := this
        have hxi := hS x (by simp only [List.cons_append, hx]; simp)
        rw [hx] at hj
        cases xs with
        | nil => exact hxi.1 hj
        | cons y ys => rw [join_cons_cons] at hj; simp [colons] at hj
      | cons y ys =>
        rw [hj] at hb
        have hy := (List.cons_prefix_cons.1 hb).1
        subst hy
        have : ∃ x xs, S ++ [l] = x :: xs := by
          cases S with
          | nil => exact ⟨l, [], rfl⟩
          | cons t S => exact ⟨t, S ++ [l], rfl⟩
        obtain ⟨x, xs, hx⟩ := this
        have hxi := hS x (by simp only [List.cons_append, hx]; simp)
        rw [hx] at hj
        cases x with
        | nil => exact hxi.1 rfl
        | cons z zs =>
          have : ∃ w, join colons ((z :: zs) :: xs) = z :: w := by
            cases xs with
            | nil => exact ⟨zs, rfl⟩
            | cons u us => exact ⟨_, by rw [join_cons_cons]; rfl⟩
          obtain ⟨w, hw⟩ := this
          rw [hw] at hj
          exact hxi.2 (by rw [(List.cons.inj hj).1]; simp)
    cases C with
    | nil =>
      exfalso
      have : join colons [c] ++ colons = c ++ ':' :: [':'] := rfl
      rw [this] at h
      obtain ⟨_, h2⟩ := eq_of_colon _ _ _ _ hs hc h
      have h3 := (List.cons_prefix_cons.1 h2).2
      exact hhead [] (List.IsPrefix.trans h3 (List.nil_prefix))
    | cons d C =>
      have e2 : join colons (c :: d :: C) ++ colons = c ++ ':' :: (':' :: (join colons (d :: C) ++ colons)) := by
        rw [join_cons_cons]; simp [colons]
      rw [e2] at h
      obtain ⟨rfl, h2⟩ := eq_of_colon _ _ _ _ hs hc h
      have h3 := (List.cons_prefix_cons.1 h2).2
      obtain ⟨l', g1, g2⟩ := scope_prefix S l (d :: C) (fun x hx => hS x (by simp only [List.cons_append, List.mem_cons]; exact Or.inr hx))
        (fun x hx => hC x (by simp only [List.mem_cons]; exact Or.inr (by simpa using hx))) (by simp) h3
      exact ⟨l', by simpa using g1, g2⟩

/-- The text of a scope inside another is a prefix. -/
theorem join_prefix : ∀ (S C : List Str), S <+: C → C ≠ [] → join colons S <+: join colons C ++ colons
  | [], _, _, _ => by simp [join]
  | s :: S, C, h, hne => by
    obtain ⟨R, rfl⟩ := h
    cases R with
    | nil => rw [List.append_nil]; exact List.prefix_append _ _
    | cons r R =>
      rw [Scope.join_append (by simp) (by simp)]
      simp only [List.append_assoc]
      exact List.prefix_append _ _

end Verif.Base
