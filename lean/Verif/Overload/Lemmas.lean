import Verif.Overload.Spec

namespace Verif.Overload
open Verif.Py Spec

variable {α : Type}

/-! ### the specification of grouping -/

theorem firsts_eq (key : α → Option Str) (n : Str) : ∀ (l : List α) (seen seen' : List Str),
    (∀ k, k ∈ seen' ↔ k = n ∨ k ∈ seen) → firsts key seen' l = firsts key seen (l.filter (fun e => ¬ key e = some n))
  | [], _, _, _ => rfl
  | e :: es, seen, seen', h => by
    cases hk : key e with
    | none =>
      rw [List.filter_cons_of_pos (by simp [hk])]
      unfold firsts
      simp only [hk]
      rw [firsts_eq key n es seen seen' h]
    | some m =>
      by_cases hm : m = n
      · subst hm
        rw [List.filter_cons_of_neg (by simp [hk])]
        conv => lhs; unfold firsts
        simp only [hk]
        rw [if_pos ((h m).2 (Or.inl rfl))]
        exact firsts_eq key m es seen seen' h
      · rw [List.filter_cons_of_pos (by simp [hk, hm])]
        unfold firsts
        simp only [hk]
        by_cases hs : m ∈ seen
        · rw [if_pos ((h m).2 (Or.inr hs)), if_pos hs]
          exact firsts_eq key n es seen seen' h
        · rw [if_neg (fun hx => by rcases (h m).1 hx with h1 | h1 <;> contradiction), if_neg hs]
          rw [firsts_eq key n es (m :: seen) (m :: seen') ?_]
          intro k
          simp only [List.mem_cons, h k]
          constructor
          · rintro (h1 | h1 | h1)
            · exact Or.inr (Or.inl h1)
            · exact Or.inl h1
            · exact Or.inr (Or.inr h1)
          · rintro (h1 | h1 | h1)
            · exact Or.inr (Or.inl h1)
            · exact Or.inl h1
            · exact Or.inr (Or.inr h1)

theorem firsts_sublist (key : α → Option Str) : ∀ (l : List α) (seen : List Str), (firsts key seen l).Sublist l
  | [], _ => List.Sublist.refl _
  | e :: es, seen => by
    unfold firsts
    cases key e with
    | none => exact (firsts_sublist key es seen).cons_cons e
    | some n =>
      simp only []
      split
      · exact (firsts_sublist key es seen).cons e
      · exact (firsts_sublist key es _).cons_cons e

theorem firsts_head (key : α → Option Str) {e : α} {n : Str} (hk : key e = some n) : ∀ (l : List α) (seen : List Str),
    e ∈ firsts key seen l → n ∉ seen ∧ (ofName key n l).head? = some e
  | [], _, h => by simp [firsts] at h
  | x :: xs, seen, h => by
    unfold firsts at h
    cases hx : key x with
    | none =>
      simp only [hx, List.mem_cons] at h
      rcases h with rfl | h
      · rw [hx] at hk; simp at hk
      · obtain ⟨h1, h2⟩ := firsts_head key hk xs seen h
        refine ⟨h1, ?_⟩
        unfold ofName
        rw [List.filter_cons_of_neg (by simp [hx])]
        exact h2
    | some m =>
      simp only [hx] at h
      split at h
      · rename_i hm
        obtain ⟨h1, h2⟩ := firsts_head key hk xs seen h
        refine ⟨h1, ?_⟩
        unfold ofName
        rw [List.filter_cons_of_neg]
        · exact h2
        · simp only [hx, Option.some.injEq, decide_eq_true_eq]
          rintro rfl
          exact h1 hm
      · rename_i hm
        rcases List.mem_cons.1 h with rfl | h
        · rw [hx] at hk
          simp only [Option.some.injEq] at hk
          subst hk
          refine ⟨hm, ?_⟩
          unfold ofName
          rw [List.filter_cons_of_pos (by simp [hx])]
          rfl
        · obtain ⟨h1, h2⟩ := firsts_head key hk xs _ h
          simp only [List.mem_cons, not_or] at h1
          refine ⟨h1.2, ?_⟩
          unfold ofName
          rw [List.filter_cons_of_neg]
          · exact h2
          · simp only [hx, Option.some.injEq, decide_eq_true_eq]
            exact fun h => h1.1 h.symm

theorem firsts_pairwise (key : α → Option Str) : ∀ (l : List α) (seen : List Str),
    (firsts key seen l).Pairwise (fun a b => ∀ n, key a = some n → key b ≠ some n)
  | [], _ => List.Pairwise.nil
  | x :: xs, seen => by
    unfold firsts
    cases hx : key x with
    | none =>
      refine List.pairwise_cons.2 ⟨?_, firsts_pairwise key xs seen⟩
      intro b _ n h
      rw [hx] at h; simp at h
    | some m =>
      simp only []
      split
      · exact firsts_pairwise key xs seen
      · refine List.pairwise_cons.2 ⟨?_, firsts_pairwise key xs _⟩
        intro b hb n h h'
        rw [hx] at h
        simp only [Option.some.injEq] at h
        subst h
        exact (firsts_head key h' xs _ hb).1 (by simp)

theorem firsts_unique (key : α → Option Str) (l : List α) (seen : List Str) {i j : Nat} {a b : α} {n : Str}
    (hi : (firsts key seen l)[i]? = some a) (hj : (firsts key seen l)[j]? = some b) (ha : key a = some n) (hb : key b = some n) :
    i = j := by
  have hp := List.pairwise_iff_getElem.1 (firsts_pairwise key l seen)
  rw [List.getElem?_eq_some_iff] at hi hj
  obtain ⟨hi, rfl⟩ := hi
  obtain ⟨hj, rfl⟩ := hj
  rcases Nat.lt_trichotomy i j with h | h | h
  · exact absurd hb (hp i j hi hj h n ha)
  · exact h
  · exact absurd ha (hp j i hj hi h n hb)

theorem flatMap_congr' {β : Type} {l : List α} {f g : α → List β} (h : ∀ x ∈ l, f x = g x) : l.flatMap f = l.flatMap g := by
  induction l with
  | nil => rfl
  | cons a l ih =>
    rw [List.flatMap_cons, List.flatMap_cons, h a (by simp), ih (fun x hx => h x (by simp [hx]))]

theorem grouped_none {key : α → Option Str} {e : α} (hk : key e = none) (es : List α) :
    grouped key (e :: es) = e :: grouped key es := by
  unfold grouped
  conv => lhs; unfold firsts
  simp only [hk, List.flatMap_cons]
  have : block key (e :: es) e = [e] := by unfold block; rw [hk]
  rw [this, List.cons_append, List.nil_append]
  congr 1
  apply flatMap_congr'
  intro x _
  unfold block ofName
  cases key x with
  | none => rfl
  | some n =>
    simp only []
    rw [List.filter_cons_of_neg (by simp [hk])]

theorem grouped_some {key : α → Option Str} {e : α} {n : Str} (hk : key e = some n) (es : List α) :
    grouped key (e :: es) = e :: (ofName key n es ++ grouped key (es.filter (fun x => ¬ key x = some n))) := by
  unfold grouped
  conv => lhs; unfold firsts
  simp only [hk, List.not_mem_nil, if_false, List.flatMap_cons]
  have hb : block key (e :: es) e = e :: ofName key n es := by
    unfold block ofName; rw [hk]; simp only []; rw [List.filter_cons_of_pos (by simp [hk])]
  rw [hb, List.cons_append]
  congr 2
  rw [firsts_eq key n es [] [n] (by simp)]
  apply flatMap_congr'
  intro x hx
  have hx' := (firsts_sublist key _ _).subset hx
  have hxn := (List.mem_filter.1 hx').2
  unfold block ofName
  cases hkx : key x with
  | none => rfl
  | some m =>
    have hmn : m ≠ n := by
      rintro rfl
      simp [hkx] at hxn
    simp only []
    rw [List.filter_cons_of_neg (by simp [hk, Ne.symm hmn]), List.filter_filter]
    apply List.filter_congr
    intro y _
    by_cases hy : key y = some m
    · simp [hy, hmn]
    · simp [hy]

theorem filter_split_perm (p : α → Bool) : ∀ l : List α, (l.filter p ++ l.filter (fun x => ! p x)).Perm l
  | [] => List.Perm.refl _
  | a :: l => by
    cases h : p a with
    | true =>
      rw [List.filter_cons_of_pos h, List.filter_cons_of_neg (by simp [h])]
      exact (filter_split_perm p l).cons a
    | false =>
      rw [List.filter_cons_of_neg (by simp [h]), List.filter_cons_of_pos (by simp [h])]
      exact List.perm_middle.trans ((filter_split_perm p l).cons a)

theorem grouped_perm (key : α → Option Str) : ∀ (k : Nat) (l : List α), l.length ≤ k → (grouped key l).Perm l
  | _, [], _ => List.Perm.refl _
  | 0, e :: es, h => by simp at h
  | k + 1, e :: es, h => by
    simp only [List.length_cons] at h
    cases hk : key e with
    | none =>
      rw [grouped_none hk]
      exact (grouped_perm key k es (by omega)).cons e
    | some n =>
      rw [grouped_some hk]
      refine List.Perm.cons e ?_
      have ih := grouped_perm key k (es.filter (fun x => ¬ key x = some n))
        (Nat.le_trans (List.length_filter_le _ _) (by omega))
      refine (List.Perm.append_left _ ih).trans ?_
      have := filter_split_perm (fun x => decide (key x = some n)) es
      refine List.Perm.trans ?_ this
      unfold ofName
      refine List.Perm.append_left _ (List.Perm.of_eq ?_)
      apply List.filter_congr
      intro x _
      simp

theorem infix_flatMap {β : Type} (f : α → List β) : ∀ {l : List α} {a : α}, a ∈ l → f a <:+: l.flatMap f
  | b :: l, a, h => by
    rw [List.flatMap_cons]
    rcases List.mem_cons.1 h with rfl | h
    · exact (List.prefix_append _ _).isInfix
    · exact (infix_flatMap f h).trans (List.suffix_append _ _).isInfix

theorem firsts_mem (key : α → Option Str) {n : Str} : ∀ (l : List α) (seen : List Str), n ∉ seen → ofName key n l ≠ [] →
    ∃ e ∈ firsts key seen l, key e = some n
  | [], _, _, h => by simp [ofName] at h
  | x :: xs, seen, hs, h => by
    unfold firsts
    cases hx : key x with
    | none =>
      simp only []
      unfold ofName at h
      rw [List.filter_cons_of_neg (by simp [hx])] at h
      obtain ⟨e, h1, h2⟩ := firsts_mem key xs seen hs h
      exact ⟨e, by simp [h1], h2⟩
    | some m =>
      simp only []
      by_cases hm : m = n
      · subst hm
        rw [if_neg hs]
        exact ⟨x, by simp, hx⟩
      · unfold ofName at h
        rw [List.filter_cons_of_neg (by simp [hx, hm])] at h
        split
        · exact firsts_mem key xs seen hs h
        · obtain ⟨e, h1, h2⟩ := firsts_mem key xs (m :: seen) (by simp [hs, Ne.symm hm]) h
          exact ⟨e, by simp [h1], h2⟩

theorem grouped_adjacent (key : α → Option Str) (l : List α) (n : Str) : ofName key n l <:+: grouped key l := by
  by_cases h : ofName key n l = []
  · rw [h]; exact List.nil_infix
  · obtain ⟨e, h1, h2⟩ := firsts_mem key l [] (by simp) h
    have := infix_flatMap (block key l) h1
    have hb : block key l e = ofName key n l := by unfold block; rw [h2]
    rw [hb] at this
    exact this

theorem firsts_sublist_grouped (key : α → Option Str) (l : List α) : (firsts key [] l).Sublist (grouped key l) := by
  unfold grouped
  have : ∀ (k : List α), (∀ e ∈ k, e ∈ block key l e) → k.Sublist (k.flatMap (block key l)) := by
    intro k hk
    induction k with
    | nil => exact List.Sublist.refl _
    | cons a k ih =>
      rw [List.flatMap_cons]
      have h1 : [a].Sublist (block key l a) := List.singleton_sublist.2 (hk a (by simp))
      exact h1.append (ih (fun e he => hk e (by simp [he])))
  apply this
  intro e he
  unfold block
  cases hk : key e with
  | none => simp
  | some n =>
    have := (firsts_head key hk l [] he).2
    exact List.mem_of_mem_head? (by rw [this]; exact rfl)

theorem grouped_others (key : α → Option Str) : ∀ (k : Nat) (l : List α), l.length ≤ k →
    (grouped key l).filter (fun e => key e = none) = l.filter (fun e => key e = none)
  | _, [], _ => rfl
  | 0, e :: es, h => by simp at h
  | k + 1, e :: es, h => by
    simp only [List.length_cons] at h
    cases hk : key e with
    | none =>
      rw [grouped_none hk, List.filter_cons_of_pos (by simp [hk]), List.filter_cons_of_pos (by simp [hk]),
        grouped_others key k es (by omega)]
    | some n =>
      rw [grouped_some hk, List.filter_cons_of_neg (by simp [hk]), List.filter_cons_of_neg (by simp [hk]),
        List.filter_append, grouped_others key k _ (Nat.le_trans (List.length_filter_le _ _) (by omega))]
      have h1 : (ofName key n es).filter (fun e => key e = none) = [] := by
        rw [List.filter_eq_nil_iff]
        intro a ha
        have := (List.mem_filter.1 ha).2
        simp only [decide_eq_true_eq] at this
        simp [this]
      rw [h1, List.nil_append, List.filter_filter]
      apply List.filter_congr
      intro y _
      by_cases hy : key y = none
      · simp [hy]
      · simp [hy]

theorem infix_cons_cases {x : α} {s l : List α} (h : s <:+: x :: l) : s <+: x :: l ∨ s <:+: l := by
  obtain ⟨a, b, hab⟩ := h
  cases a with
  | nil => exact Or.inl ⟨b, by simpa using hab⟩
  | cons y a =>
    simp only [List.cons_append, List.cons.injEq] at hab
    exact Or.inr ⟨a, b, hab.2⟩

/-- Functions that are already adjacent stay where they are. -/
theorem grouped_of_adjacent (key : α → Option Str) : ∀ (k : Nat) (l : List α), l.length ≤ k →
    (∀ n, ofName key n l <:+: l) → grouped key l = l
  | _, [], _, _ => rfl
  | 0, e :: es, h, _ => by simp at h
  | k + 1, e :: es, h, hadj => by
    simp only [List.length_cons] at h
    cases hk : key e with
    | none =>
      rw [grouped_none hk, grouped_of_adjacent key k es (by omega)]
      intro n
      have h1 := hadj n
      have e1 : ofName key n (e :: es) = ofName key n es := by
        unfold ofName; rw [List.filter_cons_of_neg (by simp [hk])]
      rw [e1] at h1
      rcases infix_cons_cases h1 with h2 | h2
      · cases hs : ofName key n es with
        | nil => exact List.nil_infix
        | cons y ys =>
          exfalso
          rw [hs] at h2
          obtain ⟨t, ht⟩ := h2
          simp only [List.cons_append, List.cons.injEq] at ht
          have hy : y ∈ ofName key n es := by rw [hs]; simp
          have := (List.mem_filter.1 hy).2
          rw [ht.1] at this
          simp [hk] at this
      · exact h2
    | some n =>
      have e1 : ofName key n (e :: es) = e :: ofName key n es := by
        unfold ofName; rw [List.filter_cons_of_pos (by simp [hk])]
      have h1 := hadj n
      rw [e1] at h1
      have h2 : ofName key n es <+: es := by
        rcases infix_cons_cases h1 with h2 | h2
        · exact (List.cons_prefix_cons.1 h2).2
        · exfalso
          have h3 := (h2.sublist.filter (fun x => decide (key x = some n))).length_le
          rw [List.filter_cons_of_pos (by simp [hk])] at h3
          have e2 : (ofName key n es).filter (fun x => decide (key x = some n)) = ofName key n es := by
            unfold ofName; rw [List.filter_filter]; simp
          rw [e2] at h3
          simp only [List.length_cons] at h3
          unfold ofName at h3
          omega
      obtain ⟨rest, hrest⟩ := h2
      have e3 : es.filter (fun x => ¬ key x = some n) = rest := by
        have hf : ∀ x ∈ rest, ¬ key x = some n := by
          intro x hx hxn
          have hl := congrArg (fun l => (l.filter (fun x => decide (key x = some n))).length) hrest
          simp only [List.filter_append, List.length_append] at hl
          have e2 : (ofName key n es).filter (fun x => decide (key x = some n)) = ofName key n es := by
            unfold ofName; rw [List.filter_filter]; simp
          rw [e2] at hl
          have : 0 < (rest.filter (fun x => decide (key x = some n))).length :=
            List.length_pos_of_mem (List.mem_filter.2 ⟨hx, by simp [hxn]⟩)
          unfold ofName at hl
          omega
        conv => lhs; rw [← hrest]
        rw [List.filter_append]
        have e4 : (ofName key n es).filter (fun x => decide (¬ key x = some n)) = [] := by
          rw [List.filter_eq_nil_iff]
          intro a ha
          have := (List.mem_filter.1 ha).2
          simpa using this
        rw [e4, List.nil_append]
        exact List.filter_eq_self.2 (fun x hx => by simpa using hf x hx)
      rw [grouped_some hk, e3, grouped_of_adjacent key k rest]
      · rw [hrest]
      · have := congrArg List.length hrest
        simp at this
        omega
      · intro m
        by_cases hm : m = n
        · subst hm
          have : ofName key m rest = [] := by
            unfold ofName
            rw [List.filter_eq_nil_iff]
            intro a ha
            rw [← e3] at ha
            have := (List.mem_filter.1 ha).2
            simpa using this
          rw [this]; exact List.nil_infix
        · have e5 : ofName key m (e :: es) = ofName key m rest := by
            unfold ofName
            rw [List.filter_cons_of_neg (by simp [hk, Ne.symm hm])]
            conv => lhs; rw [← hrest]
            rw [List.filter_append]
            have : (ofName key n es).filter (fun x => decide (key x = some m)) = [] := by
              rw [List.filter_eq_nil_iff]
              intro a ha
              have := (List.mem_filter.1 ha).2
              simp only [decide_eq_true_eq] at this
              simp [this, Ne.symm hm]
            rw [this, List.nil_append]
          have h3 := hadj m
          rw [e5] at h3
          cases hs : ofName key m rest with
          | nil => exact List.nil_infix
          | cons y ys =>
            rw [hs] at h3
            have hy : key y = some m := by
              have hy : y ∈ ofName key m rest := by rw [hs]; simp
              have := (List.mem_filter.1 hy).2
              simpa using this
            -- skip the block of `n`
            have key2 : ∀ (A : List α), (∀ a ∈ A, key a = some n) → (y :: ys) <:+: A ++ rest → (y :: ys) <:+: rest := by
              intro A
              induction A with
              | nil => intro _ h; exact h
              | cons a A ih =>
                intro hA h
                rcases infix_cons_cases (by simpa using h) with h | h
                · exfalso
                  obtain ⟨t, ht⟩ := h
                  simp only [List.cons_append, List.cons.injEq] at ht
                  have := hA a (by simp)
                  rw [← ht.1, hy] at this
                  exact hm (by simpa using this)
                · exact ih (fun b hb => hA b (by simp [hb])) h
            apply key2 (e :: ofName key n es)
            · intro a ha
              rcases List.mem_cons.1 ha with rfl | ha
              · exact hk
              · have := (List.mem_filter.1 ha).2
                simpa using this
            · rw [List.cons_append, hrest]
              exact h3

/-! ### the loop -/

theorem snocInd {P : List α → Prop} (h0 : P []) (h1 : ∀ l a, P l → P (l ++ [a])) (l : List α) : P l := by
  have : ∀ r : List α, P r.reverse := by
    intro r
    induction r with
    | nil => exact h0
    | cons a r ih => rw [List.reverse_cons]; exact h1 _ _ ih
  have := this l.reverse
  rwa [List.reverse_reverse] at this

theorem firsts_snoc_none {key : α → Option Str} {e : α} (hk : key e = none) : ∀ (l : List α) (seen : List Str),
    firsts key seen (l ++ [e]) = firsts key seen l ++ [e]
  | [], seen => by simp [firsts, hk]
  | x :: xs, seen => by
    rw [List.cons_append]
    unfold firsts
    cases key x with
    | none => simp only []; rw [firsts_snoc_none hk xs]; rfl
    | some n =>
      simp only []
      split
      · exact firsts_snoc_none hk xs seen
      · rw [firsts_snoc_none hk xs]; rfl

theorem firsts_snoc_some {key : α → Option Str} {e : α} {n : Str} (hk : key e = some n) : ∀ (l : List α) (seen : List Str),
    firsts key seen (l ++ [e]) = if n ∈ seen ∨ ofName key n l ≠ [] then firsts key seen l else firsts key seen l ++ [e]
  | [], seen => by
    simp only [List.nil_append, firsts, hk, ofName, List.filter_nil, ne_eq, not_true_eq_false, or_false]
  | x :: xs, seen => by
    rw [List.cons_append]
    cases hx : key x with
    | none =>
      have e1 : ofName key n (x :: xs) = ofName key n xs := by
        unfold ofName; rw [List.filter_cons_of_neg (by simp [hx])]
      rw [e1]
      unfold firsts
      simp only [hx]
      rw [firsts_snoc_some hk xs]
      split <;> rfl
    | some m =>
      unfold firsts
      simp only [hx]
      rw [firsts_snoc_some hk xs seen, firsts_snoc_some hk xs (m :: seen)]
      by_cases hmn : m = n
      · subst hmn
        have e1 : ofName key m (x :: xs) ≠ [] := by
          unfold ofName; rw [List.filter_cons_of_pos (by simp [hx])]; simp
        by_cases hm : m ∈ seen
        · simp [hm]
        · simp [hm, e1]
      · have e1 : ofName key n (x :: xs) = ofName key n xs := by
          unfold ofName; rw [List.filter_cons_of_neg (by simp [hx, hmn])]
        rw [e1]
        by_cases hm : m ∈ seen
        · simp [hm]
        · simp only [hm, if_false, List.mem_cons, Ne.symm hmn, false_or]
          split <;> rfl

theorem ofName_snoc (key : α → Option Str) (n : Str) (l : List α) (e : α) :
    ofName key n (l ++ [e]) = if key e = some n then ofName key n l ++ [e] else ofName key n l := by
  unfold ofName
  rw [List.filter_append]
  by_cases h : key e = some n <;> simp [h]

/-- What the loop keeps. -/
structure Inv (key : α → Option Str) (l : List α) (s : State α) : Prop where
  result : s.result = firsts key [] l
  unseen : ∀ n, dictGet s.first n = none ↔ ofName key n l = []
  index : ∀ n i, dictGet s.first n = some i → ∃ e, s.result[i]? = some e ∧ key e = some n
  later : ∀ n, dictGet s.deferred n = if (ofName key n l).length ≤ 1 then none else some (ofName key n l).tail
  nodup : (s.deferred.map Prod.fst).Nodup

theorem dictGet_defer (d : List (Str × List α)) (n m : Str) (e : α) :
    dictGet (defer d n e) m = if n = m then some ((dictGet d n).getD [] ++ [e]) else dictGet d m := by
  unfold defer
  cases h : dictGet d n <;> simp only [dictGet_set] <;> rfl

theorem defer_nodup (d : List (Str × List α)) (n : Str) (e : α) (h : (d.map Prod.fst).Nodup) :
    ((defer d n e).map Prod.fst).Nodup := by
  unfold defer
  split <;> exact dictSet_nodup _ _ _ h

theorem inv_step {key : α → Option Str} {l : List α} {s : State α} (h : Inv key l s) (e : α) :
    Inv key (l ++ [e]) (step key s e) := by
  unfold step
  cases hk : key e with
  | none =>
    have hof : ∀ n, ofName key n (l ++ [e]) = ofName key n l := fun n => by rw [ofName_snoc, if_neg (by simp [hk])]
    simp only []
    refine ⟨?_, ?_, ?_, ?_, h.nodup⟩
    · simp only []; rw [firsts_snoc_none hk, h.result]
    · intro n; rw [hof]; exact h.unseen n
    · intro n i hi
      obtain ⟨x, h1, h2⟩ := h.index n i hi
      have hlt : i < s.result.length := by
        rw [List.getElem?_eq_some_iff] at h1; exact h1.1
      exact ⟨x, by simp only []; rw [List.getElem?_append_left hlt]; exact h1, h2⟩
    · intro n; rw [hof]; exact h.later n
  | some n =>
    simp only []
    unfold stepFunction
    cases hf : dictGet s.first n with
    | none =>
      have hn := (h.unseen n).1 hf
      simp only []
      refine ⟨?_, ?_, ?_, ?_, h.nodup⟩
      · simp only []; rw [firsts_snoc_some hk, if_neg (by simp [hn]), h.result]
      · intro m
        simp only [dictGet_set, ofName_snoc, hk]
        by_cases hm : n = m
        · simp [hm]
        · simp only [hm, if_false, Option.some.injEq]; exact h.unseen m
      · intro m i hi
        simp only [dictGet_set] at hi
        by_cases hm : n = m
        · subst hm
          simp only [if_true, Option.some.injEq] at hi
          subst hi
          exact ⟨e, by simp, hk⟩
        · rw [if_neg hm] at hi
          obtain ⟨x, h1, h2⟩ := h.index m i hi
          have hlt : i < s.result.length := by
            rw [List.getElem?_eq_some_iff] at h1; exact h1.1
          exact ⟨x, by simp only []; rw [List.getElem?_append_left hlt]; exact h1, h2⟩
      · intro m
        simp only [ofName_snoc, hk]
        by_cases hm : n = m
        · subst hm
          have := h.later n
          rw [hn] at this ⊢
          simpa using this
        · simp only [hm, Option.some.injEq, if_false]; exact h.later m
    | some i =>
      have hn : ofName key n l ≠ [] := by
        intro h0
        rw [(h.unseen n).2 h0] at hf
        simp at hf
      simp only []
      refine ⟨?_, ?_, ?_, ?_, defer_nodup _ _ _ h.nodup⟩
      · simp only []; rw [firsts_snoc_some hk, if_pos (by simp [hn]), h.result]
      · intro m
        simp only [ofName_snoc, hk, Option.some.injEq]
        by_cases hm : n = m
        · subst hm; simp [hf]
        · simp only [hm, if_false]; exact h.unseen m
      · exact h.index
      · intro m
        simp only [dictGet_defer, ofName_snoc, hk, Option.some.injEq]
        by_cases hm : n = m
        · subst hm
          have hl := h.later n
          cases ho : ofName key n l with
          | nil => exact absurd ho hn
          | cons a as =>
            rw [ho] at hl
            cases as with
            | nil =>
              simp only [List.length_cons, List.length_nil, Nat.zero_add, Nat.le_refl, if_true] at hl
              simp [hl]
            | cons b bs =>
              rw [if_neg (by simp)] at hl
              simp [hl]
        · simp only [hm, if_false]; exact h.later m

theorem inv_loop (key : α → Option Str) (l : List α) : Inv key l (l.foldl (step key) emptyState) := by
  induction l using snocInd with
  | h0 =>
    refine ⟨rfl, ?_, ?_, ?_, ?_⟩
    · intro n; simp [emptyState, dictGet, ofName]
    · intro n i hi; simp [emptyState, dictGet] at hi
    · intro n; simp [emptyState, dictGet, ofName]
    · simp [emptyState]
  | h1 l e ih =>
    rw [List.foldl_append]
    exact inv_step ih e

/-! ### the insertions -/

theorem insertAll_eq (after : Nat) : ∀ (es P Q R : List α) (j : Nat), P.length = after + 1 → Q.length = j →
    insertAll (P ++ Q ++ R) after j es = P ++ Q ++ es ++ R
  | [], P, Q, R, j, _, _ => by simp [insertAll]
  | e :: es, P, Q, R, j, hP, hQ => by
    unfold insertAll
    have e1 : pyInsert (P ++ Q ++ R) (after + 1 + j) e = P ++ (Q ++ [e]) ++ R := by
      unfold pyInsert
      have hl : (P ++ Q).length = after + 1 + j := by simp [hP, hQ]
      rw [← hl, List.take_left, List.drop_left]
      simp
    rw [e1, insertAll_eq after es P (Q ++ [e]) R (j + 1) hP (by simp [hQ])]
    simp

theorem insertAll_here (A : List α) (x : α) (B es : List α) :
    insertAll (A ++ x :: B) A.length 0 es = A ++ x :: es ++ B := by
  have := insertAll_eq A.length es (A ++ [x]) [] B 0 (by simp) rfl
  simpa using this

/-- What is to be inserted after an index. -/
def ext (L : List (Nat × List α)) (i : Nat) : List α :=
  match L.find? (fun p => p.1 = i) with
  | none => []
  | some p => p.2

theorem ext_of_lt {L : List (Nat × List α)} {i : Nat} (h : ∀ p ∈ L, p.1 < i) : ext L i = [] := by
  unfold ext
  have : L.find? (fun p => p.1 = i) = none := by
    rw [List.find?_eq_none]
    intro p hp
    have := h p hp
    simp; omega
  rw [this]

theorem insertGroups_append : ∀ (L : List (Nat × List α)) (A B : List α), (∀ p ∈ L, p.1 < A.length) →
    insertGroups (A ++ B) L = insertGroups A L ++ B
  | [], _, _, _ => rfl
  | (i, es) :: L, A, B, h => by
    have hi := h (i, es) (by simp)
    simp only [] at hi
    unfold insertGroups
    have hA : A = A.take i ++ A[i] :: A.drop (i + 1) := by
      rw [List.getElem_cons_drop hi, List.take_append_drop]
    have hl : (A.take i).length = i := by rw [List.length_take]; omega
    have e1 : insertAll (A ++ B) i 0 es = (A.take i ++ A[i] :: es ++ A.drop (i + 1)) ++ B := by
      have := insertAll_here (A.take i) A[i] (A.drop (i + 1) ++ B) es
      rw [hl] at this
      conv => lhs; rw [hA]
      rw [List.append_assoc, List.cons_append, this]
      simp
    have e2 : insertAll A i 0 es = A.take i ++ A[i] :: es ++ A.drop (i + 1) := by
      have := insertAll_here (A.take i) A[i] (A.drop (i + 1)) es
      rw [hl] at this
      conv => lhs; rw [hA]
      rw [this]
    rw [e1, e2]
    apply insertGroups_append
    intro p hp
    have := h p (by simp [hp])
    have hh := congrArg List.length hA
    simp only [List.length_append, List.length_cons, List.length_take, List.length_drop] at hh ⊢
    omega

theorem flatMap_singleton' {γ : Type} (f : γ → α) (l : List γ) : l.flatMap (fun x => [f x]) = l.map f := by
  induction l with
  | nil => rfl
  | cons a l ih => rw [List.flatMap_cons, ih]; rfl

theorem insertGroups_weave : ∀ (L : List (Nat × List α)) (r : List α), L.Pairwise (fun a b => b.1 < a.1) →
    (∀ p ∈ L, p.1 < r.length) → insertGroups r L = r.zipIdx.flatMap (fun p => p.1 :: ext L p.2)
  | [], r, _, _ => by
    unfold insertGroups
    have : (fun p : α × Nat => p.1 :: ext [] p.2) = (fun p => [p.1]) := by
      funext p; rfl
    rw [this, flatMap_singleton', List.zipIdx_map_fst]
  | (i, es) :: L, r, hs, h => by
    have hi := h (i, es) (by simp)
    simp only [] at hi
    obtain ⟨hlt, hs'⟩ := List.pairwise_cons.1 hs
    have hr : r = r.take i ++ r[i] :: r.drop (i + 1) := by
      rw [List.getElem_cons_drop hi, List.take_append_drop]
    have hl : (r.take i).length = i := by rw [List.length_take]; omega
    generalize hA : r.take i = A at *
    generalize hB : r.drop (i + 1) = B at *
    generalize hx : r[i] = x at *
    unfold insertGroups
    have e2 : insertAll r i 0 es = A ++ (x :: es ++ B) := by
      have := insertAll_here A x B es
      rw [hl] at this
      conv => lhs; rw [hr]
      rw [this]
      simp
    rw [e2, insertGroups_append L A _ (fun p hp => by rw [hl]; exact hlt p hp),
      insertGroups_weave L A hs' (fun p hp => by rw [hl]; exact hlt p hp), hr, List.zipIdx_append, List.flatMap_append,
      List.zipIdx_cons, List.flatMap_cons]
    have c1 : A.zipIdx.flatMap (fun p => p.1 :: ext L p.2) = A.zipIdx.flatMap (fun p => p.1 :: ext ((i, es) :: L) p.2) := by
      apply flatMap_congr'
      intro p hp
      have := (List.mem_zipIdx' (x := p.1) (i := p.2) hp).1
      have hne : ¬ i = p.2 := by omega
      unfold ext
      rw [List.find?_cons_of_neg (by simpa using hne)]
    have c2 : ext ((i, es) :: L) (0 + A.length) = es := by
      rw [Nat.zero_add, hl]
      unfold ext
      rw [List.find?_cons_of_pos (by simp)]
    have c3 : (B.zipIdx (0 + A.length + 1)).flatMap (fun p => p.1 :: ext ((i, es) :: L) p.2) = B := by
      have : (B.zipIdx (0 + A.length + 1)).flatMap (fun p => p.1 :: ext ((i, es) :: L) p.2) =
          (B.zipIdx (0 + A.length + 1)).flatMap (fun p => [p.1]) := by
        apply flatMap_congr'
        intro p hp
        have := (List.mem_zipIdx (x := p.1) (i := p.2) hp).1
        rw [ext_of_lt]
        intro q hq
        rcases List.mem_cons.1 hq with rfl | hq
        · simp only []; omega
        · have := hlt q hq
          simp only [] at this
          omega
      rw [this, flatMap_singleton', List.zipIdx_map_fst]
    rw [← c1]
    simp only [c2, c3]
    try simp

theorem insertSorted_mem (x y : Nat × List α) : ∀ L, y ∈ insertSorted x L ↔ y = x ∨ y ∈ L
  | [] => by simp [insertSorted]
  | z :: L => by
    unfold insertSorted
    split
    · rw [List.mem_cons, insertSorted_mem x y L, List.mem_cons]
      constructor
      · rintro (h | h | h)
        · exact Or.inr (Or.inl h)
        · exact Or.inl h
        · exact Or.inr (Or.inr h)
      · rintro (h | h | h)
        · exact Or.inr (Or.inl h)
        · exact Or.inl h
        · exact Or.inr (Or.inr h)
    · simp

theorem sortDesc_mem (y : Nat × List α) : ∀ L, y ∈ sortDesc L ↔ y ∈ L
  | [] => by simp [sortDesc]
  | z :: L => by unfold sortDesc; rw [insertSorted_mem, sortDesc_mem y L, List.mem_cons]

theorem insertSorted_desc (x : Nat × List α) : ∀ L : List (Nat × List α), (∀ y ∈ L, y.1 ≠ x.1) →
    L.Pairwise (fun a b => b.1 < a.1) → (insertSorted x L).Pairwise (fun a b => b.1 < a.1)
  | [], _, _ => by simp [insertSorted]
  | z :: L, hne, h => by
    obtain ⟨h1, h2⟩ := List.pairwise_cons.1 h
    unfold insertSorted
    split
    · rename_i hlt
      refine List.pairwise_cons.2 ⟨?_, insertSorted_desc x L (fun y hy => hne y (by simp [hy])) h2⟩
      intro y hy
      rcases (insertSorted_mem x y L).1 hy with rfl | hy
      · exact hlt
      · exact h1 y hy
    · rename_i hlt
      have hz := hne z (by simp)
      refine List.pairwise_cons.2 ⟨?_, h⟩
      intro y hy
      rcases List.mem_cons.1 hy with rfl | hy
      · omega
      · have := h1 y hy
        omega

theorem sortDesc_desc : ∀ L : List (Nat × List α), (L.map Prod.fst).Nodup → (sortDesc L).Pairwise (fun a b => b.1 < a.1)
  | [], _ => by simp [sortDesc]
  | x :: L, h => by
    unfold sortDesc
    obtain ⟨h1, h2⟩ := List.nodup_cons.1 h
    refine insertSorted_desc x _ ?_ (sortDesc_desc L h2)
    intro y hy he
    rw [sortDesc_mem] at hy
    exact h1 (by rw [← he]; exact List.mem_map_of_mem hy)

theorem insertions_some (first : List (Str × Nat)) : ∀ d : List (Str × List α), (∀ p ∈ d, ∃ i, dictGet first p.1 = some i) →
    ∃ L, insertions first d = some L ∧ (∀ i es, (i, es) ∈ L ↔ ∃ n, (n, es) ∈ d ∧ dictGet first n = some i) ∧
      ((d.map Prod.fst).Nodup → (∀ n m i, dictGet first n = some i → dictGet first m = some i → n = m) → (L.map Prod.fst).Nodup)
  | [], _ => ⟨[], rfl, by simp, by simp⟩
  | (n, es) :: d, h => by
    obtain ⟨i, hi⟩ := h (n, es) (by simp)
    obtain ⟨L, h1, h2, h3⟩ := insertions_some first d (fun p hp => h p (by simp [hp]))
    refine ⟨(i, es) :: L, ?_, ?_, ?_⟩
    · unfold insertions
      simp only [] at hi
      rw [hi, h1]
    · intro j fs
      rw [List.mem_cons, h2]
      constructor
      · rintro (h | ⟨m, hm, hd⟩)
        · simp only [Prod.mk.injEq] at h
          rw [h.1, h.2]
          exact ⟨n, by simp, hi⟩
        · exact ⟨m, by simp [hm], hd⟩
      · rintro ⟨m, hm, hd⟩
        rcases List.mem_cons.1 hm with h | hm
        · simp only [Prod.mk.injEq] at h
          left
          rw [h.1] at hd
          simp only [] at hi
          rw [hi] at hd
          simp only [Option.some.injEq] at hd
          rw [h.2, hd]
        · exact Or.inr ⟨m, hm, hd⟩
    · intro hnd hinj
      rw [List.map_cons, List.nodup_cons] at hnd ⊢
      refine ⟨?_, h3 hnd.2 hinj⟩
      intro hm
      obtain ⟨⟨j, fs⟩, hp, hj⟩ := List.mem_map.1 hm
      simp only [] at hj
      subst hj
      obtain ⟨m, hm, hd⟩ := (h2 j fs).1 hp
      have := hinj n m j hi hd
      subst this
      exact hnd.1 (List.mem_map.2 ⟨_, hm, rfl⟩)

theorem dictGet_of_mem {K V : Type} [DecidableEq K] : ∀ (d : List (K × V)) (k : K) (v : V), (d.map Prod.fst).Nodup → (k, v) ∈ d → dictGet d k = some v
  | [], _, _, _, h => by simp at h
  | (a, w) :: d, k, v, hn, h => by
    rw [List.map_cons, List.nodup_cons] at hn
    unfold dictGet
    rcases List.mem_cons.1 h with h | h
    · simp only [Prod.mk.injEq] at h
      rw [if_pos h.1.symm, h.2]
    · rw [if_neg, dictGet_of_mem d k v hn.2 h]
      rintro rfl
      exact hn.1 (List.mem_map.2 ⟨_, h, rfl⟩)

theorem mem_of_dictGet {K V : Type} [DecidableEq K] : ∀ (d : List (K × V)) (k : K) (v : V), dictGet d k = some v → (k, v) ∈ d
  | [], _, _, h => by simp [dictGet] at h
  | (a, w) :: d, k, v, h => by
    unfold dictGet at h
    split at h
    · rename_i hk
      simp only [Option.some.injEq] at h
      subst hk h
      simp
    · exact List.mem_cons_of_mem _ (mem_of_dictGet d k v h)

theorem zipIdx_flatMap_congr (r : List α) (f : α × Nat → List α) (g : α → List α) (h : ∀ e i, r[i]? = some e → f (e, i) = g e) :
    r.zipIdx.flatMap f = r.flatMap g := by
  have : r.zipIdx.flatMap f = r.zipIdx.flatMap (fun p => g p.1) := by
    apply flatMap_congr'
    rintro ⟨e, i⟩ hp
    exact h e i (List.mk_mem_zipIdx_iff_getElem?.1 hp)
  rw [this]
  have : (r.zipIdx.map Prod.fst).flatMap g = r.zipIdx.flatMap (fun p => g p.1) := List.flatMap_map ..
  rw [← this, List.zipIdx_map_fst]

theorem groupOverloaded_eq (key : α → Option Str) (l : List α) : groupOverloaded key l = some (grouped key l) := by
  have inv := inv_loop key l
  unfold groupOverloaded
  generalize l.foldl (step key) emptyState = s at *
  unfold finish
  split
  · rename_i hd
    rw [grouped_of_adjacent key l.length l (Nat.le_refl _)]
    intro n
    have := inv.later n
    rw [hd] at this
    simp only [dictGet] at this
    have hlen : (ofName key n l).length ≤ 1 := by
      rcases Nat.lt_or_ge 1 (ofName key n l).length with h | h
      · rw [if_neg (by omega)] at this
        simp at this
      · exact h
    cases ho : ofName key n l with
    | nil => exact List.nil_infix
    | cons a as =>
      rw [ho] at hlen
      simp only [List.length_cons] at hlen
      have : as = [] := List.length_eq_zero_iff.1 (by omega)
      subst this
      have ha : a ∈ l := by
        have : a ∈ ofName key n l := by rw [ho]; simp
        exact (List.mem_filter.1 this).1
      obtain ⟨A, B, rfl⟩ := List.append_of_mem ha
      exact ⟨A, B, by simp⟩
  · have hall : ∀ p ∈ s.deferred, ∃ i, dictGet s.first p.1 = some i := by
      rintro ⟨n, es⟩ hp
      have h1 := dictGet_of_mem _ _ _ inv.nodup hp
      have h2 := inv.later n
      rw [h1] at h2
      cases hf : dictGet s.first n with
      | some i => exact ⟨i, rfl⟩
      | none =>
        rw [(inv.unseen n).1 hf] at h2
        simp at h2
    obtain ⟨L, h1, h2, h3⟩ := insertions_some s.first s.deferred hall
    have hinj : ∀ n m i, dictGet s.first n = some i → dictGet s.first m = some i → n = m := by
      intro n m i hn hm
      obtain ⟨e, he, hk⟩ := inv.index n i hn
      obtain ⟨e', he', hk'⟩ := inv.index m i hm
      rw [he] at he'
      simp only [Option.some.injEq] at he'
      subst he'
      rw [hk] at hk'
      simpa using hk'
    have hnd := h3 inv.nodup hinj
    rw [h1, Option.map_some]
    have hlt : ∀ p ∈ sortDesc L, p.1 < s.result.length := by
      rintro ⟨i, es⟩ hp
      rw [sortDesc_mem, h2] at hp
      obtain ⟨n, _, hn⟩ := hp
      obtain ⟨e, he, _⟩ := inv.index n i hn
      rw [List.getElem?_eq_some_iff] at he
      exact he.1
    rw [insertGroups_weave _ _ (sortDesc_desc L hnd) hlt]
    congr 1
    unfold grouped
    rw [← inv.result]
    apply zipIdx_flatMap_congr
    intro e i hei
    have hef : e ∈ firsts key [] l := by rw [← inv.result]; exact List.mem_of_getElem? hei
    -- what is inserted after `i`
    have hext : ∀ es, (i, es) ∈ L → ext (sortDesc L) i = es := by
      intro es hm
      unfold ext
      cases hf : (sortDesc L).find? (fun p => p.1 = i) with
      | none =>
        rw [List.find?_eq_none] at hf
        exact absurd (by simp) (hf (i, es) ((sortDesc_mem _ _).2 hm))
      | some p =>
        obtain ⟨j, fs⟩ := p
        have hj := List.find?_some hf
        simp only [decide_eq_true_eq] at hj
        subst hj
        have hm' := (sortDesc_mem _ _).1 (List.mem_of_find?_eq_some hf)
        have e1 := dictGet_of_mem L j es hnd hm
        have e2 := dictGet_of_mem L j fs hnd hm'
        rw [e1] at e2
        simpa using e2.symm
    have hext0 : (∀ es, (i, es) ∉ L) → ext (sortDesc L) i = [] := by
      intro hno
      unfold ext
      cases hf : (sortDesc L).find? (fun p => p.1 = i) with
      | none => rfl
      | some p =>
        obtain ⟨j, fs⟩ := p
        have hj := List.find?_some hf
        simp only [decide_eq_true_eq] at hj
        subst hj
        exact absurd ((sortDesc_mem _ _).1 (List.mem_of_find?_eq_some hf)) (hno fs)
    unfold block
    cases hk : key e with
    | none =>
      simp only []
      rw [hext0]
      intro es hm
      obtain ⟨n, _, hn⟩ := (h2 i es).1 hm
      obtain ⟨e', he', hk'⟩ := inv.index n i hn
      rw [hei] at he'
      simp only [Option.some.injEq] at he'
      rw [← he', hk] at hk'
      simp at hk'
    | some n =>
      simp only []
      have hhead := (firsts_head key hk l [] hef).2
      have hl := inv.later n
      cases ho : ofName key n l with
      | nil => rw [ho] at hhead; simp at hhead
      | cons a as =>
        rw [ho] at hhead hl
        simp only [List.head?_cons, Option.some.injEq] at hhead
        subst hhead
        cases hd : dictGet s.deferred n with
        | none =>
          rw [hd] at hl
          have has : as = [] := by
            cases as with
            | nil => rfl
            | cons b bs => simp at hl
          rw [has, hext0]
          intro es hm
          obtain ⟨m, hm1, hm2⟩ := (h2 i es).1 hm
          obtain ⟨e', he', hk'⟩ := inv.index m i hm2
          rw [hei] at he'
          simp only [Option.some.injEq] at he'
          rw [← he', hk] at hk'
          simp only [Option.some.injEq] at hk'
          subst hk'
          rw [dictGet_of_mem _ _ _ inv.nodup hm1] at hd
          simp at hd
        | some es =>
          rw [hd] at hl
          have hes : es = as := by
            split at hl
            · simp at hl
            · simpa using hl
          subst hes
          rw [hext es]
          rw [h2]
          refine ⟨n, mem_of_dictGet _ _ _ hd, ?_⟩
          -- the first index of `n` is `i`
          cases hf : dictGet s.first n with
          | none =>
            rw [(inv.unseen n).1 hf] at ho
            simp at ho
          | some j =>
            obtain ⟨e', he', hk'⟩ := inv.index n j hf
            have hei' := hei
            rw [inv.result] at he' hei'
            rw [firsts_unique key l [] hei' he' hk hk']

/-! ### de-duplication -/

theorem overload_eq (e : Elem) : overload e = overloaded e := by
  unfold overload overloaded
  cases e.fn with
  | none => rfl
  | some f => cases h : f.overloaded <;> simp [Option.filter, h]

theorem survivors_kept : ∀ (l pre : List Elem) (emitted : List Str),
    (∀ s, s ∈ emitted ↔ pre.any (fun e' => (overloaded e').any (fun g => g.signature = s)) = true) →
    survivors emitted l = ((l.zipIdx pre.length).filter (fun p => ! isDuplicate ((pre ++ l).take p.2) p.1)).map Prod.fst
  | [], _, _, _ => rfl
  | e :: es, pre, emitted, h => by
    rw [List.zipIdx_cons]
    have htake : (pre ++ e :: es).take pre.length = pre := List.take_left
    have hpre : pre ++ e :: es = (pre ++ [e]) ++ es := by simp
    unfold survivors
    rw [overload_eq]
    cases ho : overloaded e with
    | none =>
      have hd : isDuplicate ((pre ++ e :: es).take pre.length) e = false := by
        unfold isDuplicate; rw [ho]; rfl
      rw [List.filter_cons_of_pos (by simp only [hd]; simp), List.map_cons]
      simp only []
      rw [hpre, survivors_kept es (pre ++ [e]) emitted]
      · simp
      · intro s
        rw [h s, List.any_append]
        simp [ho]
    | some f =>
      simp only []
      have hd : isDuplicate ((pre ++ e :: es).take pre.length) e = decide (f.signature ∈ emitted) := by
        unfold isDuplicate
        rw [htake, ho]
        simp only [Option.any_some]
        rw [Bool.eq_iff_iff, decide_eq_true_eq]
        exact (h f.signature).symm
      by_cases hm : f.signature ∈ emitted
      · rw [if_pos hm, List.filter_cons_of_neg (by simp only [hd]; simp [hm])]
        rw [hpre, survivors_kept es (pre ++ [e]) emitted]
        · simp
        · intro s
          rw [List.any_append]
          by_cases hs : f.signature = s
          · subst hs; simp [ho, hm]
          · rw [h s]
            simp [ho, hs]
      · rw [if_neg hm, List.filter_cons_of_pos (by simp only [hd]; simp [hm]), List.map_cons]
        rw [hpre, survivors_kept es (pre ++ [e]) (f.signature :: emitted)]
        · simp
        · intro s
          rw [List.any_append, List.mem_cons]
          simp only [Bool.or_eq_true, ← h s]
          simp only [List.any_cons, ho, Option.any_some, List.any_nil, Bool.or_false, decide_eq_true_eq]
          constructor
          · rintro (h1 | h1)
            · exact Or.inr h1.symm
            · exact Or.inl h1
          · rintro (h1 | h1)
            · exact Or.inr h1
            · exact Or.inl h1.symm

theorem survivors_eq (l : List Elem) : survivors [] l = kept l := survivors_kept l [] [] (by simp)

theorem declarations_snoc (n : Str) (l : List Elem) (e : Elem) : declarations n (l ++ [e]) =
    declarations n l + if (overloaded e).any (fun f => f.pyName = n) && hasContent e.stubLines then 1 else 0 := by
  unfold declarations
  rw [List.filter_append, List.length_append]
  congr 1
  rw [List.filter_cons, List.filter_nil]
  split <;> rfl

theorem counts_inv (l : List Elem) : ((l.foldl countOverload []).map Prod.fst).Nodup ∧
    ∀ n, dictGet (l.foldl countOverload []) n = if declarations n l = 0 then none else some (declarations n l) := by
  induction l using snocInd with
  | h0 => exact ⟨by simp, fun n => by simp [dictGet, declarations]⟩
  | h1 l e ih =>
    rw [List.foldl_append]
    simp only [List.foldl_cons, List.foldl_nil, declarations_snoc]
    generalize l.foldl countOverload [] = c at *
    obtain ⟨h1, h2⟩ := ih
    unfold countOverload
    rw [overload_eq]
    cases ho : overloaded e with
    | none => simpa using ⟨h1, h2⟩
    | some f =>
      simp only []
      cases hc : hasContent e.stubLines with
      | false => simpa using ⟨h1, h2⟩
      | true =>
        simp only [if_true, Bool.and_true, Option.any_some, decide_eq_true_eq]
        refine ⟨dictSet_nodup _ _ _ h1, ?_⟩
        intro n
        rw [dictGet_set]
        by_cases hn : f.pyName = n
        · subst hn
          rw [if_pos rfl, h2]
          by_cases h0 : declarations f.pyName l = 0
          · simp [h0]
          · simp [h0]
        · simp only [hn, if_false, Nat.add_zero]
          exact h2 n

theorem mem_singletons (l : List Elem) (n : Str) : n ∈ singletons (l.foldl countOverload []) ↔ declarations n l = 1 := by
  obtain ⟨h1, h2⟩ := counts_inv l
  generalize l.foldl countOverload [] = c at *
  unfold singletons
  rw [List.mem_map]
  constructor
  · rintro ⟨⟨m, k⟩, hm, hmn⟩
    simp only [] at hmn
    subst hmn
    obtain ⟨hm1, hm2⟩ := List.mem_filter.1 hm
    have := dictGet_of_mem c m k h1 hm1
    rw [h2] at this
    simp only [decide_eq_true_eq] at hm2
    split at this
    · simp at this
    · simp only [Option.some.injEq] at this
      omega
  · intro h
    have := h2 n
    rw [h] at this
    simp only [Nat.succ_ne_self, if_false] at this
    exact ⟨(n, 1), List.mem_filter.2 ⟨mem_of_dictGet _ _ _ this, by simp⟩, rfl⟩

theorem overloadLine_strip {l : Str} (h : strip l = overloadLine) : strip l ≠ [] := by
  rw [h]; decide

theorem filter_no_content {ls : List Str} (h : hasContent ls = false) :
    ls.filter (fun l => strip l ≠ overloadLine) = ls := by
  rw [List.filter_eq_self]
  intro l hl
  unfold hasContent at h
  rw [List.any_eq_false] at h
  have := h l hl
  simp only [decide_eq_true_eq, Decidable.not_not] at this
  simp only [decide_eq_true_eq, ne_eq]
  intro h2
  exact overloadLine_strip h2 this

theorem declarations_pos {k : List Elem} {e : Elem} {f : Fn} (he : e ∈ k) (ho : overloaded e = some f)
    (hc : hasContent e.stubLines = true) : 0 < declarations f.pyName k := by
  unfold declarations
  exact List.length_pos_of_mem (List.mem_filter.2 ⟨he, by simp [ho, hc]⟩)

theorem dedup_eq (l : List Elem) : dedupStubLines l = (kept l).map (fun e => (e, expectedLines (kept l) e)) := by
  unfold dedupStubLines
  simp only [survivors_eq]
  apply List.map_congr_left
  intro e he
  unfold stripSingleton expectedLines
  rw [overload_eq]
  cases ho : overloaded e with
  | none => rfl
  | some f =>
    simp only [mem_singletons, Option.any_some, decide_eq_true_eq]
    by_cases h1 : declarations f.pyName (kept l) = 1
    · rw [if_pos h1, if_pos (by omega)]
    · rw [if_neg h1]
      by_cases h2 : declarations f.pyName (kept l) ≤ 1
      · rw [if_pos h2, filter_no_content]
        cases hc : hasContent e.stubLines with
        | false => rfl
        | true =>
          have := declarations_pos he ho hc
          omega
      · rw [if_neg h2]

theorem kept_mem {l : List Elem} {e : Elem} : e ∈ kept l ↔ ∃ i, l[i]? = some e ∧ isDuplicate (l.take i) e = false := by
  unfold kept
  rw [List.mem_map]
  constructor
  · rintro ⟨⟨x, i⟩, h, rfl⟩
    obtain ⟨h1, h2⟩ := List.mem_filter.1 h
    exact ⟨i, List.mk_mem_zipIdx_iff_getElem?.1 h1, by simpa using h2⟩
  · rintro ⟨i, h1, h2⟩
    exact ⟨(e, i), List.mem_filter.2 ⟨List.mk_mem_zipIdx_iff_getElem?.2 h1, by simpa using h2⟩, rfl⟩

theorem kept_sublist (l : List Elem) : (kept l).Sublist l := by
  unfold kept
  have h1 : (l.zipIdx.filter (fun p => ! isDuplicate (l.take p.2) p.1)).Sublist l.zipIdx := List.filter_sublist
  have h2 := h1.map Prod.fst
  rwa [List.zipIdx_map_fst] at h2

theorem decorators_filter (ls : List Str) : decorators (ls.filter (fun l => strip l ≠ overloadLine)) = 0 := by
  unfold decorators
  rw [List.length_eq_zero_iff, List.filter_eq_nil_iff]
  intro a ha
  have := (List.mem_filter.1 ha).2
  simpa using this

theorem decorators_blank {ls : List Str} (h : hasContent ls = false) : decorators ls = 0 := by
  rw [← filter_no_content h]; exact decorators_filter ls

/-- A representative of the signature. -/
theorem kept_represents (l : List Elem) : ∀ (i : Nat) (e : Elem) (f : Fn), l[i]? = some e → overloaded e = some f →
    ∃ e' ∈ kept l, ∃ g, overloaded e' = some g ∧ g.signature = f.signature := by
  intro i
  induction i using Nat.strongRecOn with
  | _ i ih =>
    intro e f hi ho
    cases hd : isDuplicate (l.take i) e with
    | false => exact ⟨e, kept_mem.2 ⟨i, hi, hd⟩, f, ho, rfl⟩
    | true =>
      unfold isDuplicate at hd
      rw [ho] at hd
      simp only [Option.any_some, List.any_eq_true] at hd
      obtain ⟨e', he', hg⟩ := hd
      cases hg' : overloaded e' with
      | none => rw [hg'] at hg; simp at hg
      | some g =>
        rw [hg'] at hg
        simp only [Option.any_some, decide_eq_true_eq] at hg
        obtain ⟨j, hj, hje⟩ := List.getElem_of_mem he'
        have hj' : j < i ∧ j < l.length := by
          rw [List.length_take] at hj; omega
        have hje' : l[j]? = some e' := by
          rw [List.getElem_take] at hje
          rw [List.getElem?_eq_getElem hj'.2, hje]
        obtain ⟨e'', h1, g', h2, h3⟩ := ih j hj'.1 e' g hje' hg'
        exact ⟨e'', h1, g', h2, by rw [h3, hg]⟩

end Verif.Overload
