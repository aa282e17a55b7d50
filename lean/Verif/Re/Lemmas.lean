import Verif.Re.Spec

/-! The engine finds exactly the matches. -/

namespace Verif.Re
open Verif.Py Spec
open Verif.Scope (isWordChar)

theorem any_last_iff (u : Char → Bool) (a : Str) : a.getLast?.any (isWordChar u) = true ↔ EndsInWord u a := by
  unfold EndsInWord
  cases a.getLast? <;> simp

theorem any_head_iff (u : Char → Bool) (b : Str) : b.head?.any (isWordChar u) = true ↔ BeginsWithWord u b := by
  unfold BeginsWithWord
  cases b.head? <;> simp

theorem any_items_iff (u : Char → Bool) (items : List Item) (c : Char) : items.any (·.has u c) = true ↔ InSet u items c := by
  unfold InSet
  simp

theorem boundary_iff (u : Char → Bool) (a b : Str) (k : List (Nat × Str)) :
    boundary u ⟨a.getLast?, b, k⟩ = true ↔ ¬ (EndsInWord u a ↔ BeginsWithWord u b) := by
  unfold boundary
  rw [bne_iff_ne, ← any_last_iff, ← any_head_iff]
  cases a.getLast?.any (isWordChar u) <;> cases b.head?.any (isWordChar u) <;> simp

theorem getLast?_append_one (a : Str) (c : Char) : (a ++ [c]).getLast? = some c := by simp

/-- The result of one character. -/
theorem mem_step {p : Char → Bool} {st t : St} (h : t ∈ step p st) :
    ∃ c r, st.rest = c :: r ∧ p c = true ∧ t = ⟨some c, r, st.caps⟩ := by
  obtain ⟨q, s, k⟩ := st
  cases s with
  | nil => cases h
  | cons c r =>
    unfold step at h
    dsimp only at h
    split at h
    · next hp => exact ⟨c, r, rfl, hp, List.mem_singleton.1 h⟩
    · cases h

/-- What `iter` gives, for a body that is right. -/
theorem iter_sound {u : Char → Bool} {r : Re} {g : Bool}
    (ih : ∀ (a s : Str) (k : List (Nat × Str)) (t : St), t ∈ run u r ⟨a.getLast?, s, k⟩ →
      ∃ m, s = m ++ t.rest ∧ t.prev = (a ++ m).getLast? ∧ Matches u r a m t.rest k t.caps) (n : Nat) :
    ∀ (a s : Str) (k : List (Nat × Str)) (t : St), t ∈ iter g (run u r) n ⟨a.getLast?, s, k⟩ →
      ∃ m, s = m ++ t.rest ∧ t.prev = (a ++ m).getLast? ∧ Matches u (.star g r) a m t.rest k t.caps := by
  induction n with
  | zero =>
    intro a s k t h
    rw [iter, List.mem_singleton] at h
    subst h
    exact ⟨[], rfl, by simp, .starNil ..⟩
  | succ n ihn =>
    intro a s k t h
    have hm : t = ⟨a.getLast?, s, k⟩ ∨ ∃ t1 ∈ run u r ⟨a.getLast?, s, k⟩, t1.rest.length < s.length ∧ t ∈ iter g (run u r) n t1 := by
      unfold iter at h
      dsimp only at h
      split at h
      · rcases List.mem_append.1 h with h | h
        · obtain ⟨t1, h1, h2⟩ := List.mem_flatMap.1 h
          rw [List.mem_filter] at h1
          exact .inr ⟨t1, h1.1, of_decide_eq_true h1.2, h2⟩
        · exact .inl (List.mem_singleton.1 h)
      · rcases List.mem_cons.1 h with h | h
        · exact .inl h
        · obtain ⟨t1, h1, h2⟩ := List.mem_flatMap.1 h
          rw [List.mem_filter] at h1
          exact .inr ⟨t1, h1.1, of_decide_eq_true h1.2, h2⟩
    rcases hm with rfl | ⟨t1, h1, hl, h2⟩
    · exact ⟨[], rfl, by simp, .starNil ..⟩
    · obtain ⟨m, e1, e2, e3⟩ := ih a s k t1 h1
      obtain ⟨p1, s1, k1⟩ := t1
      dsimp only at e1 e2 e3 hl
      subst e2
      obtain ⟨m', f1, f2, f3⟩ := ihn (a ++ m) s1 k1 t h2
      subst f1
      refine ⟨m ++ m', by rw [e1, List.append_assoc], by rw [f2, List.append_assoc], .starCons _ _ _ _ _ _ _ _ _ ?_ e3 f3⟩
      rintro rfl
      rw [e1] at hl
      simp at hl

/-- Every place that the engine gives ends a match. -/
theorem run_sound (u : Char → Bool) (r : Re) : ∀ (a s : Str) (k : List (Nat × Str)) (t : St), t ∈ run u r ⟨a.getLast?, s, k⟩ →
    ∃ m, s = m ++ t.rest ∧ t.prev = (a ++ m).getLast? ∧ Matches u r a m t.rest k t.caps := by
  induction r with
  | eps =>
    intro a s k t h
    rw [run, List.mem_singleton] at h
    subst h
    exact ⟨[], rfl, by simp, .eps ..⟩
  | chr c =>
    intro a s k t h
    rw [run] at h
    obtain ⟨d, r, e1, e2, e3⟩ := mem_step h
    subst e3
    dsimp only at e1
    subst e1
    rw [of_decide_eq_true e2]
    exact ⟨[c], rfl, (getLast?_append_one a c).symm, .chr ..⟩
  | any =>
    intro a s k t h
    rw [run] at h
    obtain ⟨d, r, e1, e2, e3⟩ := mem_step h
    subst e3
    dsimp only at e1
    subst e1
    exact ⟨[d], rfl, (getLast?_append_one a d).symm, .any _ _ _ _ (of_decide_eq_true e2)⟩
  | set neg items =>
    intro a s k t h
    rw [run] at h
    obtain ⟨d, r, e1, e2, e3⟩ := mem_step h
    subst e3
    dsimp only at e1
    subst e1
    refine ⟨[d], rfl, (getLast?_append_one a d).symm, ?_⟩
    cases neg with
    | false => exact .set _ _ _ _ _ ((any_items_iff u items d).1 (by simpa using e2))
    | true =>
      refine .notSet _ _ _ _ _ (fun h' => ?_)
      rw [(any_items_iff u items d).2 h'] at e2
      cases e2
  | wordB =>
    intro a s k t h
    rw [run] at h
    split at h
    · next hb =>
      rw [List.mem_singleton] at h
      subst h
      exact ⟨[], rfl, by simp, .wordB _ _ _ ((boundary_iff u a s k).1 hb)⟩
    · cases h
  | atEnd =>
    intro a s k t h
    rw [run] at h
    split at h
    · next hb =>
      rw [List.mem_singleton] at h
      subst h
      exact ⟨[], rfl, by simp, .atEnd _ _ _ hb⟩
    · cases h
  | notBehind items =>
    intro a s k t h
    rw [run] at h
    split at h
    · cases h
    · next hb =>
      rw [List.mem_singleton] at h
      subst h
      refine ⟨[], rfl, by simp, .notBehind _ _ _ _ (fun c hc hi => hb ?_)⟩
      dsimp only
      rw [hc]
      exact (any_items_iff u items c).2 hi
  | ahead r ih =>
    intro a s k t h
    rw [run] at h
    cases hr : run u r ⟨a.getLast?, s, k⟩ with
    | nil => rw [hr] at h; cases h
    | cons t1 ts =>
      rw [hr] at h
      dsimp only at h
      rw [List.mem_singleton] at h
      subst h
      obtain ⟨m, e1, e2, e3⟩ := ih a s k t1 (by rw [hr]; simp)
      refine ⟨[], rfl, by simp, ?_⟩
      dsimp only
      rw [e1]
      exact .ahead _ _ _ _ _ _ e3
  | group n r ih =>
    intro a s k t h
    rw [run] at h
    obtain ⟨t1, h1, rfl⟩ := List.mem_map.1 h
    obtain ⟨m, e1, e2, e3⟩ := ih a s k t1 h1
    refine ⟨m, e1, e2, ?_⟩
    have : between ⟨a.getLast?, s, k⟩ t1 = m := by
      unfold between
      rw [e1]
      simp
    rw [this]
    exact .group _ _ _ _ _ _ _ e3
  | seq r q ihr ihq =>
    intro a s k t h
    rw [run] at h
    obtain ⟨t1, h1, h2⟩ := List.mem_flatMap.1 h
    obtain ⟨m, e1, e2, e3⟩ := ihr a s k t1 h1
    obtain ⟨p1, s1, k1⟩ := t1
    dsimp only at e1 e2 e3
    subst e2
    obtain ⟨m', f1, f2, f3⟩ := ihq (a ++ m) s1 k1 t h2
    subst f1
    exact ⟨m ++ m', by rw [e1, List.append_assoc], by rw [f2, List.append_assoc], .seq _ _ _ _ _ _ _ _ _ e3 f3⟩
  | alt r q ihr ihq =>
    intro a s k t h
    rw [run] at h
    rcases List.mem_append.1 h with h | h
    · obtain ⟨m, e1, e2, e3⟩ := ihr a s k t h
      exact ⟨m, e1, e2, .altL _ _ _ _ _ _ _ e3⟩
    · obtain ⟨m, e1, e2, e3⟩ := ihq a s k t h
      exact ⟨m, e1, e2, .altR _ _ _ _ _ _ _ e3⟩
  | star g r ih =>
    intro a s k t h
    rw [run] at h
    exact iter_sound ih _ a s k t h

/-- A longer bound gives at least the same places. -/
theorem mem_iter_self (g : Bool) (f : St → List St) (n : Nat) (st : St) : st ∈ iter g f n st := by
  cases n with
  | zero => exact List.mem_singleton.2 rfl
  | succ n => unfold iter; dsimp only; split <;> simp

theorem mem_iter_step {g : Bool} {f : St → List St} {n : Nat} {st t1 t : St} (h1 : t1 ∈ f st) (hl : t1.rest.length < st.rest.length)
    (h2 : t ∈ iter g f n t1) : t ∈ iter g f (n + 1) st := by
  have : t ∈ ((f st).filter (fun t => decide (t.rest.length < st.rest.length))).flatMap (iter g f n) :=
    List.mem_flatMap.2 ⟨t1, List.mem_filter.2 ⟨h1, decide_eq_true hl⟩, h2⟩
  unfold iter
  dsimp only
  split
  · exact List.mem_append.2 (.inl this)
  · exact List.mem_cons.2 (.inr this)

theorem iter_mono (u : Char → Bool) (r : Re) (g : Bool) (n : Nat) : ∀ (st t : St) (n' : Nat), n ≤ n' →
    t ∈ iter g (run u r) n st → t ∈ iter g (run u r) n' st := by
  induction n with
  | zero =>
    intro st t n' _ h
    rw [iter, List.mem_singleton] at h
    subst h
    exact mem_iter_self _ _ _ _
  | succ n ih =>
    intro st t n' hn h
    obtain ⟨n', rfl⟩ : ∃ k, n' = k + 1 := ⟨n' - 1, by omega⟩
    have hm : t = st ∨ ∃ t1 ∈ run u r st, t1.rest.length < st.rest.length ∧ t ∈ iter g (run u r) n t1 := by
      unfold iter at h
      dsimp only at h
      split at h
      · rcases List.mem_append.1 h with h | h
        · obtain ⟨t1, h1, h2⟩ := List.mem_flatMap.1 h
          rw [List.mem_filter] at h1
          exact .inr ⟨t1, h1.1, of_decide_eq_true h1.2, h2⟩
        · exact .inl (List.mem_singleton.1 h)
      · rcases List.mem_cons.1 h with h | h
        · exact .inl h
        · obtain ⟨t1, h1, h2⟩ := List.mem_flatMap.1 h
          rw [List.mem_filter] at h1
          exact .inr ⟨t1, h1.1, of_decide_eq_true h1.2, h2⟩
    rcases hm with rfl | ⟨t1, h1, hl, h2⟩
    · exact mem_iter_self _ _ _ _
    · exact mem_iter_step h1 hl (ih t1 t n' (by omega) h2)

/-- Every match is among the places of the engine. -/
theorem run_complete {u : Char → Bool} {r : Re} {a m b : Str} {k0 k0' : List (Nat × Str)} (h : Matches u r a m b k0 k0') :
    ∀ k, ∃ k', (⟨(a ++ m).getLast?, b, k'⟩ : St) ∈ run u r ⟨a.getLast?, m ++ b, k⟩ := by
  induction h with
  | eps a b _ => intro k; exact ⟨k, by rw [run]; simp⟩
  | chr c a b _ => intro k; exact ⟨k, by rw [run]; simp [step]⟩
  | any c a b _ h => intro k; exact ⟨k, by rw [run]; simp [step, h]⟩
  | set items c a b _ h =>
    intro k
    refine ⟨k, ?_⟩
    rw [run]
    have := (any_items_iff u items c).2 h
    simp only [List.cons_append, List.nil_append, step, this]
    simp
  | notSet items c a b _ h =>
    intro k
    refine ⟨k, ?_⟩
    rw [run]
    have : items.any (·.has u c) = false := by
      rw [← Bool.not_eq_true]
      exact fun h' => h ((any_items_iff u items c).1 h')
    simp only [List.cons_append, List.nil_append, step, this]
    simp
  | wordB a b _ h =>
    intro k
    refine ⟨k, ?_⟩
    rw [run, if_pos ((boundary_iff u a _ k).2 (by simpa using h))]
    simp
  | atEnd a b _ h => intro k; exact ⟨k, by rw [run, if_pos (by simpa using h)]; simp⟩
  | notBehind items a b _ h =>
    intro k
    refine ⟨k, ?_⟩
    rw [run, if_neg]
    · simp
    · intro h'
      dsimp only at h'
      cases hl : a.getLast? with
      | none => rw [hl] at h'; cases h'
      | some c =>
        rw [hl] at h'
        exact h c hl ((any_items_iff u items c).1 h')
  | ahead r a m b _ _ h ih =>
    intro k
    obtain ⟨k', hk⟩ := ih k
    rw [run, List.nil_append]
    cases hr : run u r ⟨a.getLast?, m ++ b, k⟩ with
    | nil => rw [hr] at hk; cases hk
    | cons t ts => exact ⟨t.caps, by simp⟩
  | group n r a m b _ _ h ih =>
    intro k
    obtain ⟨k', hk⟩ := ih k
    rw [run]
    exact ⟨_, List.mem_map.2 ⟨_, hk, rfl⟩⟩
  | seq r q a m m' b _ _ _ h1 h2 ih1 ih2 =>
    intro k
    obtain ⟨k1, hk1⟩ := ih1 k
    obtain ⟨k2, hk2⟩ := ih2 k1
    rw [run, List.append_assoc, ← List.append_assoc a]
    exact ⟨k2, List.mem_flatMap.2 ⟨_, hk1, hk2⟩⟩
  | altL r q a m b _ _ h ih =>
    intro k
    obtain ⟨k', hk⟩ := ih k
    rw [run]
    exact ⟨k', List.mem_append.2 (.inl hk)⟩
  | altR r q a m b _ _ h ih =>
    intro k
    obtain ⟨k', hk⟩ := ih k
    rw [run]
    exact ⟨k', List.mem_append.2 (.inr hk)⟩
  | starNil g r a b _ =>
    intro k
    refine ⟨k, ?_⟩
    rw [run, List.append_nil, List.nil_append]
    exact mem_iter_self _ _ _ _
  | starCons g r a m m' b _ _ _ hm h1 h2 ih1 ih2 =>
    intro k
    obtain ⟨k1, hk1⟩ := ih1 k
    obtain ⟨k2, hk2⟩ := ih2 k1
    refine ⟨k2, ?_⟩
    rw [run] at hk2 ⊢
    dsimp only at hk2 ⊢
    rw [List.append_assoc, ← List.append_assoc a]
    have hlen : (m' ++ b).length < (m ++ (m' ++ b)).length := by
      have := List.length_pos_iff.2 hm
      simp only [List.length_append]
      omega
    have key : ∀ n st, (m' ++ b).length ≤ n → st ∈ iter g (run u r) (m' ++ b).length ⟨(a ++ m).getLast?, m' ++ b, k1⟩ →
        st ∈ iter g (run u r) n ⟨(a ++ m).getLast?, m' ++ b, k1⟩ := fun n st hn h => iter_mono u r g _ _ _ _ hn h
    obtain ⟨n, hn⟩ : ∃ n, (m ++ (m' ++ b)).length = n + 1 := ⟨(m ++ (m' ++ b)).length - 1, by omega⟩
    rw [hn]
    exact mem_iter_step hk1 hlen (key n _ (by omega) hk2)

end Verif.Re
