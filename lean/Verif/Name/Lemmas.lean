import Verif.Py.StrLemmas
import Verif.Name.Model
import Verif.Name.Spec

namespace Verif.Name
open Verif.Py

theorem isUp_iff (c : Char) : isUp c = true ↔ Spec.Upper c := by
  simp only [isUp, Spec.Upper, Bool.and_eq_true, decide_eq_true_eq, Char.le_def, UInt32.le_iff_toNat_le]
  exact Iff.rfl
theorem isLow_iff (c : Char) : isLow c = true ↔ Spec.Lower c := by
  simp only [isLow, Spec.Lower, Bool.and_eq_true, decide_eq_true_eq, Char.le_def, UInt32.le_iff_toNat_le]
  exact Iff.rfl

theorem toNat_ofNat {n : Nat} (h : n < 128) : (Char.ofNat n).toNat = n := by
  have hv : n.isValidChar := Or.inl (by omega)
  rw [Char.ofNat, dif_pos hv]
  rfl

theorem char_toNat_inj {a b : Char} (h : a.toNat = b.toNat) : a = b := by
  apply Char.ext; exact UInt32.toNat_inj.1 h

theorem isUp_lowC (c : Char) : isUp (lowC c) = false := by
  unfold lowC
  split
  · rename_i h
    simp [isUp] at h
    have : (Char.ofNat (c.toNat + 32)).toNat = c.toNat + 32 := toNat_ofNat (by omega)
    simp [isUp, this]; omega
  · rename_i h; simpa using h

theorem lowC_of_not_up {c : Char} (h : isUp c = false) : lowC c = c := by simp [lowC, h]

theorem lowC_underscore : lowC '_' = '_' := by decide +kernel
theorem lowC_eq_underscore {c : Char} : lowC c = '_' ↔ c = '_' := by
  constructor
  · intro h
    unfold lowC at h
    split at h
    · rename_i hu
      simp [isUp] at hu
      have h1 : (Char.ofNat (c.toNat + 32)).toNat = c.toNat + 32 := toNat_ofNat (by omega)
      rw [h] at h1
      have : ('_' : Char).toNat = 95 := by decide
      omega
    · exact h
  · rintro rfl; exact lowC_underscore

theorem sub1_no_up (s : Str) (h : ∀ c ∈ s, isUp c = false) : ∀ b, sub1 b s = s := by
  induction s with
  | nil => intro b; rfl
  | cons c cs ih =>
    intro b
    have ih' := ih (fun x hx => h x (by simp [hx]))
    unfold sub1
    split
    · rw [ih']
    · cases cs with
      | nil => rfl
      | cons u rest =>
        have hu := h u (by simp)
        have : matches1 (c :: u :: rest) = false := by
          cases rest <;> simp [matches1, hu]
        simp [this, ih']

theorem sub2_no_up (s : Str) (h : ∀ c ∈ s, isUp c = false) : sub2 s = s := by
  induction s with
  | nil => rfl
  | cons a s ih =>
    have ih' := ih (fun x hx => h x (by simp [hx]))
    match s with
    | [] => rfl
    | [_] => rfl
    | b :: u :: rest =>
      have hu := h u (by simp)
      simp [sub2, hu, ih']

theorem sub3_no_up (s : Str) (h : ∀ c ∈ s, isUp c = false) : sub3 s = s := by
  induction s with
  | nil => rfl
  | cons a s ih =>
    have ih' := ih (fun x hx => h x (by simp [hx]))
    match s with
    | [] => rfl
    | u :: rest =>
      have hu := h u (by simp)
      simp [sub3, hu, ih']

theorem erase_sub1 (s : Str) : ∀ b, Spec.eraseUnderscores (sub1 b s) = Spec.eraseUnderscores s := by
  suffices H : ∀ n (s : Str), s.length ≤ n → ∀ b,
      Spec.eraseUnderscores (sub1 b s) = Spec.eraseUnderscores s from fun b => H _ s (Nat.le_refl _) b
  intro n
  induction n with
  | zero => intro s hs b; have : s = [] := by simpa using hs
            subst this; rfl
  | succ n ih =>
    intro s hs b
    cases s with
    | nil => rfl
    | cons c cs =>
      simp at hs
      unfold sub1
      split
      · have := ih cs hs true
        simp [Spec.eraseUnderscores, List.filter_cons] at this ⊢
        rw [this]
      · cases cs with
        | nil => rfl
        | cons u rest =>
          simp only
          simp at hs
          split
          · have := ih rest (by omega) true
            simp [Spec.eraseUnderscores, List.filter_cons] at this ⊢
            rw [this]
          · have := ih (u :: rest) (by simpa using hs) false
            simp [Spec.eraseUnderscores, List.filter_cons] at this ⊢
            rw [this]

theorem erase_sub2 (s : Str) : Spec.eraseUnderscores (sub2 s) = Spec.eraseUnderscores s := by
  suffices H : ∀ n (s : Str), s.length ≤ n →
      Spec.eraseUnderscores (sub2 s) = Spec.eraseUnderscores s from H _ s (Nat.le_refl _)
  intro n
  induction n with
  | zero => intro s hs; have : s = [] := by simpa using hs
            subst this; rfl
  | succ n ih =>
    intro s hs
    match s with
    | [] => rfl
    | [_] => rfl
    | [_, _] => rfl
    | a :: b :: u :: rest =>
      simp at hs
      unfold sub2
      split
      · rename_i h
        have := ih rest (by omega)
        obtain ⟨rfl, rfl, _⟩ := h
        simp [Spec.eraseUnderscores, List.filter_cons] at this ⊢
        rw [this]
      · have := ih (b :: u :: rest) (by simp; omega)
        simp [Spec.eraseUnderscores, List.filter_cons] at this ⊢
        rw [this]

theorem erase_sub3 (s : Str) : Spec.eraseUnderscores (sub3 s) = Spec.eraseUnderscores s := by
  suffices H : ∀ n (s : Str), s.length ≤ n →
      Spec.eraseUnderscores (sub3 s) = Spec.eraseUnderscores s from H _ s (Nat.le_refl _)
  intro n
  induction n with
  | zero => intro s hs; have : s = [] := by simpa using hs
            subst this; rfl
  | succ n ih =>
    intro s hs
    match s with
    | [] => rfl
    | [_] => rfl
    | a :: u :: rest =>
      simp at hs
      unfold sub3
      split
      · have := ih rest (by omega)
        simp [Spec.eraseUnderscores, List.filter_cons] at this ⊢
        rw [this]
      · have := ih (u :: rest) (by simp; omega)
        simp [Spec.eraseUnderscores, List.filter_cons] at this ⊢
        rw [this]

theorem erase_lower (s : Str) :
    Spec.eraseUnderscores (lower s) = lower (Spec.eraseUnderscores s) := by
  induction s with
  | nil => rfl
  | cons c cs ih =>
    unfold lower Spec.eraseUnderscores at ih ⊢
    simp only [List.map_cons]
    by_cases h : c = '_'
    · subst h
      rw [lowC_underscore, List.filter_cons_of_neg (by simp), List.filter_cons_of_neg (by simp), ih]
    · have : lowC c ≠ '_' := fun e => h (lowC_eq_underscore.1 e)
      rw [List.filter_cons_of_pos (by simpa using this), List.filter_cons_of_pos (by simpa using h),
        List.map_cons, ih]

/-! ### Camel case words -/

theorem low_not_up {c : Char} (h : isLow c = true) : isUp c = false := by
  simp [isLow] at h; simp [isUp]; omega
theorem up_not_low {c : Char} (h : isUp c = true) : isLow c = false := by
  simp [isUp] at h; simp [isLow]; omega
theorem up_ne_underscore {c : Char} (h : isUp c = true) : c ≠ '_' := by rintro rfl; revert h; decide
theorem low_ne_underscore {c : Char} (h : isLow c = true) : c ≠ '_' := by rintro rfl; revert h; decide
theorem low_ne_nl {c : Char} (h : isLow c = true) : c ≠ '\n' := by rintro rfl; revert h; decide

/-- A capitalised word, in terms of the model's character classes. -/
def Cap (w : Str) : Prop :=
  ∃ u l ls, w = u :: l :: ls ∧ isUp u = true ∧ ∀ c ∈ l :: ls, isLow c = true

theorem cap_of_spec {w : Str} (h : Spec.CapWord w) : Cap w := by
  obtain ⟨u, l, ls, rfl, h1, h2, h3⟩ := h
  refine ⟨u, l, ls, rfl, (isUp_iff u).2 h1, ?_⟩
  intro c hc
  rcases List.mem_cons.1 hc with rfl | hc
  · exact (isLow_iff _).2 h2
  · exact (isLow_iff _).2 (h3 c hc)

theorem sub1_true_low (ls t : Str) (h : ∀ c ∈ ls, isLow c = true) :
    sub1 true (ls ++ t) = ls ++ sub1 true t := by
  induction ls with
  | nil => rfl
  | cons c cs ih =>
    have hc := h c (by simp)
    simp only [List.cons_append]
    conv => lhs; unfold sub1
    simp [hc, ih (fun x hx => h x (by simp [hx]))]

theorem sub1_false_low_nil (ls : Str) (h : ∀ c ∈ ls, isLow c = true) :
    sub1 false ls = ls := sub1_no_up ls (fun c hc => low_not_up (h c hc)) false

theorem sub1_false_low_cap (l : Char) (ls : Str) : (∀ c ∈ l :: ls, isLow c = true) →
    ∀ (w t : Str), Cap w → sub1 false (l :: ls ++ (w ++ t)) = l :: ls ++ '_' :: w ++ sub1 true t := by
  induction ls generalizing l with
  | nil =>
    intro h w t hw
    obtain ⟨u, m, ms, rfl, hu, hm⟩ := hw
    have hl := h l (by simp)
    have hmt := sub1_true_low (m :: ms) t hm
    simp only [List.cons_append, List.nil_append] at hmt ⊢
    conv => lhs; unfold sub1
    have : matches1 (l :: u :: m :: (ms ++ t)) = true := by
      simp [matches1, hu, hm m (by simp), low_ne_nl hl]
    simp [this, hmt]
  | cons m ms ih =>
    intro h w t hw
    have hm := h m (by simp)
    have h2 := ih m (fun c hc => h c (by simp at hc ⊢; right; exact hc)) w t hw
    simp only [List.cons_append] at h2 ⊢
    conv => lhs; unfold sub1
    have : matches1 (l :: m :: (ms ++ (w ++ t))) = false := by
      cases hx : ms ++ (w ++ t) <;> simp [matches1, low_not_up hm]
    simp [this, h2]

theorem sub1_cap_cap (b : Bool) (w w' t : Str) (hw : Cap w) (hw' : Cap w') :
    sub1 b (w ++ (w' ++ t)) = w ++ '_' :: w' ++ sub1 true t := by
  obtain ⟨u, l, ls, rfl, hu, hl⟩ := hw
  have h1 := sub1_false_low_cap l ls hl w' t hw'
  simp only [List.cons_append] at h1 ⊢
  conv => lhs; unfold sub1
  have : matches1 (u :: l :: (ls ++ (w' ++ t))) = false := by
    cases hx : ls ++ (w' ++ t) <;> simp [matches1, low_not_up (hl l (by simp))]
  simp [this, up_not_low hu, h1]

theorem sub1_cap (b : Bool) (w : Str) (hw : Cap w) : sub1 b w = w := by
  obtain ⟨u, l, ls, rfl, hu, hl⟩ := hw
  conv => lhs; unfold sub1
  have : matches1 (u :: l :: ls) = false := by
    cases ls <;> simp [matches1, low_not_up (hl l (by simp))]
  simp [this, up_not_low hu, sub1_false_low_nil _ hl]

/-- What the first substitution does to capitalised words: every other boundary is separated. -/
def pairs : List Str → Str
  | [] => []
  | [w] => w
  | w :: w' :: ws => w ++ '_' :: w' ++ pairs ws

theorem sub1_words (ws : List Str) (h : ∀ w ∈ ws, Cap w) : ∀ b, sub1 b ws.flatten = pairs ws := by
  suffices H : ∀ n (ws : List Str), ws.length ≤ n → (∀ w ∈ ws, Cap w) →
      ∀ b, sub1 b ws.flatten = pairs ws from H _ ws (Nat.le_refl _) h
  intro n
  induction n with
  | zero => intro ws hl _ b; have : ws = [] := by simpa using hl
            subst this; cases b <;> rfl
  | succ n ih =>
    intro ws hl h b
    match ws with
    | [] => cases b <;> rfl
    | [w] => simpa [pairs] using sub1_cap b w (h w (by simp))
    | w :: w' :: ws =>
      simp at hl
      simp only [List.flatten_cons, pairs]
      rw [sub1_cap_cap b w w' _ (h w (by simp)) (h w' (by simp)),
        ih ws (by omega) (fun x hx => h x (by simp [hx]))]

/-- No two consecutive underscores. -/
def noDouble : Str → Bool
  | a :: b :: s => !(a = '_' && b = '_') && noDouble (b :: s)
  | _ => true

theorem sub2_noDouble (s : Str) (h : noDouble s = true) : sub2 s = s := by
  induction s with
  | nil => rfl
  | cons a s ih =>
    match s with
    | [] => rfl
    | [_] => rfl
    | b :: u :: rest =>
      simp only [noDouble, Bool.and_eq_true] at h
      unfold sub2
      rw [if_neg, ih (by simpa [noDouble] using h.2)]
      rintro ⟨rfl, rfl, _⟩
      simp at h

theorem noDouble_append_word (w t : Str) (hw : '_' ∉ w) (hne : w ≠ []) (ht : noDouble t = true) :
    noDouble (w ++ t) = true := by
  induction w with
  | nil => exact absurd rfl hne
  | cons a w ih =>
    have ha : a ≠ '_' := fun e => hw (by simp [e])
    cases w with
    | nil =>
      cases t with
      | nil => rfl
      | cons b t => simp [noDouble, ha]; simpa using ht
    | cons b w =>
      have := ih (fun e => hw (by simp [e])) (by simp)
      simp only [List.cons_append] at this ⊢
      simp [noDouble, ha]; exact this

theorem cap_no_underscore {w : Str} (h : Cap w) : '_' ∉ w := by
  obtain ⟨u, l, ls, rfl, hu, hl⟩ := h
  intro hm
  rcases List.mem_cons.1 hm with e | hm
  · exact up_ne_underscore hu e.symm
  · exact low_ne_underscore (hl _ hm) rfl

theorem cap_ne_nil {w : Str} (h : Cap w) : w ≠ [] := by
  obtain ⟨u, l, ls, rfl, _⟩ := h; simp

theorem noDouble_pairs (ws : List Str) (h : ∀ w ∈ ws, Cap w) : noDouble (pairs ws) = true := by
  suffices H : ∀ n (ws : List Str), ws.length ≤ n → (∀ w ∈ ws, Cap w) →
      noDouble (pairs ws) = true from H _ ws (Nat.le_refl _) h
  intro n
  induction n with
  | zero => intro ws hl _; have : ws = [] := by simpa using hl
            subst this; rfl
  | succ n ih =>
    intro ws hl h
    match ws with
    | [] => rfl
    | [w] =>
      have hw := h w (by simp)
      have := noDouble_append_word w [] (cap_no_underscore hw) (cap_ne_nil hw) rfl
      simpa [pairs] using this
    | w :: w' :: ws =>
      simp at hl
      have hw := h w (by simp)
      have hw' := h w' (by simp)
      have h1 := ih ws (by omega) (fun x hx => h x (by simp [hx]))
      have h2 := noDouble_append_word w' _ (cap_no_underscore hw') (cap_ne_nil hw') h1
      have h3 : noDouble ('_' :: (w' ++ pairs ws)) = true := by
        obtain ⟨u, l, ls, rfl, hu, hl⟩ := hw'
        simp only [List.cons_append] at h2 ⊢
        simp only [noDouble, Bool.and_eq_true]
        refine ⟨by simp [up_ne_underscore hu], ?_⟩
        simpa only [noDouble, Bool.and_eq_true] using h2
      have := noDouble_append_word w _ (cap_no_underscore hw) (cap_ne_nil hw) h3
      simpa [pairs] using this

theorem sub3_low (l : Char) (ls : Str) : (∀ c ∈ l :: ls, isLow c = true) →
    (sub3 (l :: ls) = l :: ls) ∧
    (∀ t, sub3 (l :: ls ++ '_' :: t) = l :: ls ++ '_' :: sub3 t) ∧
    (∀ u t, isUp u = true → sub3 (l :: ls ++ u :: t) = l :: ls ++ '_' :: u :: sub3 t) := by
  have hunder : ∀ t, sub3 ('_' :: t) = '_' :: sub3 t := by
    intro t
    cases t with
    | nil => rfl
    | cons x xs =>
      conv => lhs; unfold sub3
      rw [if_neg]
      have : (isLow '_' || isDig '_') = false := by decide
      simp [this]
  induction ls generalizing l with
  | nil =>
    intro h
    have hl := h l (by simp)
    refine ⟨rfl, ?_, ?_⟩
    · intro t
      have : isUp '_' = false := by decide
      simp [sub3, this, hunder]
    · intro u t hu
      simp [sub3, hl, hu]
  | cons m ms ih =>
    intro h
    have hm := h m (by simp)
    obtain ⟨h1, h2, h3⟩ := ih m (fun c hc => h c (by simp at hc ⊢; right; exact hc))
    have step : ∀ x, sub3 (l :: m :: x) = l :: sub3 (m :: x) := by
      intro x
      conv => lhs; unfold sub3
      simp [low_not_up hm]
    refine ⟨by rw [step, h1], ?_, ?_⟩
    · intro t; have := h2 t; simp only [List.cons_append] at this ⊢; rw [step, this]
    · intro u t hu; have := h3 u t hu; simp only [List.cons_append] at this ⊢; rw [step, this]

theorem sub3_up (u l : Char) (x : Str) (hu : isUp u = true) (hl : isLow l = true) :
    sub3 (u :: l :: x) = u :: sub3 (l :: x) := by
  conv => lhs; unfold sub3
  simp [low_not_up hl]

theorem sub3_pairs (ws : List Str) (h : ∀ w ∈ ws, Cap w) : sub3 (pairs ws) = join ['_'] ws := by
  suffices H : ∀ n (ws : List Str), ws.length ≤ n → (∀ w ∈ ws, Cap w) →
      sub3 (pairs ws) = join ['_'] ws from H _ ws (Nat.le_refl _) h
  intro n
  induction n with
  | zero => intro ws hl _; have : ws = [] := by simpa using hl
            subst this; rfl
  | succ n ih =>
    intro ws hl h
    match ws with
    | [] => rfl
    | [w] =>
      obtain ⟨u, l, ls, rfl, hu, hls⟩ := h w (by simp)
      simp only [pairs, join_single]
      rw [sub3_up _ _ _ hu (hls l (by simp)), (sub3_low l ls hls).1]
    | w :: w' :: ws =>
      simp at hl
      have hws : ∀ x ∈ ws, Cap x := fun x hx => h x (by simp [hx])
      have h1 := ih ws (by omega) hws
      obtain ⟨u, l, ls, rfl, hu, hls⟩ := h w (by simp)
      obtain ⟨u', l', ls', rfl, hu', hls'⟩ := h w' (by simp)
      have e1 : sub3 (u' :: l' :: ls' ++ pairs ws) = join ['_'] ((u' :: l' :: ls') :: ws) := by
        simp only [List.cons_append]
        rw [sub3_up _ _ _ hu' (hls' l' (by simp))]
        cases ws with
        | nil => simp [pairs, (sub3_low l' ls' hls').1]
        | cons v vs =>
          obtain ⟨u2, l2, ls2, hv, hu2, hls2⟩ := h v (by simp)
          have hp : ∃ t, pairs (v :: vs) = u2 :: l2 :: t := by
            cases vs with
            | nil => exact ⟨ls2, by simp [pairs, hv]⟩
            | cons y ys => exact ⟨_, by simp [pairs, hv]; rfl⟩
          obtain ⟨t, ht⟩ := hp
          rw [ht] at h1 ⊢
          rw [sub3_up _ _ _ hu2 (hls2 l2 (by simp))] at h1
          have := (sub3_low l' ls' hls').2.2 u2 (l2 :: t) hu2
          simp only [List.cons_append] at this
          rw [this, h1]
          rw [join_cons_cons]
          simp
      rw [join_cons_cons, ← e1]
      have := (sub3_low l ls hls).2.1 (u' :: l' :: ls' ++ pairs ws)
      simp only [pairs, List.cons_append, List.append_assoc] at this ⊢
      rw [sub3_up _ _ _ hu (hls l (by simp)), this]
      simp

theorem lower_join (ws : List Str) : lower (join ['_'] ws) = join ['_'] (ws.map lower) := by
  induction ws with
  | nil => rfl
  | cons w ws ih =>
    cases ws with
    | nil => rfl
    | cons v vs =>
      rw [join_cons_cons, List.map_cons, List.map_cons, join_cons_cons, ← List.map_cons, ← ih]
      simp [lower, lowC_underscore]

theorem title_low (w : Str) : (∀ c ∈ w, isLow c = true) → titleAux true w = w := by
  induction w with
  | nil => intro _; rfl
  | cons c cs ih =>
    intro h
    have hc := h c (by simp)
    simp [titleAux, hc, lowC_of_not_up (low_not_up hc), ih (fun x hx => h x (by simp [hx]))]

theorem up_upC {c : Char} (h : isLow c = true) : isUp (upC c) = true ∧ lowC (upC c) = c := by
  have h' := h
  simp [isLow] at h'
  have h1 : (Char.ofNat (c.toNat - 32)).toNat = c.toNat - 32 := toNat_ofNat (by omega)
  have hu : isUp (upC c) = true := by
    simp [upC, h, isUp, h1]; omega
  refine ⟨hu, ?_⟩
  unfold lowC
  rw [if_pos hu]
  simp only [upC, h, if_true, h1]
  have : c.toNat - 32 + 32 = c.toNat := by omega
  rw [this]; simp

end Verif.Name
