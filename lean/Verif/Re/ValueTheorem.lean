import Verif.Re.ValueAll

/-! The standard replacements of values, on the pieces of a value. -/

namespace Verif.Re
open Verif.Py Spec Verif.Inst Verif.Inst.Spec
open Verif.Scope (isWordChar)

theorem passR_nil (u : Char → Bool) (s : Str) : passR u [] s = s := rfl
theorem passR_cons (u : Char → Bool) (r : Re) (t : List Tok) (rs : List (Re × List Tok)) (s : Str) :
    passR u ((r, t) :: rs) s = passR u rs (sub u r t s) := rfl

/-- The words by which words are replaced have no digit. -/
theorem plain_of {w : Str} (h : ∀ c ∈ w, isDigit c = false) : Plain w := by
  rintro x c y rfl hc
  rw [h c (by simp)] at hc
  cases hc

theorem calmWord_of {w : Str} (h : w.head? ≠ some 's' ∧ w.head? ≠ some 'v') : CalmWord w := by
  refine ⟨?_, ?_, ?_⟩
  · rintro rfl; exact h.2 rfl
  · rintro c rfl; exact h.1 rfl
  · rintro c rfl; exact h.1 rfl

theorem takes_word {u : Char → Bool} {v : Str} (h1 : Ident u v) (h2 : Plain v) (h3 : v.head? ≠ some 's' ∧ v.head? ≠ some 'v')
    (h4 : v ≠ "nullopt".toList) : Takes u [.word v] where
  first := ⟨v, [], rfl⟩
  lexed := fun l ha hl => ⟨h1, h2, ha, hl⟩
  calm := fun l hl => ⟨calmWord_of h3, fun e => by rw [e] at h3; exact absurd rfl h3.1, hl⟩
  start := fun w m e => by
    have : v = w := VTok.word.inj (List.cons.inj e).1
    rw [← this]
    exact ⟨h4, fun e => by rw [e] at h3; exact absurd rfl h3.1⟩

theorem apart_sep (c : Char) (l : List VTok) : Apart (.sep c :: l) := ⟨fun _ _ e => (by cases e), fun _ _ _ e => (by cases e)⟩

theorem takes_sys {u : Char → Bool} {v : Str} (h1 : Ident u v) (h2 : Plain v) (h3 : v.head? ≠ some 's' ∧ v.head? ≠ some 'v') :
    Takes u [.word "sys".toList, .sep '.', .word "float_info".toList, .sep '.', .word v] where
  first := ⟨_, _, rfl⟩
  lexed := fun l ha hl => ⟨ident_of (by decide) (by decide), plain_of (by decide), apart_sep _ _, rfl, fun e => absurd e (by decide),
    ident_of (by decide) (by decide), plain_of (by decide), apart_sep _ _, rfl, fun e => absurd e (by decide), h1, h2, ha, hl⟩
  calm := fun l hl => ⟨⟨by decide, fun c e => absurd (congrArg List.length e) (by simp), fun c e => absurd (congrArg List.length e) (by simp)⟩,
    fun e => absurd e (by decide), by decide, calmWord_of (by decide), fun e => absurd e (by decide), by decide, calmWord_of h3,
    fun e => by rw [e] at h3; exact absurd rfl h3.1, hl⟩
  start := fun w m e => by
    have : "sys".toList = w := VTok.word.inj (List.cons.inj e).1
    rw [← this]
    decide

/-! ### Maps that keep the kind of the pieces -/

/-- `drop` keeps what is not a number. -/
theorem drop_kind (fs : List Char) (t : VTok) : t.drop fs = t ∨ ∃ b s s', t = .num b s ∧ t.drop fs = .num b s' ∧ ∀ c ∈ s', c ∈ s := by
  cases t with
  | num b s =>
    rcases drop_cases fs b s with ⟨c, rfl, _, e⟩ | ⟨_, e⟩
    · exact .inr ⟨b, [c], [], rfl, e, by simp⟩
    · exact .inl e
  | _ => exact .inl rfl

theorem drop_sep (fs : List Char) (t : VTok) (c : Char) (h : t.drop fs = .sep c) : t = .sep c := by
  rcases drop_kind fs t with e | ⟨b, s, s', _, e, _⟩
  · rw [← e]; exact h
  · rw [e] at h; cases h

theorem drop_scope (fs : List Char) (t : VTok) (h : t.drop fs = .scope) : t = .scope := by
  rcases drop_kind fs t with e | ⟨b, s, s', _, e, _⟩
  · rw [← e]; exact h
  · rw [e] at h; cases h

theorem drop_word (fs : List Char) (t : VTok) (w : Str) (h : t.drop fs = .word w) : t = .word w := by
  rcases drop_kind fs t with e | ⟨b, s, s', _, e, _⟩
  · rw [← e]; exact h
  · rw [e] at h; cases h

theorem drop_num (fs : List Char) (t : VTok) (b s : Str) (h : t.drop fs = .num b s) : ∃ s', t = .num b s' := by
  rcases drop_kind fs t with e | ⟨b', s1, s2, e1, e, _⟩
  · exact ⟨s, by rw [← e]; exact h⟩
  · rw [e] at h
    obtain ⟨rfl, _⟩ := VTok.num.inj h
    exact ⟨s1, e1⟩

theorem map_cons_inv {f : VTok → VTok} {l m : List VTok} {t : VTok} (h : l.map f = t :: m) : ∃ t' m', l = t' :: m' ∧ f t' = t ∧ m'.map f = m := by
  cases l with
  | nil => cases h
  | cons a l => obtain ⟨h1, h2⟩ := List.cons.inj h; exact ⟨a, l, rfl, h1, h2⟩

theorem apart_drop (fs : List Char) {l : List VTok} (h : Apart l) : Apart (l.map (VTok.drop fs)) := by
  refine ⟨fun w m e => ?_, fun b s m e => ?_⟩
  · obtain ⟨t, m', rfl, h1, _⟩ := map_cons_inv e
    exact h.1 w m' (by rw [drop_word fs t w h1])
  · obtain ⟨t, m', rfl, h1, _⟩ := map_cons_inv e
    obtain ⟨s', h2⟩ := drop_num fs t b s h1
    exact h.2 b s' m' (by rw [h2])

theorem lexed_drop {u : Char → Bool} (fs : List Char) : ∀ {l : List VTok}, Lexed u l → Lexed u (l.map (VTok.drop fs))
  | [], _ => trivial
  | .word w :: l, hl => ⟨hl.1, hl.2.1, apart_drop fs hl.2.2.1, lexed_drop fs hl.2.2.2⟩
  | .num b s :: l, hl => by
    have h1 : ∀ m, l.map (VTok.drop fs) ≠ .sep '.' :: m := by
      intro m e
      obtain ⟨t, m', rfl, h1, _⟩ := map_cons_inv e
      exact hl.2.2.2.1 m' (by rw [drop_sep fs t _ h1])
    have h2 : ∀ m, l.map (VTok.drop fs) ≠ .scope :: m := by
      intro m e
      obtain ⟨t, m', rfl, h1, _⟩ := map_cons_inv e
      exact hl.2.2.2.2.1 m' (by rw [drop_scope fs t h1])
    rw [List.map_cons]
    rcases drop_kind fs (.num b s) with e | ⟨b', s1, s2, e1, e, hs⟩
    · rw [e]
      exact ⟨hl.1, hl.2.1, apart_drop fs hl.2.2.1, h1, h2, lexed_drop fs hl.2.2.2.2.2⟩
    · obtain ⟨rfl, rfl⟩ := VTok.num.inj e1
      rw [e]
      exact ⟨hl.1, fun c hc => hl.2.1 c (hs c hc), apart_drop fs hl.2.2.1, h1, h2, lexed_drop fs hl.2.2.2.2.2⟩
  | .scope :: l, hl => lexed_drop (l := l) fs hl
  | .sep c :: l, hl => by
    refine ⟨hl.1, fun hc m => ⟨fun e => ?_, fun e => ?_⟩, lexed_drop (l := l) fs hl.2.2⟩
    · obtain ⟨t, m', rfl, h1, _⟩ := map_cons_inv e
      exact (hl.2.1 hc m').1 (by rw [drop_sep fs t _ h1])
    · obtain ⟨t, m', rfl, h1, _⟩ := map_cons_inv e
      exact (hl.2.1 hc m').2 (by rw [drop_scope fs t h1])

theorem calm_map {f : VTok → VTok} (hw : ∀ t w, f t = .word w ↔ t = .word w) (hc : ∀ t c, f t = .sep c → t = .sep c ∨ c ≠ '\'') : ∀ {l : List VTok}, Calm l →
    Calm (l.map f)
  | [], _ => trivial
  | t :: l, hl => by
    have ih : Calm l → Calm (l.map f) := calm_map hw hc
    rw [List.map_cons]
    cases ht : f t with
    | word w =>
      have := (hw t w).1 ht
      subst this
      refine ⟨hl.1, fun e t v m e2 => ?_, ih hl.2.2⟩
      obtain ⟨t', m', rfl, h1, h2⟩ := map_cons_inv e2
      obtain ⟨t2, m2, rfl, h3, _⟩ := map_cons_inv h2
      exact hl.2.1 e t' v m2 (by rw [(hw t2 v).1 h3])
    | num b s =>
      cases t with
      | word w => rw [(hw _ w).2 rfl] at ht; cases ht
      | num b s => exact ih hl
      | scope => exact ih hl
      | sep c => exact ih hl.2
    | scope =>
      cases t with
      | word w => rw [(hw _ w).2 rfl] at ht; cases ht
      | num b s => exact ih hl
      | scope => exact ih hl
      | sep c => exact ih hl.2
    | sep c =>
      rcases hc t c ht with rfl | h
      · exact ⟨hl.1, ih hl.2⟩
      · cases t with
        | word w => rw [(hw _ w).2 rfl] at ht; cases ht
        | num b s => exact ⟨h, ih hl⟩
        | scope => exact ⟨h, ih hl⟩
        | sep c => exact ⟨h, ih hl.2⟩

theorem calm_drop (fs : List Char) {l : List VTok} (hl : Calm l) : Calm (l.map (VTok.drop fs)) :=
  calm_map (fun t w => ⟨drop_word fs t w, fun h => by rw [h]; rfl⟩) (fun t c h => .inl (drop_sep fs t c h)) hl

theorem calm_dot {l : List VTok} (hl : Calm l) : Calm (l.map VTok.dot) := by
  refine calm_map (fun t w => ?_) (fun t c h => ?_) hl
  · cases t <;> simp [VTok.dot]
  · cases t with
    | scope =>
      right
      have : '.' = c := VTok.sep.inj h
      rw [← this]
      decide
    | _ => exact .inl h

theorem apart_dot {l : List VTok} (h : Apart l) : Apart (l.map VTok.dot) := by
  refine ⟨fun w m e => ?_, fun b s m e => ?_⟩
  · obtain ⟨t, m', rfl, h1, _⟩ := map_cons_inv e
    cases t with
    | word w => exact h.1 w m' rfl
    | _ => cases h1
  · obtain ⟨t, m', rfl, h1, _⟩ := map_cons_inv e
    cases t with
    | num b s => exact h.2 b s m' rfl
    | _ => cases h1

theorem dot_not_scope {l m : List VTok} (e : l.map VTok.dot = .scope :: m) : False := by
  obtain ⟨t, m', rfl, h1, _⟩ := map_cons_inv e
  cases t <;> cases h1

theorem lexed_dot {u : Char → Bool} : ∀ {l : List VTok}, Lexed u l → Lexed u (l.map VTok.dot)
  | [], _ => trivial
  | .word w :: l, hl => ⟨hl.1, hl.2.1, apart_dot hl.2.2.1, lexed_dot hl.2.2.2⟩
  | .num b s :: l, hl => by
    refine ⟨hl.1, hl.2.1, apart_dot hl.2.2.1, fun m e => ?_, fun m e => dot_not_scope e, lexed_dot hl.2.2.2.2.2⟩
    obtain ⟨t, m', rfl, h1, _⟩ := map_cons_inv e
    cases t with
    | scope => exact hl.2.2.2.2.1 m' rfl
    | sep c => exact hl.2.2.2.1 m' (by rw [VTok.sep.inj h1])
    | _ => cases h1
  | .scope :: l, hl => ⟨rfl, fun e => absurd e (by decide), lexed_dot (l := l) hl⟩
  | .sep c :: l, hl => by
    refine ⟨hl.1, fun hc m => ⟨fun e => ?_, fun e => dot_not_scope e⟩, lexed_dot (l := l) hl.2.2⟩
    obtain ⟨t, m', rfl, h1, _⟩ := map_cons_inv e
    cases t with
    | scope => exact absurd (VTok.sep.inj h1) (by decide)
    | sep d => exact (hl.2.1 hc m').1 (by rw [VTok.sep.inj h1])
    | _ => cases h1

end Verif.Re
