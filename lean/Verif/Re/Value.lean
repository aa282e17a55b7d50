import Verif.Re.NumberScan

/-! The rules of the values on the pieces of a value. -/

namespace Verif.Re
open Verif.Py Spec Verif.Inst Verif.Inst.Spec
open Verif.Scope (isWordChar)

/-! ### Words -/

theorem cut_begins {u : Char → Bool} {t : Str} (ht : ¬ BeginsWithWord u t) : ∀ v m, cut u t ≠ .word v :: m := by
  intro v m e
  cases t with
  | nil => cases e
  | cons c t =>
    rw [begins_cons] at ht
    rw [cut, if_neg ht] at e
    cases e

theorem cut_append_begins {u : Char → Bool} {t : Str} (ht : ¬ BeginsWithWord u t) (x : Str) : cut u (x ++ t) = cut u x ++ cut u t := by
  induction x with
  | nil => rfl
  | cons c x ih =>
    rw [List.cons_append, cut, cut, ih]
    by_cases hc : isWordChar u c = true
    · rw [if_pos hc, if_pos hc]
      cases hx : cut u x with
      | nil =>
        have hb := cut_begins ht
        cases h : cut u t with
        | nil => rfl
        | cons p l =>
          cases p with
          | word v => exact absurd h (hb v l)
          | sep d => rfl
      | cons p l => cases p <;> rfl
    · rw [if_neg hc, if_neg hc]
      rfl

theorem mem_cut {u : Char → Bool} {s w : Str} (h : .word w ∈ cut u s) : ∀ c ∈ w, c ∈ s := by
  intro c hc
  rw [← (cut_spec u s).2]
  exact List.mem_flatMap.2 ⟨_, h, hc⟩

/-- A character of a number or of its suffix. -/
def AnyNum (c : Char) : Prop := NumCh c ∨ c ∈ "uUlLzZfFdD".toList

/-- The words are renamed, one by one. -/
theorem ren_vtext {u : Char → Bool} {f : Str → Str} (hf : ∀ w, (∀ c ∈ w, AnyNum c) → f w = w) : ∀ {l : List VTok}, Lexed u l →
    ren u f (vtext l) = l.flatMap (fun | .word w => f w | t => t.text)
  | [], _ => rfl
  | .word w :: l, hl => by
    have hb := cut_begins (apart_begins hl.2.2.1 hl.2.2.2)
    have e : cut u (vtext (.word w :: l)) = .word w :: cut u (vtext l) := cut_word hb _ rfl w hl.1.1 hl.1.2
    rw [ren, e, List.map_cons, text_cons, List.flatMap_cons, ← ren_vtext hf hl.2.2.2]
    rfl
  | .num b s :: l, hl => by
    have e : cut u (vtext (.num b s :: l)) = cut u (b ++ s) ++ cut u (vtext l) := cut_append_begins (apart_begins hl.2.2.1 hl.2.2.2.2.2) _
    have e2 : text ((cut u (b ++ s)).map (ap f)) = b ++ s := by
      refine Eq.trans ?_ (ren_id u (b ++ s))
      refine ren_congr fun w hw => hf w fun c hc => ?_
      rcases List.mem_append.1 (mem_cut hw c hc) with h | h
      · exact .inl (core_numCh ⟨[], b, .inl rfl, hl.1, rfl⟩ c h)
      · exact .inr (hl.2.1 c h)
    rw [ren, e, List.map_append, text_append, e2, List.flatMap_cons, ← ren_vtext hf hl.2.2.2.2.2]
    rfl
  | .scope :: l, hl => by
    have hc : isWordChar u ':' = false := rfl
    have e : cut u (vtext (.scope :: l)) = .sep ':' :: .sep ':' :: cut u (vtext l) := by
      show cut u (':' :: ':' :: vtext l) = _
      rw [cut, if_neg (by rw [hc]; simp), cut, if_neg (by rw [hc]; simp)]
    rw [ren, e, List.flatMap_cons, ← ren_vtext hf (l := l) hl]
    rfl
  | .sep c :: l, hl => by
    have e : cut u (vtext (.sep c :: l)) = .sep c :: cut u (vtext l) := by
      show cut u (c :: vtext l) = _
      rw [cut, if_neg (by rw [hl.1]; simp)]
    rw [ren, e, List.flatMap_cons, ← ren_vtext hf (l := l) hl.2.2]
    rfl

/-- A word is replaced by some pieces. -/
def putTok (h : Str) (tw : List VTok) : VTok → List VTok
  | .word w => if w = h then tw else [.word w]
  | t => [t]

/-- The pieces can take the place of a word. -/
structure Takes (u : Char → Bool) (tw : List VTok) : Prop where
  first : ∃ w m, tw = .word w :: m
  lexed : ∀ l, Apart l → Lexed u l → Lexed u (tw ++ l)
  calm : ∀ l, Calm l → Calm (tw ++ l)
  start : ∀ w m, tw = .word w :: m → w ≠ "nullopt".toList ∧ w ≠ "string".toList

/-- Which piece is first does not matter to what comes before, but for a word. -/
theorem putTok_head {h : Str} {tw : List VTok} (ht : ∃ w m, tw = .word w :: m) (l : List VTok) :
    (∀ c m, l.flatMap (putTok h tw) = .sep c :: m → ∃ m', l = .sep c :: m') ∧ (∀ m, l.flatMap (putTok h tw) = .scope :: m → ∃ m', l = .scope :: m') ∧
    (∀ w m, l.flatMap (putTok h tw) = .word w :: m → ∃ w' m', l = .word w' :: m' ∧ (w = w' ∨ ∃ m, tw = .word w :: m)) ∧
    ∀ b s m, l.flatMap (putTok h tw) = .num b s :: m → ∃ m', l = .num b s :: m' := by
  obtain ⟨w0, m0, rfl⟩ := ht
  cases l with
  | nil => exact ⟨fun _ _ e => (by cases e), fun _ e => (by cases e), fun _ _ e => (by cases e), fun _ _ _ e => (by cases e)⟩
  | cons t l =>
    rw [List.flatMap_cons]
    cases t with
    | word w =>
      rw [putTok]
      split
      · exact ⟨fun _ _ e => (by cases e), fun _ e => (by cases e), fun x m e => ⟨w, l, rfl, .inr ⟨m0, by rw [(VTok.word.inj (List.cons.inj e).1)]⟩⟩,
          fun _ _ _ e => (by cases e)⟩
      · exact ⟨fun _ _ e => (by cases e), fun _ e => (by cases e), fun x m e => ⟨w, l, rfl, .inl (VTok.word.inj (List.cons.inj e).1).symm⟩,
          fun _ _ _ e => (by cases e)⟩
    | num b s => exact ⟨fun _ _ e => (by cases e), fun _ e => (by cases e), fun _ _ e => (by cases e), fun _ _ _ e => ⟨l, (by cases e; rfl)⟩⟩
    | scope => exact ⟨fun _ _ e => (by cases e), fun _ e => ⟨l, rfl⟩, fun _ _ e => (by cases e), fun _ _ _ e => (by cases e)⟩
    | sep c => exact ⟨fun _ _ e => ⟨l, (by cases e; rfl)⟩, fun _ e => (by cases e), fun _ _ e => (by cases e), fun _ _ _ e => (by cases e)⟩

theorem apart_putTok {h : Str} {tw : List VTok} (ht : ∃ w m, tw = .word w :: m) {l : List VTok} (hl : Apart l) : Apart (l.flatMap (putTok h tw)) := by
  obtain ⟨_, _, h3, h4⟩ := putTok_head (h := h) ht l
  refine ⟨fun w m e => ?_, fun b s m e => ?_⟩
  · obtain ⟨w', m', e', _⟩ := h3 w m e
    exact hl.1 _ _ e'
  · obtain ⟨m', e'⟩ := h4 b s m e
    exact hl.2 _ _ _ e'

theorem lexed_putTok {u : Char → Bool} {h : Str} {tw : List VTok} (ht : Takes u tw) : ∀ {l : List VTok}, Lexed u l → Lexed u (l.flatMap (putTok h tw))
  | [], _ => trivial
  | .word w :: l, hl => by
    rw [List.flatMap_cons, putTok]
    have ha := apart_putTok (h := h) ht.first hl.2.2.1
    have ih := lexed_putTok (h := h) ht hl.2.2.2
    split
    · exact ht.lexed _ ha ih
    · exact ⟨hl.1, hl.2.1, ha, ih⟩
  | .num b s :: l, hl => by
    obtain ⟨h1, h2, _, _⟩ := putTok_head (h := h) ht.first l
    refine ⟨hl.1, hl.2.1, apart_putTok ht.first hl.2.2.1, fun m e => ?_, fun m e => ?_, lexed_putTok ht hl.2.2.2.2.2⟩
    · obtain ⟨m', e'⟩ := h1 _ _ e
      exact hl.2.2.2.1 _ e'
    · obtain ⟨m', e'⟩ := h2 _ e
      exact hl.2.2.2.2.1 _ e'
  | .scope :: l, hl => lexed_putTok (l := l) ht hl
  | .sep c :: l, hl => by
    obtain ⟨h1, h2, _, _⟩ := putTok_head (h := h) ht.first l
    refine ⟨hl.1, fun hc m => ⟨fun e => ?_, fun e => ?_⟩, lexed_putTok ht hl.2.2⟩
    · obtain ⟨m', e'⟩ := h1 _ _ e
      exact (hl.2.1 hc m').1 e'
    · obtain ⟨m', e'⟩ := h2 _ e
      exact (hl.2.1 hc m').2 e'

theorem calm_putTok {u : Char → Bool} {h : Str} {tw : List VTok} (ht : Takes u tw) (hh : h ≠ "std".toList) : ∀ {l : List VTok}, Lexed u l → Calm l →
    Calm (l.flatMap (putTok h tw))
  | [], _, _ => trivial
  | .word w :: l, hx, hl => by
    have ih := calm_putTok (h := h) ht hh hx.2.2.2 hl.2.2
    rw [List.flatMap_cons, putTok]
    split
    · exact ht.calm _ ih
    · refine ⟨hl.1, ?_, ih⟩
      intro hw t v m e
      match l, hx, hl, e with
      | [], _, _, e => cases e
      | .word x :: l, hx, _, _ => exact absurd rfl (hx.2.2.1.1 x l)
      | .num b s :: l, hx, _, _ => exact absurd rfl (hx.2.2.1.2 b s l)
      | .scope :: l, hx, hl, e =>
        have e2 : l.flatMap (putTok h tw) = .word v :: m := (List.cons.inj e).2
        obtain ⟨w', m', e3, h4⟩ := (putTok_head (h := h) ht.first l).2.2.1 _ _ e2
        rcases h4 with rfl | ⟨m2, h4⟩
        · exact hl.2.1 hw .scope v m' (by rw [e3])
        · exact ht.start v m2 h4
      | .sep c :: l, hx, hl, e =>
        have e2 : l.flatMap (putTok h tw) = .word v :: m := (List.cons.inj e).2
        obtain ⟨w', m', e3, h4⟩ := (putTok_head (h := h) ht.first l).2.2.1 _ _ e2
        rcases h4 with rfl | ⟨m2, h4⟩
        · exact hl.2.1 hw (.sep c) v m' (by rw [e3])
        · exact ht.start v m2 h4
  | .num b s :: l, hx, hl => calm_putTok (l := l) ht hh hx.2.2.2.2.2 hl
  | .scope :: l, hx, hl => calm_putTok (l := l) ht hh hx hl
  | .sep c :: l, hx, hl => ⟨hl.1, calm_putTok (l := l) ht hh hx.2.2 hl.2⟩

theorem vtext_flatMap (f : VTok → List VTok) (l : List VTok) : vtext (l.flatMap f) = l.flatMap (fun t => vtext (f t)) := List.flatMap_assoc

/-- A rule that renames a word. -/
theorem sub_word {u : Char → Bool} {h : Str} {tw : List VTok} (hh : Ident u h) (hn : ∃ c ∈ h, ¬ AnyNum c) {l : List VTok} (hl : Lexed u l) :
    sub u (wordRe h) (litTmpl (vtext tw)) (vtext l) = vtext (l.flatMap (putTok h tw)) := by
  rw [sub_renames (renames_wordRe hh _), ren_vtext _ hl, vtext_flatMap]
  · refine List.flatMap_congr fun t _ => ?_
    cases t with
    | word w =>
      show put h (vtext tw) w = vtext (if w = h then tw else [.word w])
      unfold put
      split
      · rfl
      · exact (List.append_nil w).symm
    | num b s => exact (List.append_nil _).symm
    | scope => rfl
    | sep c => rfl
  · intro w hw
    unfold put
    rw [if_neg]
    rintro rfl
    obtain ⟨c, hc, hc'⟩ := hn
    exact hc' (hw c hc)

end Verif.Re
