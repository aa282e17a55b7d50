import Verif.Re.Phrase
import Verif.Re.SpecType

/-! The rules of the types on the pieces of a type without template: names of several words, and words. -/

namespace Verif.Re
open Verif.Py Spec Verif.Inst Verif.Inst.Spec
open Verif.Scope (isWordChar)

/-- The words of a piece. -/
def Spec.TTok.pieces : TTok → List Piece
  | .word w => [.word w]
  | .known p => cut (fun _ => false) p
  | .sep c => [.sep c]

def tpieces (l : List TTok) : List Piece := l.flatMap TTok.pieces

theorem tpieces_cons (t : TTok) (l : List TTok) : tpieces (t :: l) = t.pieces ++ tpieces l := List.flatMap_cons
theorem ttext_cons (t : TTok) (l : List TTok) : ttext (t :: l) = t.text ++ ttext l := List.flatMap_cons

theorem text_pieces (t : TTok) : text t.pieces = t.text := by
  cases t with
  | word w => exact List.append_nil w
  | known p => exact (cut_spec _ p).2
  | sep c => rfl

theorem text_tpieces (l : List TTok) : text (tpieces l) = ttext l := by
  induction l with
  | nil => rfl
  | cons t l ih => rw [tpieces_cons, text_append, ih, ttext_cons, text_pieces]

theorem cut_ascii {u : Char → Bool} : ∀ {l : List Piece}, Cut (fun _ => false) l → (∀ c ∈ text l, c.toNat < 128) → Cut u l
  | [], _, _ => trivial
  | .sep c :: l, h, ha => by
    have hc : c.toNat < 128 := ha c (by simp [text_cons, Piece.text])
    refine ⟨?_, cut_ascii h.2 (fun d hd => ha d (by simp [text_cons, hd]))⟩
    have := h.1
    unfold isWordChar at this ⊢
    rw [if_pos hc] at this ⊢
    exact this
  | .word w :: l, h, ha => by
    refine ⟨h.1, fun c hc => ?_, h.2.2.1, cut_ascii h.2.2.2 (fun d hd => ha d (by simp [text_cons, hd]))⟩
    have h1 : c.toNat < 128 := ha c (by simp [text_cons, Piece.text, hc])
    have := h.2.1 c hc
    unfold isWordChar at this ⊢
    rw [if_pos h1] at this ⊢
    exact this

theorem known_ascii : ∀ p ∈ knownNames, ∀ c ∈ p, c.toNat < 128 := by decide +kernel

theorem cut_known {u : Char → Bool} {p : Str} (hp : p ∈ knownNames) : Cut u (cut (fun _ => false) p) :=
  cut_ascii (cut_spec _ p).1 (by rw [(cut_spec _ p).2]; exact known_ascii p hp)

theorem cut_eq_known {u : Char → Bool} {p : Str} (hp : p ∈ knownNames) : cut u p = cut (fun _ => false) p := by
  have := cut_text (cut_known (u := u) hp)
  rw [(cut_spec _ p).2] at this
  exact this

theorem cut_append {u : Char → Bool} : ∀ {x l : List Piece}, Cut u x → Cut u l → (∀ v m, l ≠ .word v :: m) → Cut u (x ++ l)
  | [], _, _, h, _ => h
  | .sep _ :: x, _, h, hl, ha => ⟨h.1, cut_append h.2 hl ha⟩
  | .word w :: x, l, h, hl, ha => by
    refine ⟨h.1, h.2.1, ?_, cut_append h.2.2.2 hl ha⟩
    intro v m e
    cases x with
    | nil => exact ha v m e
    | cons t x => exact h.2.2.1 v x (by rw [(List.cons.inj e).1])

theorem pieces_not_nil (t : TTok) (hp : ∀ p, t = .known p → p ∈ knownNames) : t.pieces ≠ [] := by
  cases t with
  | word w => exact List.cons_ne_nil _ _
  | known p =>
    have : ∀ p ∈ knownNames, cut (fun _ => false) p ≠ [] := by decide +kernel
    exact this p (hp p rfl)
  | sep c => exact List.cons_ne_nil _ _

theorem apart_pieces {l : List TTok} (h : TApart l) : ∀ v m, tpieces l ≠ .word v :: m := by
  intro v m e
  cases l with
  | nil => cases e
  | cons t l =>
    cases t with
    | word w => exact h.1 w l rfl
    | known p => exact h.2 p l rfl
    | sep c => cases (List.cons.inj e).1

theorem cut_tpieces {u : Char → Bool} : ∀ {l : List TTok}, TLexed u l → Cut u (tpieces l)
  | [], _ => trivial
  | .word _ :: _, h => ⟨h.1.1, h.1.2, apart_pieces h.2.2.2.1, cut_tpieces h.2.2.2.2.2⟩
  | .known _ :: _, h => cut_append (cut_known h.1) (cut_tpieces h.2.2.2.2.2) (apart_pieces h.2.1)
  | .sep _ :: _, h => ⟨h.1, cut_tpieces h.2.2.2.2.2.2⟩

theorem cut_ttext {u : Char → Bool} {l : List TTok} (h : TLexed u l) : cut u (ttext l) = tpieces l := by
  have := cut_text (cut_tpieces h)
  rw [text_tpieces] at this
  exact this

/-! ### One blank at a time -/

theorem single_cons {c : Char} {s : Str} (h : Single s) (hc : isSpace c = true → ∀ d t, s = d :: t → isSpace d = false) : Single (c :: s) := by
  rintro x a b y e ha
  cases x with
  | nil =>
    obtain ⟨rfl, rfl⟩ := List.cons.inj e
    exact hc ha b y rfl
  | cons z x => exact h x a b y (List.cons.inj e).2 ha

/-- The same, to be computed. -/
def singleB : Str → Bool
  | [] => true
  | [_] => true
  | c :: d :: s => !(isSpace c && isSpace d) && singleB (d :: s)

theorem single_nil : Single [] := by
  rintro x c d y e
  simp at e

theorem single_of_B : ∀ {s : Str}, singleB s = true → Single s
  | [], _ => single_nil
  | [c], _ => single_cons single_nil (fun _ _ _ e => by cases e)
  | c :: d :: s, h => by
    rw [singleB, Bool.and_eq_true] at h
    refine single_cons (single_of_B h.2) ?_
    rintro hc d' t e
    obtain ⟨rfl, rfl⟩ := List.cons.inj e
    have := h.1
    rw [hc] at this
    simpa using this

/-- A text and another one, of which at most one has white space where they meet. -/
theorem single_app {s : Str} (hs : Single s) : ∀ {x : Str}, Single x → (∀ c, x.getLast? = some c → isSpace c = false) → Single (x ++ s)
  | [], _, _ => hs
  | [c], _, h => single_cons hs (fun hc => by rw [h c rfl] at hc; cases hc)
  | c :: d :: x, hx, h => by
    refine single_cons (single_app hs (single_append (x := [c]) hx) (fun e he => h e (by rw [List.getLast?_cons_cons]; exact he))) ?_
    rintro hc d' t e
    have : d = d' := (List.cons.inj e).1
    rw [← this]
    exact hx [] c d x rfl hc

theorem single_word {u : Char → Bool} (hu : SpaceApart u) {w : Str} (hw : ∀ c ∈ w, isWordChar u c = true) : Single w := by
  rintro x c d y rfl hc
  have := hw c (by simp)
  rw [hu c hc] at this
  cases this

theorem single_ttext {u : Char → Bool} (hu : SpaceApart u) : ∀ {l : List TTok}, TLexed u l → Single (ttext l)
  | [], _ => single_nil
  | .word w :: l, h => by
    rw [ttext_cons]
    refine single_app (single_ttext hu h.2.2.2.2.2) (single_word hu h.1.2) ?_
    intro c hc
    have := h.1.2 c (List.mem_of_getLast? hc)
    cases hs : isSpace c with
    | false => rfl
    | true => rw [hu c hs] at this; cases this
  | .known p :: l, h => by
    have h1 : ∀ p ∈ knownNames, singleB p = true ∧ p.getLast?.all (fun c => !isSpace c) = true := by decide +kernel
    obtain ⟨h2, h3⟩ := h1 p h.1
    rw [ttext_cons]
    refine single_app (single_ttext hu h.2.2.2.2.2) (single_of_B h2) ?_
    intro c hc
    rw [show p.getLast? = some c from hc] at h3
    simpa using h3
  | .sep c :: l, h => by
    rw [ttext_cons]
    refine single_cons (single_ttext hu h.2.2.2.2.2.2) ?_
    intro hc d t e
    have hc' := h.2.1 hc
    cases hd : isSpace d with
    | false => rfl
    | true =>
      exfalso
      have hl := h.2.2.2.2.2.2
      cases l with
      | nil => cases e
      | cons t' l =>
        cases t' with
        | sep d' =>
          have e2 : d' = d := (List.cons.inj e).1
          have h4 := hl.2.1 (by rw [e2]; exact hd)
          exact h.2.2.2.2.1 hc' l (by rw [h4])
        | word w =>
          rw [ttext_cons] at e
          obtain ⟨x, y, rfl⟩ : ∃ x y, w = x :: y := List.exists_cons_of_ne_nil hl.1.1
          have e2 : x = d := (List.cons.inj e).1
          have h4 := hl.1.2 x (by simp)
          rw [e2, hu d hd] at h4
          cases h4
        | known p =>
          have h1 : ∀ p ∈ knownNames, p.head?.any (fun c => !isSpace c) = true := by decide +kernel
          have h2 := h1 p hl.1
          rw [ttext_cons] at e
          cases p with
          | nil => cases h2
          | cons x y =>
            have e2 : x = d := (List.cons.inj e).1
            rw [e2] at h2
            simp [hd] at h2

/-! ### Tokens that are replaced -/

/-- A piece becomes a word. -/
def putT (key : TTok) (v : Str) (t : TTok) : TTok := if t = key then .word v else t

/-- The word by which a piece can be replaced. -/
structure TWord (u : Char → Bool) (v : Str) : Prop where
  ident : Ident u v
  free : v ∉ reserved
  notChar : ¬ CharWord v
  notVoid : v ≠ "void".toList
  notDouble : v ≠ "double".toList

theorem putT_sep {key : TTok} {v : Str} {t : TTok} {c : Char} (h : putT key v t = .sep c) : t = .sep c := by
  unfold putT at h
  split at h
  · cases h
  · exact h

theorem putT_known {key : TTok} {v : Str} {t : TTok} {q : Str} (h : putT key v t = .known q) : t = .known q := by
  unfold putT at h
  split at h
  · cases h
  · exact h

theorem putT_word {key : TTok} {v : Str} {t : TTok} {w : Str} (h : putT key v t = .word w) : t = .word w ∨ (t = key ∧ w = v) := by
  unfold putT at h
  split at h
  · next h' => exact .inr ⟨h', (TTok.word.inj h).symm⟩
  · exact .inl h

theorem map_cons_inv' {f : TTok → TTok} {l m : List TTok} {t : TTok} (h : l.map f = t :: m) : ∃ t' m', l = t' :: m' ∧ f t' = t ∧ m'.map f = m := by
  cases l with
  | nil => cases h
  | cons a l => obtain ⟨h1, h2⟩ := List.cons.inj h; exact ⟨a, l, rfl, h1, h2⟩

/-- The key is a word or a name of several words. -/
def TTok.IsKey (t : TTok) : Prop := ∀ c, t ≠ .sep c

theorem apart_put {key : TTok} (hk : TTok.IsKey key) {v : Str} {l : List TTok} (h : TApart l) : TApart (l.map (putT key v)) := by
  have key1 : ∀ t m, l = t :: m → ∃ c, t = .sep c := by
    intro t m e
    cases t with
    | word w => exact absurd e (h.1 w m)
    | known p => exact absurd e (h.2 p m)
    | sep c => exact ⟨c, rfl⟩
  refine ⟨fun w m e => ?_, fun p m e => ?_⟩
  · obtain ⟨t, m', e1, e2, _⟩ := map_cons_inv' e
    obtain ⟨c, rfl⟩ := key1 t m' e1
    rw [putT, if_neg (fun h => hk c h.symm)] at e2
    cases e2
  · obtain ⟨t, m', e1, e2, _⟩ := map_cons_inv' e
    obtain ⟨c, rfl⟩ := key1 t m' e1
    rw [putT, if_neg (fun h => hk c h.symm)] at e2
    cases e2

theorem lexed_put {u : Char → Bool} {key : TTok} (hk : TTok.IsKey key) {v : Str} (hv : TWord u v) : ∀ {l : List TTok}, TLexed u l → TLexed u (l.map (putT key v))
  | [], _ => trivial
  | .word w :: l, h => by
    have ih := lexed_put hk hv h.2.2.2.2.2
    have ha := apart_put hk (v := v) h.2.2.2.1
    rw [List.map_cons]
    by_cases e : TTok.word w = key
    · rw [putT, if_pos e]
      exact ⟨hv.ident, hv.free, hv.notChar, ha, fun h => absurd h hv.notVoid, ih⟩
    · rw [putT, if_neg e]
      refine ⟨h.1, h.2.1, h.2.2.1, ha, fun hw m => ⟨fun e => ?_, fun e => ?_⟩, ih⟩
      · obtain ⟨t, m', e1, e2, _⟩ := map_cons_inv' e
        exact (h.2.2.2.2.1 hw m').1 (by rw [e1, putT_sep e2])
      · obtain ⟨t, m', e1, e2, e3⟩ := map_cons_inv' e
        obtain ⟨t4, m4, e4, e5, _⟩ := map_cons_inv' e3
        exact (h.2.2.2.2.1 hw m4).2 (by rw [e1, putT_sep e2, e4, putT_sep e5])
  | .known p :: l, h => by
    have ih := lexed_put hk hv h.2.2.2.2.2
    have ha := apart_put hk (v := v) h.2.1
    rw [List.map_cons]
    by_cases e : TTok.known p = key
    · rw [putT, if_pos e]
      exact ⟨hv.ident, hv.free, hv.notChar, ha, fun h => absurd h hv.notVoid, ih⟩
    · rw [putT, if_neg e]
      refine ⟨h.1, ha, fun hp m e => ?_, fun m e => ?_, fun q m e => ?_, ih⟩
      · obtain ⟨t, m', e1, e2, e3⟩ := map_cons_inv' e
        obtain ⟨t4, m4, e4, e5, _⟩ := map_cons_inv' e3
        exact h.2.2.1 hp m4 (by rw [e1, putT_sep e2, e4, putT_sep e5])
      · obtain ⟨t, m', e1, e2, e3⟩ := map_cons_inv' e
        obtain ⟨t4, m4, e4, e5, _⟩ := map_cons_inv' e3
        rcases putT_word e5 with h6 | ⟨_, h6⟩
        · exact h.2.2.2.1 m4 (by rw [e1, putT_sep e2, e4, h6])
        · exact hv.notDouble h6.symm
      · obtain ⟨t, m', e1, e2, e3⟩ := map_cons_inv' e
        obtain ⟨t4, m4, e4, e5, _⟩ := map_cons_inv' e3
        exact h.2.2.2.2.1 q m4 (by rw [e1, putT_sep e2, e4, putT_known e5])
  | .sep c :: l, h => by
    have ih := lexed_put hk hv h.2.2.2.2.2.2
    rw [List.map_cons, putT, if_neg (fun e => hk c e.symm)]
    refine ⟨h.1, h.2.1, h.2.2.1, h.2.2.2.1, fun hc m e => ?_, fun hc => apart_put hk (h.2.2.2.2.2.1 hc), ih⟩
    obtain ⟨t, m', e1, e2, _⟩ := map_cons_inv' e
    exact h.2.2.2.2.1 hc m' (by rw [e1, putT_sep e2])

/-! ### Names of several words -/

/-- The name `lp` does not begin at the beginning of `x`, whatever follows, but for a blank and `long` or `double`. -/
def clash : List Piece → List Piece → Bool
  | [], _ => false
  | .sep ' ' :: .word w :: _, [] => decide (w = "long".toList ∨ w = "double".toList)
  | _ :: _, [] => false
  | a :: l, b :: x => if a = b then clash l x else true

/-- The name does not begin inside. -/
def inert (lp : List Piece) : List Piece → Bool
  | [] => true
  | t :: x => clash lp (t :: x) && inert lp x

/-- No `long` and no `double` comes after a blank. -/
def TailOk (t : List Piece) : Prop := ∀ w m, t = .sep ' ' :: .word w :: m → w ≠ "long".toList ∧ w ≠ "double".toList

theorem clash_prefix : ∀ {lp x t : List Piece}, clash lp x = true → TailOk t → ¬ lp <+: x ++ t
  | [], _, _, h, _, _ => by cases h
  | a :: l, b :: x, t, h, ht, ⟨z, e⟩ => by
    obtain ⟨e1, e2⟩ := List.cons.inj e
    rw [clash, if_pos e1] at h
    exact clash_prefix h ht ⟨z, e2⟩
  | a :: l, [], t, h, ht, ⟨z, e⟩ => by
    rw [clash.eq_def] at h
    split at h
    · cases h
    · next w m heq _ =>
      rw [heq] at e
      have := ht w (m ++ z) e.symm
      rcases of_decide_eq_true h with h | h
      · exact this.1 h
      · exact this.2 h
    · cases h
    · next heq => cases heq

theorem replP_inert {lp : List Piece} (v : Str) : ∀ {x t : List Piece}, inert lp x = true → TailOk t → replP lp v 0 (x ++ t) = x ++ replP lp v 0 t
  | [], _, _, _ => rfl
  | a :: x, t, h, ht => by
    rw [inert, Bool.and_eq_true] at h
    have hn : ¬ lp <+: a :: (x ++ t) := clash_prefix h.1 ht
    rw [List.cons_append, replP, if_neg hn, replP_inert v h.2 ht]
    rfl

theorem known_first : ∀ p ∈ knownNames, ∃ h ∈ ["unsigned".toList, "long".toList, "std".toList], ∃ m, cut (fun _ => false) p = .word h :: m := by
  have : ∀ p ∈ knownNames, ∃ h ∈ ["unsigned".toList, "long".toList, "std".toList],
      (cut (fun _ => false) p).head? = some (.word h) := by decide +kernel
  intro p hp
  obtain ⟨h, h1, h2⟩ := this p hp
  refine ⟨h, h1, (cut (fun _ => false) p).tail, ?_⟩
  exact (List.cons_head?_tail h2).symm

theorem first_reserved : ∀ h ∈ ["unsigned".toList, "long".toList, "std".toList], h ∈ reserved := by decide +kernel

theorem tail_ok {u : Char → Bool} {p : Str} {l : List TTok} (h : TLexed u (.known p :: l)) : TailOk (tpieces l) := by
  intro w m e
  match l, h, e with
  | [], _, e => cases e
  | .word x :: l, h, _ => exact absurd rfl (h.2.1.1 x l)
  | .known q :: l, h, _ => exact absurd rfl (h.2.1.2 q l)
  | .sep c :: l, h, e =>
    rw [tpieces_cons] at e
    have hc : c = ' ' := Piece.sep.inj (List.cons.inj e).1
    subst hc
    have e2 : tpieces l = .word w :: m := (List.cons.inj e).2
    match l, h, e2 with
    | [], _, e2 => cases e2
    | .sep d :: l, _, e2 => cases (List.cons.inj e2).1
    | .known q :: l, h, _ => exact absurd rfl (h.2.2.2.2.1 q l)
    | .word x :: l, h, e2 =>
      have : x = w := Piece.word.inj (List.cons.inj e2).1
      subst this
      have h1 := h.2.2.2.2.2.2.2.2.2.2.2.2.1
      have h2 := h.2.2.2.2.2.2.2.2.2.2.2
      refine ⟨?_, fun e => h.2.2.2.1 l (by rw [e])⟩
      rintro rfl
      exact h2.2.1 (first_reserved _ (by simp))

theorem replP_tokens {u : Char → Bool} {p : Str} (v : Str) (hp : p ∈ knownNames) : ∀ {l : List TTok}, TLexed u l →
    (∀ q, .known q ∈ l → q = p ∨ inert (cut (fun _ => false) p) (cut (fun _ => false) q) = true) →
    replP (cut (fun _ => false) p) v 0 (tpieces l) = tpieces (l.map (putT (.known p) v))
  | [], _, _ => rfl
  | .word w :: l, h, hk => by
    obtain ⟨x, hx, m, e⟩ := known_first p hp
    have hn : ¬ cut (fun _ => false) p <+: .word w :: tpieces l := by
      rintro ⟨t, e'⟩
      rw [e] at e'
      have : x = w := Piece.word.inj (List.cons.inj e').1
      exact h.2.1 (by rw [← this]; exact first_reserved x hx)
    have ih := replP_tokens v hp h.2.2.2.2.2 (fun q hq => hk q (by simp [hq]))
    rw [List.map_cons, tpieces_cons, tpieces_cons, putT, if_neg (fun e => by cases e), ← ih]
    show replP _ v 0 (.word w :: tpieces l) = .word w :: _
    rw [replP, if_neg hn]
    rfl
  | .sep c :: l, h, hk => by
    obtain ⟨x, hx, m, e⟩ := known_first p hp
    have hn : ¬ cut (fun _ => false) p <+: .sep c :: tpieces l := by
      rintro ⟨t, e'⟩
      rw [e] at e'
      cases (List.cons.inj e').1
    have ih := replP_tokens v hp h.2.2.2.2.2.2 (fun q hq => hk q (by simp [hq]))
    rw [List.map_cons, tpieces_cons, tpieces_cons, putT, if_neg (fun e => by cases e), ← ih]
    show replP _ v 0 (.sep c :: tpieces l) = .sep c :: _
    rw [replP, if_neg hn]
    rfl
  | .known q :: l, h, hk => by
    have ih := replP_tokens v hp h.2.2.2.2.2 (fun q hq => hk q (by simp [hq]))
    have ht := tail_ok h
    rw [List.map_cons, tpieces_cons, tpieces_cons, putT]
    by_cases hqp : q = p
    · subst hqp
      rw [if_pos rfl, ← ih]
      obtain ⟨x, hx, m, e⟩ := known_first q hp
      show replP _ v 0 (cut (fun _ => false) q ++ tpieces l) = .word v :: _
      have : replP (cut (fun _ => false) q) v 0 (cut (fun _ => false) q ++ tpieces l) = .word v :: replP (cut (fun _ => false) q) v 0 (tpieces l) := by
        have hpre : cut (fun _ => false) q <+: cut (fun _ => false) q ++ tpieces l := List.prefix_append _ _
        rw [e] at hpre ⊢
        rw [List.cons_append] at hpre ⊢
        rw [replP, if_pos hpre, List.length_cons, Nat.add_sub_cancel, replP_skip]
      exact this
    · rw [if_neg (fun e => hqp (TTok.known.inj e)), ← ih]
      rcases hk q (by simp) with h1 | h1
      · exact absurd h1 hqp
      · exact replP_inert v h1 ht

/-- A rule for a name of several words. -/
theorem sub_known {u : Char → Bool} (hu : SpaceApart u) {r : Re} {tmpl : List Tok} {p v : Str} (hr : Phrase u r tmpl p v) (hp : p ∈ knownNames)
    {l : List TTok} (hl : TLexed u l)
    (hk : ∀ q, .known q ∈ l → q = p ∨ inert (cut (fun _ => false) p) (cut (fun _ => false) q) = true) :
    sub u r tmpl (ttext l) = ttext (l.map (putT (.known p) v)) := by
  have hlast : ∀ p ∈ knownNames, (match (cut (fun _ => false) p).getLast? with | some (.word _) => true | _ => false) = true := by decide +kernel
  have h1 : ∃ lq w, cut u p = lq ++ [.word w] := by
    have h2 := hlast p hp
    rw [cut_eq_known hp]
    cases h3 : (cut (fun _ => false) p).getLast? with
    | none => rw [h3] at h2; cases h2
    | some t =>
      rw [h3] at h2
      cases t with
      | sep c => cases h2
      | word w => exact ⟨(cut (fun _ => false) p).dropLast, w, (List.dropLast_append_getLast? _ h3).symm⟩
  obtain ⟨lq, w, h1⟩ := h1
  rw [← text_tpieces, sub_phrase hr h1 (cut_tpieces hl) (by rw [text_tpieces]; exact single_ttext hu hl), cut_eq_known hp, replP_tokens v hp hl hk,
    text_tpieces]

/-! ### Words -/

theorem sub_tword {u : Char → Bool} {h v : Str} (hh : Ident u h) {l : List TTok} (hl : TLexed u l)
    (hk : ∀ q, .known q ∈ l → .word h ∉ cut (fun _ => false) q) :
    sub u (wordRe h) (litTmpl v) (ttext l) = ttext (l.map (putT (.word h) v)) := by
  rw [sub_renames (renames_wordRe hh _), ren, cut_ttext hl, ← text_tpieces]
  congr 1
  have : ∀ m : List TTok, (∀ t ∈ m, t ∈ l) → (tpieces m).map (ap (put h v)) = tpieces (m.map (putT (.word h) v)) := by
    intro m
    induction m with
    | nil => intro _; rfl
    | cons t m ih =>
      intro hm
      rw [tpieces_cons, List.map_append, ih (fun x hx => hm x (by simp [hx])), List.map_cons, tpieces_cons]
      congr 1
      cases t with
      | word w =>
        show [Piece.word (put h v w)] = _
        unfold put putT
        by_cases e : w = h
        · rw [if_pos e, if_pos (by rw [e])]; rfl
        · rw [if_neg e, if_neg (fun e' => e (TTok.word.inj e'))]; rfl
      | sep c => rw [putT, if_neg (fun e => by cases e)]; rfl
      | known q =>
        rw [putT, if_neg (fun e => by cases e)]
        have hq := hk q (hm _ (by simp))
        show (cut (fun _ => false) q).map (ap (put h v)) = cut (fun _ => false) q
        refine (List.map_congr_left (g := id) ?_).trans (List.map_id _)
        intro x hx
        cases x with
        | sep c => rfl
        | word w =>
          show Piece.word (put h v w) = .word w
          rw [put, if_neg]
          rintro rfl
          exact hq hx
  exact this l (fun _ h => h)

end Verif.Re
