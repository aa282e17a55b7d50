import Verif.Re.TypeFlat

/-! The rules of the types that remove, and the result on a type without template. -/

namespace Verif.Re
open Verif.Py Spec Verif.Inst Verif.Inst.Spec
open Verif.Scope (isWordChar)

/-- No word comes first. -/
def NotW (L : List Piece) : Prop := ∀ v m, L ≠ .word v :: m

/-- No word just after `&` or `*`. -/
def AmpOk : List Piece → Prop
  | [] => True
  | .sep c :: L => (c = '&' ∨ c = '*' → NotW L) ∧ AmpOk L
  | .word _ :: L => AmpOk L

structure PInv (u : Char → Bool) (L : List Piece) : Prop where
  cut : Cut u L
  amp : AmpOk L

/-! ### A word that is removed -/

def notWord (h : Str) (p : Piece) : Bool := decide (p ≠ .word h)
def notSep (c : Char) (p : Piece) : Bool := decide (p ≠ .sep c)

theorem notWord_sep (h : Str) (c : Char) : notWord h (.sep c) = true := decide_eq_true (fun e => by cases e)
theorem notSep_word (c : Char) (w : Str) : notSep c (.word w) = true := decide_eq_true (fun e => by cases e)

theorem notSep_ne {c d : Char} (h : ¬ c = d) : notSep d (.sep c) = true := decide_eq_true (fun e => h (Piece.sep.inj e))
theorem notWord_ne {w h : Str} (hw : ¬ w = h) : notWord h (.word w) = true := decide_eq_true (fun e => hw (Piece.word.inj e))

theorem notW_word {h : Str} {L : List Piece} (hL : NotW L) : NotW (L.filter (notWord h)) := by
  cases L with
  | nil => exact hL
  | cons p L =>
    cases p with
    | word v => exact absurd rfl (hL v L)
    | sep c =>
      rw [List.filter_cons_of_pos (notWord_sep h c)]
      intro v m e
      cases e

theorem cut_filter_word {u : Char → Bool} {h : Str} : ∀ {L : List Piece}, Cut u L → Cut u (L.filter (notWord h))
  | [], _ => trivial
  | .sep c :: L, hL => by
    rw [List.filter_cons_of_pos (notWord_sep h c)]
    exact ⟨hL.1, cut_filter_word hL.2⟩
  | .word w :: L, hL => by
    have ih := cut_filter_word (h := h) hL.2.2.2
    by_cases hw : notWord h (.word w) = true
    · rw [List.filter_cons_of_pos hw]
      exact ⟨hL.1, hL.2.1, notW_word hL.2.2.1, ih⟩
    · rw [List.filter_cons_of_neg hw]
      exact ih

theorem amp_filter_word {h : Str} : ∀ {L : List Piece}, AmpOk L → AmpOk (L.filter (notWord h))
  | [], _ => trivial
  | .sep c :: L, hL => by
    rw [List.filter_cons_of_pos (notWord_sep h c)]
    exact ⟨fun hc => notW_word (hL.1 hc), amp_filter_word hL.2⟩
  | .word w :: L, hL => by
    have ih := amp_filter_word (h := h) (L := L) hL
    by_cases hw : notWord h (.word w) = true
    · rw [List.filter_cons_of_pos hw]; exact ih
    · rw [List.filter_cons_of_neg hw]; exact ih

theorem text_filter_word (h : Str) : ∀ L : List Piece, text (L.map (ap (put h []))) = text (L.filter (notWord h))
  | [] => rfl
  | .sep c :: L => by
    rw [List.filter_cons_of_pos (notWord_sep h c), List.map_cons, text_cons, text_cons, text_filter_word h L]
    rfl
  | .word w :: L => by
    rw [List.map_cons, text_cons, text_filter_word h L]
    by_cases hw : w = h
    · rw [List.filter_cons_of_neg (by rw [hw]; simp [notWord])]
      show put h [] w ++ _ = _
      rw [put, if_pos hw]
      rfl
    · rw [List.filter_cons_of_pos (notWord_ne hw), text_cons]
      show put h [] w ++ _ = _
      rw [put, if_neg hw]
      rfl

theorem sub_remove_word {u : Char → Bool} {h : Str} (hh : Ident u h) {L : List Piece} (hL : PInv u L) :
    sub u (wordRe h) (litTmpl []) (text L) = text (L.filter (notWord h)) ∧ PInv u (L.filter (notWord h)) := by
  refine ⟨?_, cut_filter_word hL.cut, amp_filter_word hL.amp⟩
  rw [sub_renames (renames_wordRe hh _), ren, cut_text hL.cut, text_filter_word]

/-! ### `&` and `*` -/

theorem notW_sep {d : Char} (hd : d = '&' ∨ d = '*') : ∀ {L : List Piece}, NotW L → AmpOk L → NotW (L.filter (notSep d))
  | [], hL, _ => hL
  | .word v :: L, hL, _ => absurd rfl (hL v L)
  | .sep c :: L, hL, ha => by
    by_cases hc : c = d
    · rw [List.filter_cons_of_neg (by rw [hc]; simp [notSep])]
      exact notW_sep hd (ha.1 (hc ▸ hd)) ha.2
    · rw [List.filter_cons_of_pos (notSep_ne hc)]
      intro v m e
      cases e

theorem cut_filter_sep {u : Char → Bool} {d : Char} (hd : d = '&' ∨ d = '*') : ∀ {L : List Piece}, Cut u L → AmpOk L → Cut u (L.filter (notSep d))
  | [], _, _ => trivial
  | .word w :: L, hL, ha => by
    rw [List.filter_cons_of_pos (notSep_word d w)]
    exact ⟨hL.1, hL.2.1, notW_sep hd hL.2.2.1 ha, cut_filter_sep hd hL.2.2.2 ha⟩
  | .sep c :: L, hL, ha => by
    have ih := cut_filter_sep hd hL.2 ha.2
    by_cases hc : c = d
    · rw [List.filter_cons_of_neg (by rw [hc]; simp [notSep])]
      exact ih
    · rw [List.filter_cons_of_pos (notSep_ne hc)]
      exact ⟨hL.1, ih⟩

theorem amp_filter_sep {d : Char} (hd : d = '&' ∨ d = '*') : ∀ {L : List Piece}, AmpOk L → AmpOk (L.filter (notSep d))
  | [], _ => trivial
  | .word w :: L, ha => by
    rw [List.filter_cons_of_pos (notSep_word d w)]
    exact amp_filter_sep (L := L) hd ha
  | .sep c :: L, ha => by
    have ih := amp_filter_sep hd ha.2
    by_cases hc : c = d
    · rw [List.filter_cons_of_neg (by rw [hc]; simp [notSep])]
      exact ih
    · rw [List.filter_cons_of_pos (notSep_ne hc)]
      exact ⟨fun h => notW_sep hd (ha.1 h) ha.2, ih⟩

theorem text_filter_sep {u : Char → Bool} {d : Char} (hd : isWordChar u d = false) : ∀ {L : List Piece}, Cut u L →
    (text L).filter (fun c => decide (c ≠ d)) = text (L.filter (notSep d))
  | [], _ => rfl
  | .word w :: L, hL => by
    rw [List.filter_cons_of_pos (notSep_word d w), text_cons, text_cons, List.filter_append, text_filter_sep hd hL.2.2.2]
    congr 1
    refine List.filter_eq_self.2 (fun c hc => decide_eq_true ?_)
    rintro rfl
    rw [hL.2.1 c hc] at hd
    cases hd
  | .sep c :: L, hL => by
    have ih := text_filter_sep hd hL.2
    rw [text_cons]
    show List.filter _ (c :: text L) = _
    by_cases hc : c = d
    · rw [List.filter_cons_of_neg (by simp [hc]), List.filter_cons_of_neg (by rw [hc]; simp [notSep]), ih]
    · rw [List.filter_cons_of_pos (by simp [hc]), List.filter_cons_of_pos (notSep_ne hc), ih, text_cons]
      rfl

theorem sub_remove_sep {u : Char → Bool} {d : Char} (hd : d = '&' ∨ d = '*') {L : List Piece} (hL : PInv u L) :
    sub u (lits [d] .eps) [] (text L) = text (L.filter (notSep d)) ∧ PInv u (L.filter (notSep d)) := by
  refine ⟨?_, cut_filter_sep hd hL.cut hL.amp, amp_filter_sep hd hL.amp⟩
  rw [sub_remove, text_filter_sep _ hL.cut]
  rcases hd with rfl | rfl <;> rfl

/-! ### The four rules -/

def keepP (p : Piece) : Bool := notSep '*' p && notSep '&' p && notWord "mutable".toList p && notWord "const".toList p

theorem mutableIdent (u : Char → Bool) : Ident u "mutable".toList := ident_of (by decide) (by decide)

theorem pass_last4 {u : Char → Bool} {L : List Piece} (hL : PInv u L) :
    passR u (lastKinds.map Kind.rule) (text L) = text (L.filter keepP) ∧ PInv u (L.filter keepP) := by
  obtain ⟨h1, i1⟩ := sub_remove_word (constIdent u) hL
  obtain ⟨h2, i2⟩ := sub_remove_word (mutableIdent u) i1
  obtain ⟨h3, i3⟩ := sub_remove_sep (.inl rfl) i2
  obtain ⟨h4, i4⟩ := sub_remove_sep (.inr rfl) i3
  have e : (((L.filter (notWord "const".toList)).filter (notWord "mutable".toList)).filter (notSep '&')).filter (notSep '*') = L.filter keepP := by
    rw [List.filter_filter, List.filter_filter, List.filter_filter]
    rfl
  rw [e] at h4 i4
  refine ⟨?_, i4⟩
  show passR u [(wordRe "const".toList, litTmpl []), (wordRe "mutable".toList, litTmpl []), (lits ['&'] .eps, []), (lits ['*'] .eps, [])] (text L) = _
  rw [passR_cons', h1, passR_cons', h2, passR_cons', h3, passR_cons', h4]
  rfl

/-! ### From tokens -/

theorem notW_pieces {l : List TTok} (h : TApart l) : NotW (tpieces l) := apart_pieces h

theorem amp_append : ∀ {x L : List Piece}, AmpOk x → AmpOk L → (∀ y c, x = y ++ [.sep c] → c ≠ '&' ∧ c ≠ '*') → AmpOk (x ++ L)
  | [], _, _, h, _ => h
  | .word w :: x, L, hx, h, hc => amp_append (x := x) hx h (fun y c e => hc (.word w :: y) c (by rw [e]; rfl))
  | .sep d :: x, L, hx, h, hc => by
    refine ⟨fun hd => ?_, amp_append (x := x) hx.2 h (fun y c e => hc (.sep d :: y) c (by rw [e]; rfl))⟩
    cases x with
    | nil =>
      have := hc [] d rfl
      rcases hd with rfl | rfl
      · exact absurd rfl this.1
      · exact absurd rfl this.2
    | cons p x =>
      intro v m e
      have := (List.cons.inj e).1
      subst this
      exact hx.1 hd v x rfl

/-- The names have no `&` and no `*` (a check). -/
def plainB : List Piece → Bool
  | [] => true
  | .sep c :: L => decide (c ≠ '&' ∧ c ≠ '*') && plainB L
  | .word _ :: L => plainB L

theorem amp_plain : ∀ {L : List Piece}, plainB L = true → AmpOk L
  | [], _ => trivial
  | .sep c :: L, h => by
    rw [plainB, Bool.and_eq_true] at h
    have h1 := of_decide_eq_true h.1
    refine ⟨fun hc => ?_, amp_plain h.2⟩
    rcases hc with rfl | rfl
    · exact absurd rfl h1.1
    · exact absurd rfl h1.2
  | .word _ :: L, h => amp_plain (L := L) h

theorem plain_last : ∀ {L : List Piece}, plainB L = true → ∀ y c, L = y ++ [.sep c] → c ≠ '&' ∧ c ≠ '*'
  | [], _, y, c, e => by cases y <;> cases e
  | .sep d :: L, h, y, c, e => by
    rw [plainB, Bool.and_eq_true] at h
    cases y with
    | nil => obtain ⟨h1, _⟩ := List.cons.inj e; cases h1; exact of_decide_eq_true h.1
    | cons p y => exact plain_last h.2 y c (List.cons.inj e).2
  | .word w :: L, h, y, c, e => by
    cases y with
    | nil => cases e
    | cons p y => exact plain_last (L := L) h y c (List.cons.inj e).2

theorem known_plain : ∀ q ∈ knownNames, plainB (cut (fun _ => false) q) = true := by decide +kernel

theorem amp_tpieces {u : Char → Bool} : ∀ {l : List TTok}, TLexed u l → AmpOk (tpieces l)
  | [], _ => trivial
  | .word w :: l, h => amp_tpieces (l := l) h.2.2.2.2.2
  | .sep c :: l, h => ⟨fun hc => notW_pieces (h.2.2.2.2.2.1 hc), amp_tpieces (l := l) h.2.2.2.2.2.2⟩
  | .known q :: l, h => by
    have hp := known_plain q h.1
    exact amp_append (amp_plain hp) (amp_tpieces (l := l) h.2.2.2.2.2) (plain_last hp)

theorem pinv_tpieces {u : Char → Bool} {l : List TTok} (h : TLexed u l) : PInv u (tpieces l) := ⟨cut_tpieces h, amp_tpieces h⟩

/-- The pieces that a token leaves. -/
def Spec.TTok.out (t : TTok) : List Piece := (stepT t).pieces.filter keepP

def outs (l : List TTok) : List Piece := l.flatMap TTok.out

theorem outs_eq (l : List TTok) : (tpieces (l.map stepT)).filter keepP = outs l := by
  induction l with
  | nil => rfl
  | cons t l ih =>
    rw [List.map_cons, tpieces_cons, List.filter_append, ih]
    rfl

theorem keep_word {w : Str} : keepP (.word w) = true ↔ w ≠ "const".toList ∧ w ≠ "mutable".toList := by
  unfold keepP
  rw [notSep_word, notSep_word, Bool.and_true, Bool.true_and, Bool.and_eq_true]
  unfold notWord
  rw [decide_eq_true_iff, decide_eq_true_iff]
  exact ⟨fun h => ⟨fun e => h.2 (by rw [e]), fun e => h.1 (by rw [e])⟩, fun h => ⟨fun e => h.2 (Piece.word.inj e), fun e => h.1 (Piece.word.inj e)⟩⟩

theorem keep_sep {c : Char} : keepP (.sep c) = true ↔ c ≠ '&' ∧ c ≠ '*' := by
  unfold keepP
  rw [notWord_sep, notWord_sep, Bool.and_true, Bool.and_true, Bool.and_eq_true]
  unfold notSep
  rw [decide_eq_true_iff, decide_eq_true_iff]
  exact ⟨fun h => ⟨fun e => h.2 (by rw [e]), fun e => h.1 (by rw [e])⟩, fun h => ⟨fun e => h.2 (Piece.sep.inj e), fun e => h.1 (Piece.sep.inj e)⟩⟩

theorem values_word : ∀ q ∈ wordTypes, q.2 ∈ values := by decide +kernel
theorem values_keep : ∀ v ∈ values, v ≠ "const".toList ∧ v ≠ "mutable".toList := by decide +kernel

/-- A word that is no type is kept. -/
theorem lookup_word (w : Str) : lookupOr wordTypes w ∈ values ∨ (lookupOr wordTypes w = w ∧ w ∉ wordTypes.map Prod.fst) := by
  by_cases h : w ∈ wordTypes.map Prod.fst
  · left
    have : ∀ q ∈ wordTypes, lookupOr wordTypes q.1 ∈ values := by decide +kernel
    obtain ⟨q, hq, rfl⟩ := List.mem_map.1 h
    exact this q hq
  · exact .inr ⟨lookupOr_not h, h⟩

theorem lookup_keep (w : Str) : (lookupOr wordTypes w ≠ "const".toList ∧ lookupOr wordTypes w ≠ "mutable".toList) ↔
    (w ≠ "const".toList ∧ w ≠ "mutable".toList) := by
  rcases lookup_word w with h | ⟨h, _⟩
  · refine ⟨fun _ => ?_, fun _ => values_keep _ h⟩
    have hc : lookupOr wordTypes "const".toList ∉ values ∧ lookupOr wordTypes "mutable".toList ∉ values := by decide +kernel
    exact ⟨fun e => hc.1 (e ▸ h), fun e => hc.2 (e ▸ h)⟩
  · rw [h]

theorem out_word (w : Str) : TTok.out (.word w) = if w = "const".toList ∨ w = "mutable".toList then [] else [.word (lookupOr wordTypes w)] := by
  unfold TTok.out
  rw [stepT_word]
  show List.filter keepP [.word (lookupOr wordTypes w)] = _
  by_cases h : w = "const".toList ∨ w = "mutable".toList
  · rw [if_pos h, List.filter_cons_of_neg]
    · rfl
    · rw [keep_word, lookup_keep]
      rintro ⟨h1, h2⟩
      rcases h with h | h
      · exact h1 h
      · exact h2 h
  · rw [if_neg h, List.filter_cons_of_pos]
    · rfl
    · rw [keep_word, lookup_keep]
      exact ⟨fun e => h (.inl e), fun e => h (.inr e)⟩

theorem out_sep (c : Char) : TTok.out (.sep c) = if c = '&' ∨ c = '*' then [] else [.sep c] := by
  unfold TTok.out
  rw [stepT_sep]
  show List.filter keepP [.sep c] = _
  by_cases h : c = '&' ∨ c = '*'
  · rw [if_pos h, List.filter_cons_of_neg]
    · rfl
    · rw [keep_sep]
      rintro ⟨h1, h2⟩
      rcases h with h | h
      · exact h1 h
      · exact h2 h
  · rw [if_neg h, List.filter_cons_of_pos]
    · rfl
    · rw [keep_sep]
      exact ⟨fun e => h (.inl e), fun e => h (.inr e)⟩

theorem out_known : ∀ p ∈ knownNames, TTok.out (.known p) =
    if p ∈ headNames then cut (fun _ => false) p else [.word (lookupOr knownTypes p)] := by decide +kernel

theorem known_self : ∀ p ∈ headNames, lookupOr knownTypes p = p := by decide +kernel

/-- What a token leaves is its Python. -/
theorem text_out {u : Char → Bool} {t : TTok} {l : List TTok} (hl : TLexed u l) (ht : t ∈ l) : text t.out = t.py := by
  cases t with
  | word w =>
    rw [out_word, TTok.py]
    split
    · rfl
    · exact List.append_nil _
  | sep c =>
    rw [out_sep, TTok.py]
    split <;> rfl
  | known p =>
    rw [out_known p (lexed_known hl ht), TTok.py]
    split
    · next h => rw [(cut_spec _ p).2, known_self p h]
    · exact List.append_nil _

theorem text_outs {u : Char → Bool} {l : List TTok} (hl : TLexed u l) : text (outs l) = pyFlat l := by
  have : ∀ m : List TTok, (∀ t ∈ m, t ∈ l) → text (outs m) = pyFlat m := by
    intro m
    induction m with
    | nil => intro _; rfl
    | cons t m ih =>
      intro h
      show text (t.out ++ outs m) = t.py ++ pyFlat m
      rw [text_append, text_out hl (h t (by simp)), ih (fun x hx => h x (by simp [hx]))]
  exact this l (fun _ h => h)

/-- **One pass on a type without template.** -/
theorem pass_type {u : Char → Bool} (hu : SpaceApart u) {l : List TTok} (hl : TLexed u l) :
    passR u typeRules (ttext l) = pyFlat l ∧ PInv u (outs l) := by
  obtain ⟨h1, h2⟩ := pass_flat hu (ks := mainKinds) ⟨hl, fun q hq => lexed_known hl hq⟩ main_ok
  obtain ⟨h3, h4⟩ := pass_last4 (pinv_tpieces h2.lexed)
  have e : l.map (stepsT mainKinds) = l.map stepT := rfl
  rw [e, outs_eq] at h3 h4
  refine ⟨?_, h4⟩
  have e2 : ∀ (a b : List (Re × List Tok)) (s : Str), passR u (a ++ b) s = passR u b (passR u a s) := fun a b s => List.foldl_append
  rw [typeRules_eq, typeKinds, List.map_append, e2, h1, ← text_tpieces, e, h3, text_outs hl]

/-! ### The second pass -/

/-- The pieces that a token leaves: no `std`, or `std::K`. -/
theorem out_std {u : Char → Bool} {t : TTok} {l : List TTok} (hl : TLexed u l) (ht : t ∈ l) :
    .word "std".toList ∉ t.out ∨ ∃ K ∈ stdHeads, t.out = stdPieces K := by
  cases t with
  | word w =>
    left
    rw [out_word]
    split
    · simp
    · intro h
      have e := Piece.word.inj (List.mem_singleton.1 h)
      rcases lookup_word w with h1 | ⟨h1, _⟩
      · rw [← e] at h1
        exact absurd h1 (by decide +kernel)
      · rw [h1] at e
        exact (lexed_word hl ht).2.1 (by rw [← e]; decide +kernel)
  | sep c =>
    left
    rw [out_sep]
    split
    · simp
    · intro h; cases List.mem_singleton.1 h
  | known p =>
    have h : ∀ p ∈ knownNames, (p ∉ headNames ∧ lookupOr knownTypes p ≠ "std".toList) ∨ (p ∈ headNames ∧ ∃ K ∈ stdHeads, cut (fun _ => false) p = stdPieces K) := by
      decide +kernel
    have hp := lexed_known hl ht
    rw [out_known p hp]
    rcases h p hp with ⟨h1, h2⟩ | ⟨h1, h2⟩
    · rw [if_neg h1]
      exact .inl (fun h => h2 (Piece.word.inj (List.mem_singleton.1 h)).symm)
    · rw [if_pos h1]
      exact .inr h2

theorem heads_not_std : ∀ K ∈ stdHeads, K ≠ "std".toList := by decide +kernel

/-- `std::` comes only before the names of the templates. -/
theorem std_blocks {v : Str} {Y : List Piece} : ∀ (bs : List (List Piece)) (X : List Piece), (∀ b ∈ bs, .word "std".toList ∉ b ∨ ∃ K ∈ stdHeads, b = stdPieces K) →
    bs.flatten = X ++ (stdPieces v ++ Y) → ∃ K ∈ stdHeads, stdPieces K ∈ bs ∧ v = K := by
  intro bs
  induction bs with
  | nil => intro X _ e; cases X <;> cases e
  | cons b bs ih =>
    intro X hb e
    have ih' : ∀ X', bs.flatten = X' ++ (stdPieces v ++ Y) → ∃ K ∈ stdHeads, stdPieces K ∈ b :: bs ∧ v = K := fun X' e' => by
      obtain ⟨K, h1, h2, h3⟩ := ih X' (fun x hx => hb x (by simp [hx])) e'
      exact ⟨K, h1, List.mem_cons_of_mem _ h2, h3⟩
    have skip : ∀ (b' : List Piece) (X : List Piece), .word "std".toList ∉ b' → b' ++ bs.flatten = X ++ (stdPieces v ++ Y) →
        ∃ K ∈ stdHeads, stdPieces K ∈ b :: bs ∧ v = K := by
      intro b' X hn e
      rcases List.append_eq_append_iff.1 e with ⟨a', e1, e2⟩ | ⟨a', e1, e2⟩
      · exact ih' a' e2
      · cases a' with
        | nil => exact ih' [] e2.symm
        | cons p a' =>
          have : Piece.word "std".toList = p := (List.cons.inj e2).1
          subst this
          exact absurd (by rw [e1]; simp) hn
    rw [List.flatten_cons] at e
    rcases hb b (by simp) with hn | ⟨K, hK, hbk⟩
    · exact skip b X hn e
    · cases X with
      | nil =>
        refine ⟨K, hK, by simp [hbk], ?_⟩
        rw [hbk] at e
        obtain ⟨_, e⟩ := List.cons.inj e
        obtain ⟨_, e⟩ := List.cons.inj e
        obtain ⟨_, e⟩ := List.cons.inj e
        exact (Piece.word.inj (List.cons.inj e).1).symm
      | cons p X =>
        have e1 : [.sep ':', .sep ':', .word K] ++ bs.flatten = X ++ (stdPieces v ++ Y) := by
          rw [hbk] at e
          exact (List.cons.inj e).2
        refine skip _ X ?_ e1
        intro h
        rcases List.mem_cons.1 h with h | h
        · cases h
        rcases List.mem_cons.1 h with h | h
        · cases h
        · exact heads_not_std K hK (Piece.word.inj (List.mem_singleton.1 h)).symm

theorem outs_flatten (l : List TTok) : outs l = (l.map TTok.out).flatten := List.flatMap_def ..

theorem banned_split : ∀ b ∈ banned, b ∈ reserved ∨ b ∈ wordTypes.map Prod.fst ∨ b = "const".toList ∨ b = "mutable".toList := by decide +kernel
theorem values_banned : ∀ v ∈ values, v ∉ banned := by decide +kernel

theorem outs_words {u : Char → Bool} {l : List TTok} (hl : TLexed u l) {w : Str} (h : .word w ∈ outs l) : w ∉ banned := by
  obtain ⟨t, ht, h⟩ := List.mem_flatMap.1 h
  cases t with
  | word v =>
    rw [out_word] at h
    split at h
    · cases h
    · next hn =>
      have e := Piece.word.inj (List.mem_singleton.1 h)
      subst e
      rcases lookup_word v with h1 | ⟨h1, h2⟩
      · exact values_banned _ h1
      · rw [h1]
        intro hb
        rcases banned_split v hb with h3 | h3 | h3
        · exact (lexed_word hl ht).2.1 h3
        · exact h2 h3
        · exact hn h3
  | sep c =>
    rw [out_sep] at h
    split at h
    · cases h
    · cases List.mem_singleton.1 h
  | known p =>
    have h1 : ∀ p ∈ knownNames, ∀ x ∈ TTok.out (.known p), (match x with | .word w => decide (w ∉ banned) | .sep _ => true) = true := by decide +kernel
    exact of_decide_eq_true (h1 p (lexed_known hl ht) _ h)

theorem mem_pyFlat {u : Char → Bool} {l : List TTok} (hl : TLexed u l) {c : Char} (h : c ∈ pyFlat l) : isWordChar u c = true ∨ .sep c ∈ outs l := by
  rw [← text_outs hl] at h
  obtain ⟨p, hp, hc⟩ := List.mem_flatMap.1 h
  cases p with
  | word w =>
    left
    obtain ⟨t, ht, h2⟩ := List.mem_flatMap.1 hp
    have hw : Ident u w := by
      cases t with
      | word v =>
        rw [out_word] at h2
        split at h2
        · cases h2
        · have e := Piece.word.inj (List.mem_singleton.1 h2)
          subst e
          rcases lookup_word v with h1 | ⟨h1, _⟩
          · exact (tword_value _ h1).ident
          · rw [h1]; exact (lexed_word hl ht).1
      | sep c =>
        rw [out_sep] at h2
        split at h2
        · cases h2
        · cases List.mem_singleton.1 h2
      | known p =>
        have h1 : ∀ p ∈ knownNames, ∀ x ∈ TTok.out (.known p), (match x with | .word w => identB w | .sep _ => true) = true := by decide +kernel
        exact ident_of_B (h1 p (lexed_known hl ht) _ h2)
    exact hw.2 c hc
  | sep d =>
    cases List.mem_singleton.1 hc
    exact .inr hp

theorem sep_outs {u : Char → Bool} {l : List TTok} (hl : TLexed u l) {c : Char} (h : .sep c ∈ outs l) :
    c = ':' ∨ (.sep c ∈ l ∧ c ≠ '&' ∧ c ≠ '*') := by
  obtain ⟨t, ht, h⟩ := List.mem_flatMap.1 h
  cases t with
  | word v =>
    rw [out_word] at h
    split at h
    · cases h
    · cases List.mem_singleton.1 h
  | sep d =>
    rw [out_sep] at h
    split at h
    · cases h
    · next hn =>
      cases List.mem_singleton.1 h
      exact .inr ⟨ht, fun e => hn (.inl e), fun e => hn (.inr e)⟩
  | known p =>
    have h1 : ∀ p ∈ knownNames, ∀ x ∈ TTok.out (.known p), (match x with | .word _ => true | .sep c => decide (c = ':')) = true := by decide +kernel
    exact .inl (of_decide_eq_true (h1 p (lexed_known hl ht) _ h))

theorem not_mem_pyFlat {u : Char → Bool} {l : List TTok} (hl : TLexed u l) {c : Char} (hc : isWordChar u c = false) (h2 : c ≠ ':')
    (h3 : .sep c ∈ l → c = '&' ∨ c = '*') : c ∉ pyFlat l := by
  intro h
  rcases mem_pyFlat hl h with h | h
  · rw [h] at hc; cases hc
  · rcases sep_outs hl h with h | ⟨h, h4, h5⟩
    · exact h2 h
    · rcases h3 h with h | h
      · exact h4 h
      · exact h5 h

/-- The Python of a type without template. -/
theorem still_flat {u : Char → Bool} (hu : SpaceApart u) {l : List TTok} (hl : TLexed u l) : Still u stdHeads (pyFlat l) := by
  obtain ⟨_, hp⟩ := pass_type hu hl
  have hc : cut u (pyFlat l) = outs l := by rw [← text_outs hl, cut_text hp.cut]
  refine ⟨fun w hw => outs_words hl (by rwa [hc] at hw), ?_, ?_, ?_⟩
  · intro X v Y e
    rw [hc, outs_flatten] at e
    obtain ⟨K, hK, _, e2⟩ := std_blocks _ X (fun b hb => by obtain ⟨t, ht, rfl⟩ := List.mem_map.1 hb; exact out_std hl ht) e
    rw [e2]
    exact hK
  · exact not_mem_pyFlat hl rfl (by decide) (fun _ => .inl rfl)
  · exact not_mem_pyFlat hl rfl (by decide) (fun _ => .inr rfl)

theorem flat_no_angle {u : Char → Bool} {l : List TTok} (hl : TLexed u l) : '<' ∉ pyFlat l ∧ '>' ∉ pyFlat l :=
  ⟨not_mem_pyFlat hl rfl (by decide) (fun h => absurd rfl (lexed_sep hl h).2.2.1),
   not_mem_pyFlat hl rfl (by decide) (fun h => absurd rfl (lexed_sep hl h).2.2.2)⟩

/-- The rules for `std::K` need `<`, or are for the strings (a check). -/
def headB : Kind → Bool
  | .std K r _ => decide (K ∉ stdHeads) || needs '<' r
  | _ => true

theorem kinds_head : ∀ k ∈ typeKinds, headB k = true := by
  rw [← List.all_eq_true]
  decide +kernel

/-- **A type without template.** -/
theorem apply_flat {u : Char → Bool} (hu : SpaceApart u) {l : List TTok} (hl : TLexed u l) :
    Repl.apply (engine u) typeList (ttext l) = pyFlat l := by
  have h1 : Repl.pass (engine u) typeList (ttext l) = pyFlat l := by
    rw [pass_rules u typeList read_type, (pass_type hu hl).1]
  rw [apply_once, h1]
  rw [h1, pass_rules u typeList read_type, typeRules_eq]
  refine pass_still hu (still_flat hu hl) typeKinds_sane (fun K r t hk => ?_)
  have := kinds_head _ hk
  rw [headB, Bool.or_eq_true] at this
  exact this.imp of_decide_eq_true (fun h => ⟨h, (flat_no_angle hl).1⟩)

end Verif.Re
