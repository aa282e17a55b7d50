import Verif.TArgs.Tidy
import Verif.Re.TypeHead
import Verif.TArgs.Props

/-! The translation of a type with templates. -/

namespace Verif.Re
open Verif.Py Spec Verif.Inst Verif.Inst.Spec
open Verif.Scope (isWordChar)

/-! ### Texts in which nothing is left to translate -/

/-- No word at which a rule begins, no `std`, none of the characters of types that are not in Python. -/
structure Settled (u : Char → Bool) (s : Str) : Prop where
  words : ∀ w, .word w ∈ cut u s → w ∉ banned ∧ w ≠ "std".toList
  chars : ∀ c ∈ s, c ≠ '&' ∧ c ≠ '*' ∧ c ≠ '<' ∧ c ≠ '>' ∧ c ≠ '\n'

theorem settled_still {u : Char → Bool} {s : Str} (h : Settled u s) (Ks : List Str) : Still u Ks s :=
  ⟨fun w hw => (h.words w hw).1, fun X v Y e => absurd rfl (h.words "std".toList (by rw [e]; simp [stdPieces])).2, fun hm => (h.chars _ hm).1 rfl,
   fun hm => (h.chars _ hm).2.1 rfl⟩

theorem settled_mid {u : Char → Bool} {a y b : Str} (ha : Settled u a) (hy : Settled u y) (hb : Settled u b) (h1 : ¬ EndsInWord u a) (h2 : ¬ BeginsWithWord u b) :
    Settled u (a ++ y ++ b) := by
  constructor
  · intro w hw
    rw [cut_append_begins h2, cut_two h1] at hw
    rcases List.mem_append.1 hw with hw | hw
    · rcases List.mem_append.1 hw with hw | hw
      · exact ha.words w hw
      · exact hy.words w hw
    · exact hb.words w hw
  · intro c hc
    rcases List.mem_append.1 hc with hc | hc
    · rcases List.mem_append.1 hc with hc | hc
      · exact ha.chars c hc
      · exact hy.chars c hc
    · exact hb.chars c hc

theorem settled_sep {u : Char → Bool} {a b : Str} {c : Char} (hc : isWordChar u c = false) (h : Settled u (a ++ c :: b)) : Settled u a ∧ Settled u b := by
  refine ⟨⟨fun w hw => h.words w ?_, fun d hd => h.chars d (by simp [hd])⟩, ⟨fun w hw => h.words w ?_, fun d hd => h.chars d (by simp [hd])⟩⟩
  · rw [cut_append_sep u c hc]; simp [hw]
  · rw [cut_append_sep u c hc]; simp [hw]

theorem ends_spaces {u : Char → Bool} (hu : SpaceApart u) {a : Str} (h : ∀ c ∈ a, isSpace c = true) : ¬ EndsInWord u a := by
  rintro ⟨c, hc, hw⟩
  rw [hu c (h c (List.mem_of_getLast? hc))] at hw
  cases hw

theorem begins_spaces {u : Char → Bool} (hu : SpaceApart u) {a : Str} (h : ∀ c ∈ a, isSpace c = true) : ¬ BeginsWithWord u a := by
  rintro ⟨c, hc, hw⟩
  rw [hu c (h c (List.mem_of_head? hc))] at hw
  cases hw

theorem settled_strip {u : Char → Bool} (hu : SpaceApart u) {s : Str} (h : Settled u s) : Settled u (strip s) := by
  refine ⟨fun w hw => h.words w ?_, fun c hc => h.chars c (TArgs.mem_strip hc)⟩
  obtain ⟨a, a', e, ha, ha'⟩ := Num.strip_decomp s
  generalize strip s = y at *
  rw [e, cut_append_begins (begins_spaces hu ha'), cut_two (ends_spaces hu ha)]
  simp [hw]

/-- Pieces with the same words. -/
inductive Sim : List Piece → List Piece → Prop
  | nil : Sim [] []
  | word (w L L') : Sim L L' → Sim (.word w :: L) (.word w :: L')
  | sep (c d L L') : Sim L L' → Sim (.sep c :: L) (.sep d :: L')
  | drop (c d L L') : Sim L (.sep d :: L') → Sim (.sep c :: L) (.sep d :: L')

theorem sim_words {L L' : List Piece} (h : Sim L L') : ∀ w, .word w ∈ L' → .word w ∈ L := by
  induction h with
  | nil => intro w h; exact h
  | word v L L' _ ih =>
    intro w h
    rcases List.mem_cons.1 h with h | h
    · rw [h]; simp
    · simp [ih w h]
  | sep c d L L' _ ih =>
    intro w h
    rcases List.mem_cons.1 h with h | h
    · cases h
    · simp [ih w h]
  | drop c d L L' _ ih => intro w h; simp [ih w h]

theorem sim_add {L L' : List Piece} (c : Char) (h : Sim L L') : Sim (addChar c L) (addChar c L') := by
  cases h with
  | nil => exact .word _ _ _ .nil
  | word w L L' h => exact .word _ _ _ h
  | sep a d L L' h => exact .word _ _ _ (.sep _ _ _ _ h)
  | drop a d L L' h => exact .word _ _ _ (.drop _ _ _ _ h)

theorem sim_squeeze {u : Char → Bool} (hu : SpaceApart u) : ∀ s : Str, Sim (cut u s) (cut u (TArgs.squeeze s))
  | [] => .nil
  | [c] => by
    unfold TArgs.squeeze
    by_cases h : isSpace c = true
    · rw [if_pos h, cut_sep (hu c h), cut_sep (hu ' ' isSpace_blank)]
      exact .sep _ _ _ _ .nil
    · rw [if_neg h, cut]
      split
      · exact sim_add c .nil
      · exact .sep _ _ _ _ .nil
  | c :: d :: r => by
    have ih := sim_squeeze hu (d :: r)
    unfold TArgs.squeeze
    by_cases h : isSpace c = true
    · rw [if_pos h, cut_sep (hu c h)]
      by_cases h' : isSpace d = true
      · rw [if_pos h']
        have : ∃ L', cut u (TArgs.squeeze (d :: r)) = .sep ' ' :: L' := by
          clear ih
          induction r generalizing d with
          | nil =>
            rw [TArgs.squeeze, if_pos h', cut_sep (hu ' ' isSpace_blank)]
            exact ⟨_, rfl⟩
          | cons e r ih =>
            rw [TArgs.squeeze, if_pos h']
            split
            · next he => exact ih e he
            · rw [cut_sep (hu ' ' isSpace_blank)]; exact ⟨_, rfl⟩
        obtain ⟨L', hL⟩ := this
        rw [hL] at ih ⊢
        exact .drop _ _ _ _ ih
      · rw [if_neg h', cut_sep (hu ' ' isSpace_blank)]
        exact .sep _ _ _ _ ih
    · rw [if_neg h]
      show Sim (if isWordChar u c then addChar c (cut u (d :: r)) else .sep c :: cut u (d :: r))
        (if isWordChar u c then addChar c (cut u (TArgs.squeeze (d :: r))) else .sep c :: cut u (TArgs.squeeze (d :: r)))
      split
      · exact sim_add c ih
      · exact .sep _ _ _ _ ih

theorem settled_tidy {u : Char → Bool} (hu : SpaceApart u) {s : Str} (h : Settled u s) : Settled u (tidy s) := by
  unfold tidy
  rw [← TArgs.strip_squeeze]
  refine settled_strip hu ⟨fun w hw => h.words w (sim_words (sim_squeeze hu s) w hw), fun c hc => ?_⟩
  rcases TArgs.mem_squeeze hc with rfl | hc
  · decide
  · exact h.chars c hc

theorem settled_flat {u : Char → Bool} (hu : SpaceApart u) {l : List TTok} (hl : TLexed u l) (hn : NoHead l) : Settled u (pyFlat l) := by
  have hst := still_flat hu hl
  refine ⟨fun w hw => ⟨hst.words w hw, ?_⟩, ?_⟩
  · obtain ⟨_, hp⟩ := pass_type hu hl
    rw [← text_outs hl, cut_text hp.cut] at hw
    rintro rfl
    obtain ⟨t, ht, h2⟩ := List.mem_flatMap.1 hw
    cases t with
    | word v =>
      rcases out_std hl ht with h | ⟨K, _, h⟩
      · exact h h2
      · have h3 := congrArg List.length h
        rw [out_word] at h3
        split at h3
        · exact absurd h3 (show ¬ (0 = 4) by decide)
        · exact absurd h3 (show ¬ (1 = 4) by decide)
    | sep c =>
      rcases out_std hl ht with h | ⟨K, _, h⟩
      · exact h h2
      · have h3 := congrArg List.length h
        rw [out_sep] at h3
        split at h3
        · exact absurd h3 (show ¬ (0 = 4) by decide)
        · exact absurd h3 (show ¬ (1 = 4) by decide)
    | known p =>
      have h1 : ∀ p ∈ knownNames, p ∉ headNames → .word "std".toList ∉ TTok.out (.known p) := by decide +kernel
      exact h1 p (lexed_known hl ht) (hn p ht) h2
  · intro c hc
    refine ⟨?_, ?_, ?_, ?_, ?_⟩ <;> rintro rfl
    · exact hst.amp hc
    · exact hst.star hc
    · exact (flat_no_angle hl).1 hc
    · exact (flat_no_angle hl).2 hc
    · refine not_mem_pyFlat hl (hu '\n' (by decide)) (by decide) (fun h => ?_) hc
      exact absurd ((lexed_sep hl h).2.1 (by decide)) (by decide)

/-- A literal (a check). -/
def settledB (s : Str) : Bool :=
  (cut (fun _ => false) s).all (fun p => match p with | .word w => decide (w ∉ banned ∧ w ≠ "std".toList) | .sep _ => true) &&
  s.all (fun c => decide (c.toNat < 128 ∧ c ≠ '&' ∧ c ≠ '*' ∧ c ≠ '<' ∧ c ≠ '>' ∧ c ≠ '\n'))

theorem cut_ascii_text {u : Char → Bool} : ∀ {s : Str}, (∀ c ∈ s, c.toNat < 128) → cut u s = cut (fun _ => false) s
  | [], _ => rfl
  | c :: s, h => by
    have e : isWordChar u c = isWordChar (fun _ => false) c := by
      unfold isWordChar
      rw [if_pos (h c (by simp)), if_pos (h c (by simp))]
    unfold cut
    rw [e, cut_ascii_text (fun d hd => h d (by simp [hd]))]

theorem settled_of {u : Char → Bool} {s : Str} (h : settledB s = true) : Settled u s := by
  unfold settledB at h
  rw [Bool.and_eq_true, List.all_eq_true, List.all_eq_true] at h
  refine ⟨fun w hw => ?_, fun c hc => (of_decide_eq_true (h.2 c hc)).2⟩
  rw [cut_ascii_text (fun c hc => (of_decide_eq_true (h.2 c hc)).1)] at hw
  exact of_decide_eq_true (h.1 _ hw)

/-! ### A template of the standard library -/

/-- The text of the template. -/
def stdText (P K x A : Str) : Str := P ++ ("std".toList ++ ("::".toList ++ (K ++ ('<' :: (x ++ ['>']) ++ A))))

theorem heads_ident : ∀ K ∈ stdHeads, identB K = true := by decide +kernel
theorem heads_banned : ∀ K ∈ stdHeads, K ∉ banned := by decide +kernel

theorem mem_stdPieces {w K : Str} (h : .word w ∈ stdPieces K) : w = "std".toList ∨ w = K := by
  unfold stdPieces at h
  rcases List.mem_cons.1 h with h | h
  · exact .inl (Piece.word.inj h)
  rcases List.mem_cons.1 h with h | h
  · cases h
  rcases List.mem_cons.1 h with h | h
  · cases h
  · exact .inr (Piece.word.inj (List.mem_singleton.1 h))

/-- The only `std` is followed by the rest. -/
theorem only_std {K v : Str} {A B X Y : List Piece} (hA : .word "std".toList ∉ A) (hB : .word "std".toList ∉ B) (hK : K ≠ "std".toList)
    (e : A ++ (stdPieces K ++ B) = X ++ (stdPieces v ++ Y)) : v = K := by
  rcases List.append_eq_append_iff.1 e with ⟨a', e1, e2⟩ | ⟨a', e1, e2⟩
  · cases a' with
    | nil =>
      obtain ⟨_, e⟩ := List.cons.inj e2
      obtain ⟨_, e⟩ := List.cons.inj e
      obtain ⟨_, e⟩ := List.cons.inj e
      exact (Piece.word.inj (List.cons.inj e).1).symm
    | cons p a' =>
      obtain ⟨_, e3⟩ := List.cons.inj e2
      have hm : Piece.word "std".toList ∈ [.sep ':', .sep ':', .word K] ++ B := by
        show _ ∈ .sep ':' :: .sep ':' :: .word K :: B
        rw [show (.sep ':' :: .sep ':' :: .word K :: B : List Piece) = a' ++ (stdPieces v ++ Y) from e3]
        simp [stdPieces]
      exfalso
      rcases List.mem_append.1 hm with h | h
      · rcases List.mem_cons.1 h with h | h
        · cases h
        rcases List.mem_cons.1 h with h | h
        · cases h
        · exact hK (Piece.word.inj (List.mem_singleton.1 h)).symm
      · exact hB h
  · cases a' with
    | nil =>
      obtain ⟨_, e⟩ := List.cons.inj e2
      obtain ⟨_, e⟩ := List.cons.inj e
      obtain ⟨_, e⟩ := List.cons.inj e
      exact Piece.word.inj (List.cons.inj e).1
    | cons p a' =>
      obtain ⟨e3, _⟩ := List.cons.inj e2
      exact absurd (by rw [e1, ← e3]; simp) hA

theorem cut_stdText {u : Char → Bool} {P K x A : Str} (hK : K ∈ stdHeads) (hP : ¬ EndsInWord u P) :
    cut u (stdText P K x A) = cut u P ++ (stdPieces K ++ (.sep '<' :: (cut u x ++ .sep '>' :: cut u A))) := by
  unfold stdText
  have e : '<' :: (x ++ ['>']) ++ A = '<' :: (x ++ '>' :: A) := by simp
  rw [e, cut_two hP, cut_std (ident_of_B (heads_ident K hK)) (by rw [begins_cons]; exact Bool.false_ne_true), cut_sep rfl, cut_append_sep u '>' rfl]

theorem still_stdText {u : Char → Bool} {P K x A : Str} (hK : K ∈ stdHeads) (hP : ¬ EndsInWord u P) (cP : Settled u P) (cx : Settled u x) (cA : Settled u A) :
    Still u [K] (stdText P K x A) := by
  have hc := cut_stdText (u := u) (x := x) (A := A) hK hP
  have hrest : ∀ w, .word w ∈ (.sep '<' :: (cut u x ++ .sep '>' :: cut u A) : List Piece) → w ∉ banned ∧ w ≠ "std".toList := by
    intro w h
    rcases List.mem_cons.1 h with h | h
    · cases h
    rcases List.mem_append.1 h with h | h
    · exact cx.words w h
    rcases List.mem_cons.1 h with h | h
    · cases h
    · exact cA.words w h
  have hchar : ∀ c, c ∈ stdText P K x A → c = ':' ∨ isWordChar u c = true ∨ c = '<' ∨ c = '>' ∨ (c ≠ '&' ∧ c ≠ '*') := by
    intro c h
    unfold stdText at h
    rcases List.mem_append.1 h with h | h
    · exact .inr (.inr (.inr (.inr ⟨(cP.chars c h).1, (cP.chars c h).2.1⟩)))
    rcases List.mem_append.1 h with h | h
    · exact .inr (.inl ((stdIdent u).2 c h))
    rcases List.mem_append.1 h with h | h
    · exact .inl (by simpa using h)
    rcases List.mem_append.1 h with h | h
    · exact .inr (.inl ((ident_of_B (heads_ident K hK)).2 c h))
    rcases List.mem_append.1 h with h | h
    · rcases List.mem_cons.1 h with h | h
      · exact .inr (.inr (.inl h))
      rcases List.mem_append.1 h with h | h
      · exact .inr (.inr (.inr (.inr ⟨(cx.chars c h).1, (cx.chars c h).2.1⟩)))
      · exact .inr (.inr (.inr (.inl (List.mem_singleton.1 h))))
    · exact .inr (.inr (.inr (.inr ⟨(cA.chars c h).1, (cA.chars c h).2.1⟩)))
  refine ⟨?_, ?_, ?_, ?_⟩
  · intro w hw
    rw [hc] at hw
    rcases List.mem_append.1 hw with h | h
    · exact (cP.words w h).1
    rcases List.mem_append.1 h with h | h
    · rcases mem_stdPieces h with rfl | rfl
      · decide +kernel
      · exact heads_banned _ hK
    · exact (hrest w h).1
  · intro X v Y e
    rw [hc] at e
    exact List.mem_singleton.2 (only_std (fun h => (cP.words _ h).2 rfl) (fun h => (hrest _ h).2 rfl) (heads_not_std K hK) e)
  · intro h
    rcases hchar _ h with h | h | h | h | h
    · cases h
    · cases h
    · cases h
    · cases h
    · exact h.1 rfl
  · intro h
    rcases hchar _ h with h | h | h | h | h
    · cases h
    · cases h
    · cases h
    · cases h
    · exact h.2 rfl

/-- The other rules find nothing, then the rule of the template, then nothing any more. -/
theorem apply_std {u : Char → Bool} (hu : SpaceApart u) {P K x A y : Str} (hK : K ∈ stdHeads) (hP : ¬ EndsInWord u P) (cP : Settled u P) (cx : Settled u x)
    (cA : Settled u A) (cy : Settled u (P ++ (y ++ A))) {ks1 ks2 : List Kind} {k : Re} {t : List Tok} (hks : typeKinds = ks1 ++ .std K k t :: ks2)
    (h1 : ∀ K' r t', .std K' r t' ∈ ks1 → K' ≠ K) (hk : Stops u k) {c : List (Nat × Str)} (hf : ∀ p, First u k ⟨p, '<' :: (x ++ ['>']) ++ A, []⟩ A c)
    (he : expand c t = y) : Repl.apply (engine u) typeList (stdText P K x A) = P ++ (y ++ A) := by
  have hs := still_stdText hK hP cP cx cA
  have hsub := sub_std (ident_of_B (heads_ident K hK)) hk t hP (fun h => (cP.words _ h).2 rfl) (fun h => (cA.words _ h).2 rfl) hf
  rw [he] at hsub
  have sane : ∀ q ∈ ks1 ++ Kind.std K k t :: ks2, q.sane = true := hks ▸ typeKinds_sane
  have e2 : ∀ (a b : List (Re × List Tok)) (s : Str), passR u (a ++ b) s = passR u b (passR u a s) := fun a b s => List.foldl_append
  have p1 : passR u typeRules (stdText P K x A) = P ++ (y ++ A) := by
    rw [typeRules_eq, hks, List.map_append, e2,
      pass_still hu hs (fun q hq => sane q (by simp [hq])) (fun K' r t' h => .inl (fun h' => h1 K' r t' h (List.mem_singleton.1 h'))),
      List.map_cons, passR_cons']
    show passR u (ks2.map Kind.rule) (sub u (stdRe K k) t (stdText P K x A)) = _
    unfold stdText
    rw [hsub]
    exact pass_still hu (settled_still cy []) (fun q hq => sane q (by simp [hq])) (fun _ _ _ _ => .inl (by simp))
  have h2 : Repl.pass (engine u) typeList (stdText P K x A) = P ++ (y ++ A) := by
    rw [pass_rules u typeList read_type, p1]
  rw [apply_once, h2]
  rw [h2, pass_rules u typeList read_type, typeRules_eq]
  exact pass_still hu (settled_still cy []) typeKinds_sane (fun _ _ _ _ => .inl (by simp))

/-! ### Each template -/

/-- The names before a place in the list of rules (a check). -/
def firstB (n : Nat) (K : Str) : Bool := (typeKinds.take n).all (fun k => match k with | .std K' _ _ => decide (K' ≠ K) | _ => true)

theorem first_of {n : Nat} {K : Str} (h : firstB n K = true) : ∀ K' r t', .std K' r t' ∈ typeKinds.take n → K' ≠ K := by
  intro K' r t' hm
  unfold firstB at h
  rw [List.all_eq_true] at h
  exact of_decide_eq_true (h _ hm)

theorem split_at {α : Type} : ∀ {l : List α} {n : Nat} {a : α}, l[n]? = some a → l = l.take n ++ a :: l.drop (n + 1)
  | [], n, a, h => by simp at h
  | x :: l, 0, a, h => by simp at h; simp [h]
  | x :: l, n + 1, a, h => by
    have := split_at (l := l) (n := n) (a := a) (by simpa using h)
    rw [List.take_succ_cons, List.drop_succ_cons, List.cons_append, ← this]

theorem expand_append (c : List (Nat × Str)) (s t : List Tok) : expand c (s ++ t) = expand c s ++ expand c t := List.flatMap_append

theorem expand_one (c : List (Nat × Str)) (x : Str) : expand ((1, x) :: c) [.ref 1] = x := List.append_nil _
theorem expand_two1 (x y : Str) : expand [(2, y), (1, x)] [.ref 1] = x := List.append_nil _
theorem expand_two2 (x y : Str) : expand [(2, y), (1, x)] [.ref 2] = y := List.append_nil _

theorem apply_wraps {u : Char → Bool} (hu : SpaceApart u) {P K x A y : Str} (hw : Wraps K x y) (hP : ¬ EndsInWord u P) (cP : Settled u P) (cx : Settled u x)
    (cA : Settled u A) (cy : Settled u (P ++ (y ++ A))) : Repl.apply (engine u) typeList (stdText P K x A) = P ++ (y ++ A) := by
  have e : ∀ z : Str, '<' :: (z ++ ['>']) ++ A = '<' :: (z ++ '>' :: A) := fun z => by simp
  have hgt : ∀ z : Str, (∀ c ∈ z, c ∈ x) → '>' ∉ z ∧ '\n' ∉ z := fun z hz =>
    ⟨fun h => (cx.chars _ (hz _ h)).2.2.2.1 rfl, fun h => (cx.chars _ (hz _ h)).2.2.2.2 rfl⟩
  have hA : '>' ∉ A := fun h => (cA.chars _ h).2.2.2.1 rfl
  have st : ∀ k, stopsB k = true → Stops u k := fun k h => stops_of hu h
  cases hw with
  | unique =>
    exact apply_std hu (by decide +kernel) hP cP cx cA cy (split_at (n := 25) rfl) (first_of (by decide +kernel)) (st _ rfl)
      (fun p => by rw [e]; exact first_angle (hgt x (fun _ h => h)).1 (hgt x (fun _ h => h)).2) (expand_one _ _)
  | shared =>
    exact apply_std hu (by decide +kernel) hP cP cx cA cy (split_at (n := 26) rfl) (first_of (by decide +kernel)) (st _ rfl)
      (fun p => by rw [e]; exact first_angle (hgt x (fun _ h => h)).1 (hgt x (fun _ h => h)).2) (expand_one _ _)
  | vector =>
    exact apply_std hu (by decide +kernel) hP cP cx cA cy (split_at (n := 27) rfl) (first_of (by decide +kernel)) (st _ rfl)
      (fun p => by rw [e]; exact first_vector (hgt x (fun _ h => h)).1 (hgt x (fun _ h => h)).2)
      (by rw [expand_append, expand_append, expand_litTmpl, expand_litTmpl, expand_one])
  | array x n h1 h2 =>
    exact apply_std hu (by decide +kernel) hP cP cx cA cy (split_at (n := 28) rfl) (first_of (by decide +kernel)) (st _ rfl)
      (fun p => by
        rw [e, List.append_assoc, List.cons_append]
        exact first_array h1 (hgt x (fun _ h => by simp [h])).2 (hgt n (fun _ h => by simp [h])).1 (hgt n (fun _ h => by simp [h])).2)
      (by rw [expand_append, expand_append, expand_litTmpl, expand_litTmpl, expand_two1])
  | tuple =>
    exact apply_std hu (by decide +kernel) hP cP cx cA cy (split_at (n := 29) rfl) (first_of (by decide +kernel)) (st _ rfl)
      (fun p => by rw [e]; exact first_angle (hgt x (fun _ h => h)).1 (hgt x (fun _ h => h)).2)
      (by rw [expand_append, expand_append, expand_litTmpl, expand_litTmpl, expand_one])
  | pair =>
    exact apply_std hu (by decide +kernel) hP cP cx cA cy (split_at (n := 30) rfl) (first_of (by decide +kernel)) (st _ rfl)
      (fun p => by rw [e]; exact first_angle (hgt x (fun _ h => h)).1 (hgt x (fun _ h => h)).2)
      (by rw [expand_append, expand_append, expand_litTmpl, expand_litTmpl, expand_one])
  | variant =>
    exact apply_std hu (by decide +kernel) hP cP cx cA cy (split_at (n := 31) rfl) (first_of (by decide +kernel)) (st _ rfl)
      (fun p => by rw [e]; exact first_angle (hgt x (fun _ h => h)).1 (hgt x (fun _ h => h)).2)
      (by rw [expand_append, expand_append, expand_litTmpl, expand_litTmpl, expand_one])
  | optional =>
    exact apply_std hu (by decide +kernel) hP cP cx cA cy (split_at (n := 32) rfl) (first_of (by decide +kernel)) (st _ rfl)
      (fun p => by rw [e]; exact first_angle (hgt x (fun _ h => h)).1 (hgt x (fun _ h => h)).2)
      (by rw [expand_append, expand_append, expand_litTmpl, expand_litTmpl, expand_one])
  | map k v h1 =>
    exact apply_std hu (by decide +kernel) hP cP cx cA cy (split_at (n := 33) rfl) (first_of (by decide +kernel)) (st _ rfl)
      (fun p => by
        rw [e, List.append_assoc, List.cons_append]
        exact first_map h1 (hgt k (fun _ h => by simp [h])).2 (hgt v (fun _ h => by simp [h])).1 (hgt v (fun _ h => by simp [h])).2)
      (by rw [expand_append, expand_append, expand_append, expand_append, expand_litTmpl, expand_litTmpl, expand_litTmpl, expand_two1, expand_two2])
  | function r ps h1 h2 =>
    exact apply_std hu (by decide +kernel) hP cP cx cA cy (split_at (n := 21) rfl) (first_of (by decide +kernel)) (st _ rfl)
      (fun p => by
        rw [e]
        exact first_function h1 h2 (hgt r (fun _ h => by simp [h])).1 (hgt ps (fun _ h => by simp [h])).1 hA
          (hgt r (fun _ h => by simp [h])).2 (hgt ps (fun _ h => by simp [h])).2)
      (by rw [expand_append, expand_append, expand_append, expand_append, expand_litTmpl, expand_litTmpl, expand_litTmpl, expand_two1, expand_two2])

/-- A text between a literal that does not end in a word and another that does not begin with one. -/
theorem settled_lit {u : Char → Bool} {a y b : Str} (ha : settledB a = true) (hy : Settled u y) (hb : Settled u b) (h1 : ¬ EndsInWord u a) (h2 : ¬ BeginsWithWord u b) :
    Settled u (a ++ y ++ b) := settled_mid (settled_of ha) hy hb h1 h2

theorem ends_lit {u : Char → Bool} {a : Str} (h : a.getLast? = some '[') : ¬ EndsInWord u a := by
  rintro ⟨c, hc, hw⟩
  rw [h] at hc
  cases hc
  cases hw

theorem ends_blank {u : Char → Bool} (hu : SpaceApart u) {a : Str} (h : a.getLast? = some ' ') : ¬ EndsInWord u a := by
  rintro ⟨c, hc, hw⟩
  rw [h] at hc
  cases hc
  rw [hu ' ' isSpace_blank] at hw
  cases hw

theorem begins_lit {u : Char → Bool} {c : Char} {s : Str} (h : isWordChar u c = false) : ¬ BeginsWithWord u (c :: s) := by
  rw [begins_cons, h]
  exact Bool.false_ne_true

theorem settled_wraps {u : Char → Bool} (hu : SpaceApart u) {K x y : Str} (hw : Wraps K x y) (cx : Settled u x) : Settled u y := by
  have one : ∀ (a z : Str), settledB a = true → a.getLast? = some '[' → Settled u z → Settled u (a ++ z ++ "]".toList) := fun a z h1 h2 h3 =>
    settled_lit h1 h3 (settled_of (by decide +kernel)) (ends_lit h2) (begins_lit rfl)
  have two : ∀ (a z m w : Str), settledB a = true → a.getLast? = some '[' → settledB m = true → (¬ BeginsWithWord u m ∧ ¬ EndsInWord u m ∧ m ≠ []) → Settled u z → Settled u w →
      Settled u (a ++ z ++ m ++ w ++ "]".toList) := by
    intro a z m w h1 h2 h3 h4 h5 h6
    have c1 : Settled u (m ++ w ++ "]".toList) := settled_lit h3 h6 (settled_of (by decide +kernel)) h4.2.1 (begins_lit rfl)
    have := settled_lit h1 h5 c1 (ends_lit h2) (by
      obtain ⟨h7, _, h9⟩ := h4
      cases m with
      | nil => exact absurd rfl h9
      | cons c m => rw [List.append_assoc, List.cons_append, begins_cons]; rwa [begins_cons] at h7)
    simpa only [List.append_assoc] using this
  cases hw with
  | unique => exact cx
  | shared => exact cx
  | vector => exact one _ _ (by decide +kernel) (by decide +kernel) (settled_strip hu cx)
  | array x n h1 h2 => exact one _ _ (by decide +kernel) (by decide +kernel) (settled_strip hu (settled_sep rfl cx).1)
  | tuple => exact one _ _ (by decide +kernel) (by decide +kernel) cx
  | pair => exact one _ _ (by decide +kernel) (by decide +kernel) cx
  | variant => exact one _ _ (by decide +kernel) (by decide +kernel) cx
  | optional => exact one _ _ (by decide +kernel) (by decide +kernel) cx
  | map k v h1 =>
    refine two _ _ _ _ (by decide +kernel) (by decide +kernel) (by decide +kernel) ⟨begins_lit rfl, ?_, by decide⟩ (settled_strip hu (settled_sep rfl cx).1)
      (settled_strip hu (settled_sep rfl cx).2)
    exact ends_blank hu (by decide)
  | function r ps h1 h2 =>
    have c1 := settled_sep (a := r ++ '(' :: ps) (b := []) (c := ')') rfl cx
    have c2 := settled_sep rfl c1.1
    refine two _ _ _ _ (by decide +kernel) (by decide +kernel) (by decide +kernel) ⟨begins_lit rfl, ?_, by decide⟩ c2.2 c2.1
    exact ends_blank hu (by decide)

/-! ### Before the template -/

theorem lexed_tail {u : Char → Bool} {t : TTok} {l : List TTok} (h : TLexed u (t :: l)) : TLexed u l := by
  cases t with
  | word w => exact h.2.2.2.2.2
  | known p => exact h.2.2.2.2.2
  | sep c => exact h.2.2.2.2.2.2

theorem apart_prefix {a b : List TTok} (h : TApart (a ++ b)) : TApart a :=
  ⟨fun w m e => h.1 w (m ++ b) (by rw [e]; rfl), fun p m e => h.2 p (m ++ b) (by rw [e]; rfl)⟩

theorem lexed_prefix {u : Char → Bool} {b : List TTok} : ∀ {a : List TTok}, TLexed u (a ++ b) → TLexed u a
  | [], _ => trivial
  | .word w :: a, h => ⟨h.1, h.2.1, h.2.2.1, apart_prefix h.2.2.2.1,
      fun hw m => ⟨fun e => (h.2.2.2.2.1 hw (m ++ b)).1 (by rw [e]; rfl), fun e => (h.2.2.2.2.1 hw (m ++ b)).2 (by rw [e]; rfl)⟩, lexed_prefix h.2.2.2.2.2⟩
  | .known p :: a, h => ⟨h.1, apart_prefix h.2.1, fun hp m e => h.2.2.1 hp (m ++ b) (by rw [e]; rfl), fun m e => h.2.2.2.1 (m ++ b) (by rw [e]; rfl),
      fun q m e => h.2.2.2.2.1 q (m ++ b) (by rw [e]; rfl), lexed_prefix h.2.2.2.2.2⟩
  | .sep c :: a, h => ⟨h.1, h.2.1, h.2.2.1, h.2.2.2.1, fun hc m e => h.2.2.2.2.1 hc (m ++ b) (by rw [e]; rfl),
      fun hc => apart_prefix (h.2.2.2.2.2.1 hc), lexed_prefix h.2.2.2.2.2.2⟩

/-- What comes before a name of several words does not end in a word. -/
theorem before_known {u : Char → Bool} {p : Str} : ∀ {pre : List TTok}, TLexed u (pre ++ [.known p]) → ¬ EndsInWord u (pyFlat pre) := by
  intro pre h
  rcases List.eq_nil_or_concat pre with rfl | ⟨l, t, rfl⟩
  · rintro ⟨c, hc, _⟩
    cases hc
  · rw [List.concat_eq_append] at *
    have h2 : TLexed u (t :: [.known p]) := by
      rw [List.append_assoc] at h
      exact lexed_suffix h
    cases t with
    | word w => exact absurd rfl (h2.2.2.2.1.2 p [])
    | known q => exact absurd rfl (h2.2.1.2 p [])
    | sep c =>
      have hc : ¬ (c = '&' ∨ c = '*') := fun hc => (h2.2.2.2.2.2.1 hc).2 p [] rfl
      have e : pyFlat (l ++ [.sep c]) = pyFlat l ++ [c] := by
        unfold pyFlat
        rw [List.flatMap_append, List.flatMap_singleton, TTok.py, if_neg hc]
      rw [e]
      exact ends_sep h2.1 _

theorem text_no_angle {u : Char → Bool} {l : List TTok} (hl : TLexed u l) : '<' ∉ ttext l := by
  intro h
  obtain ⟨t, ht, h⟩ := List.mem_flatMap.1 h
  cases t with
  | word w =>
    have := (lexed_word hl ht).1.2 '<' h
    cases this
  | known p =>
    have hk : ∀ p ∈ knownNames, '<' ∉ p := by decide +kernel
    exact hk p (lexed_known hl ht) h
  | sep c =>
    cases List.mem_singleton.1 h
    exact (lexed_sep hl ht).2.2.1 rfl

/-! ### The translation -/

theorem map_square {s : Str} (h : '<' ∉ s) (h' : '>' ∉ s) : s.map TArgs.square = s := by
  induction s with
  | nil => rfl
  | cons c s ih =>
    rw [List.map_cons, ih (fun x => h (by simp [x])) (fun x => h' (by simp [x]))]
    congr 1
    unfold TArgs.square
    rw [if_neg (fun e => h (by simp [e])), if_neg (fun e => h' (by simp [e]))]

theorem finish_calm {u : Char → Bool} {s : Str} (h : Settled u s) : TArgs.finish s = tidy s := by
  unfold TArgs.finish tidy
  rw [← TArgs.strip_squeeze]
  rw [TArgs.replace_square, map_square (fun x => (h.chars _ x).2.2.1 rfl) (fun x => (h.chars _ x).2.2.2.1 rfl)]

theorem apply_calm {u : Char → Bool} (hu : SpaceApart u) {s : Str} (h : Still u [] s) : Repl.apply (engine u) typeList s = s := by
  have h1 : Repl.pass (engine u) typeList s = s := by
    rw [pass_rules u typeList read_type, typeRules_eq]
    exact pass_still hu h typeKinds_sane (fun _ _ _ _ => .inl (by simp))
  rw [apply_once, h1]
  rw [h1, h1]

/-- **A type is translated to its Python.** -/
theorem translate_translates {u : Char → Bool} (hu : SpaceApart u) {s r : Str} (h : Translates u s r) :
    TArgs.translate (Repl.apply (engine u) typeList) s = .ok r ∧ Settled u r := by
  induction h with
  | flat l hl hn =>
    refine ⟨?_, settled_flat hu hl hn⟩
    rw [TArgs.Props.C41_plain _ _ (text_no_angle hl), apply_flat hu hl]
  | std s before a after x y K pre post hcut hK hb hlb hnb ha hla hna hbw _ hw ih =>
    obtain ⟨ih1, cx⟩ := ih
    have hlp : TLexed u post := hla
    have hP := before_known hlb
    have hK2 : TTok.py (.known ("std::".toList ++ K)) = "std::".toList ++ K := known_self _ (List.mem_map.2 ⟨K, hK, rfl⟩)
    have e1 : pyFlat (pre ++ [.known ("std::".toList ++ K)]) = pyFlat pre ++ ("std::".toList ++ K) := by
      unfold pyFlat
      rw [List.flatMap_append, List.flatMap_singleton, hK2]
    have cP : Settled u (pyFlat pre) := by
      exact settled_flat hu (lexed_prefix hlb) hnb
    have cA := settled_flat hu hla hna
    have cy : Settled u (pyFlat pre ++ (y ++ pyFlat post)) := by
      rw [← List.append_assoc]
      exact settled_mid cP (settled_wraps hu hw cx) cA hP hbw
    obtain ⟨x', hx', ht⟩ := TArgs.Props.C41_inside_out (Repl.apply (engine u) typeList) s before a after hcut
    rw [ih1] at hx'
    cases hx'
    refine ⟨?_, by rw [List.append_assoc]; exact settled_tidy hu cy⟩
    rw [ht, hb, ha, apply_flat hu hlb, apply_flat hu hla, e1]
    have e2 : pyFlat pre ++ ("std::".toList ++ K) ++ ['<'] ++ x ++ ['>'] ++ pyFlat post = stdText (pyFlat pre) K x (pyFlat post) := by
      unfold stdText
      have : "std::".toList = "std".toList ++ "::".toList := by decide +kernel
      rw [this]
      simp only [List.append_assoc, List.cons_append, List.nil_append]
    rw [e2, apply_wraps hu hw hP cP cx cA cy, finish_calm cy, List.append_assoc]
  | other s before a after x pre post hcut hb hlb hnb ha hla hna _ ih =>
    obtain ⟨ih1, cx⟩ := ih
    have cP := settled_flat hu hlb hnb
    have cA := settled_flat hu hla hna
    obtain ⟨x', hx', ht⟩ := TArgs.Props.C41_inside_out (Repl.apply (engine u) typeList) s before a after hcut
    rw [ih1] at hx'
    cases hx'
    have hwords : ∀ (c d : Char), isWordChar u c = false → isWordChar u d = false → ∀ w, .word w ∈ cut u (pyFlat pre ++ c :: x ++ d :: pyFlat post) →
        w ∉ banned ∧ w ≠ "std".toList := by
      intro c d hc hd w hw
      rw [cut_append_sep u d hd, cut_append_sep u c hc] at hw
      rcases List.mem_append.1 hw with hw | hw
      · rcases List.mem_append.1 hw with hw | hw
        · exact cP.words w hw
        · rcases List.mem_cons.1 hw with hw | hw
          · cases hw
          · exact cx.words w hw
      · rcases List.mem_cons.1 hw with hw | hw
        · cases hw
        · exact cA.words w hw
    have hchars : ∀ (c d e : Char), e ∈ pyFlat pre ++ c :: x ++ d :: pyFlat post → e = c ∨ e = d ∨ (e ≠ '&' ∧ e ≠ '*' ∧ e ≠ '<' ∧ e ≠ '>' ∧ e ≠ '\n') := by
      intro c d e he
      rcases List.mem_append.1 he with he | he
      · rcases List.mem_append.1 he with he | he
        · exact .inr (.inr (cP.chars e he))
        · rcases List.mem_cons.1 he with he | he
          · exact .inl he
          · exact .inr (.inr (cx.chars e he))
      · rcases List.mem_cons.1 he with he | he
        · exact .inr (.inl he)
        · exact .inr (.inr (cA.chars e he))
    have hcalm : Settled u (pyFlat pre ++ '[' :: x ++ ']' :: pyFlat post) := by
      refine ⟨hwords _ _ rfl rfl, fun c hc => ?_⟩
      rcases hchars _ _ _ hc with rfl | rfl | h
      · decide
      · decide
      · exact h
    have hstill : Still u [] (pyFlat pre ++ '<' :: x ++ '>' :: pyFlat post) := by
      refine ⟨fun w hw => (hwords _ _ rfl rfl w hw).1, fun X v Y e => absurd rfl (hwords _ _ rfl rfl "std".toList (by rw [e]; simp [stdPieces])).2, ?_, ?_⟩
      · intro h
        rcases hchars _ _ _ h with h | h | h
        · cases h
        · cases h
        · exact h.1 rfl
      · intro h
        rcases hchars _ _ _ h with h | h | h
        · cases h
        · cases h
        · exact h.2.1 rfl
    refine ⟨?_, settled_tidy hu hcalm⟩
    have e2 : pyFlat pre ++ ['<'] ++ x ++ ['>'] ++ pyFlat post = pyFlat pre ++ '<' :: x ++ '>' :: pyFlat post := by
      simp only [List.append_assoc, List.cons_append, List.nil_append]
    rw [ht, hb, ha, apply_flat hu hlb, apply_flat hu hla, e2, apply_calm hu hstill]
    unfold TArgs.finish tidy
    rw [← TArgs.strip_squeeze]
    have sq : ∀ z : Str, Settled u z → z.map TArgs.square = z := fun z hz => map_square (fun h => (hz.chars _ h).2.2.1 rfl) (fun h => (hz.chars _ h).2.2.2.1 rfl)
    rw [TArgs.replace_square, List.map_append, List.map_append, List.map_cons, List.map_cons, sq _ cP, sq _ cx, sq _ cA]
    rfl

end Verif.Re
