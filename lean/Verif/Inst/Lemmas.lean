import Verif.Inst.Spec
import Verif.Py.StrLemmas

/-! Cutting texts into words. -/

namespace Verif.Inst
open Verif.Py Verif.Type Verif.Inst.Spec
open Verif.Scope (isWordChar)

def addChar (c : Char) : List Piece → List Piece
  | .word w :: l => .word (c :: w) :: l
  | l => .word [c] :: l

/-- The words of a text. -/
def cut (u : Char → Bool) : Str → List Piece
  | [] => []
  | c :: s => if isWordChar u c then addChar c (cut u s) else .sep c :: cut u s

theorem text_nil : text [] = [] := rfl
theorem text_cons (p : Piece) (l : List Piece) : text (p :: l) = p.text ++ text l := List.flatMap_cons
theorem text_append (l m : List Piece) : text (l ++ m) = text l ++ text m := List.flatMap_append

theorem cut_addChar {u : Char → Bool} {c : Char} (hc : isWordChar u c = true) : ∀ {l : List Piece}, Cut u l → Cut u (addChar c l)
  | [], _ => ⟨by simp, by simpa using hc, by simp, trivial⟩
  | .sep d :: l, h => ⟨by simp, by simpa using hc, by simp, h⟩
  | .word w :: l, h => ⟨by simp, by
      intro x hx
      rcases List.mem_cons.1 hx with rfl | hx
      · exact hc
      · exact h.2.1 x hx, h.2.2.1, h.2.2.2⟩

theorem text_addChar (c : Char) : ∀ (l : List Piece), text (addChar c l) = c :: text l
  | [] => rfl
  | .sep d :: l => rfl
  | .word w :: l => rfl

theorem cut_spec (u : Char → Bool) (s : Str) : CutOf u s (cut u s) := by
  induction s with
  | nil => exact ⟨trivial, rfl⟩
  | cons c s ih =>
    unfold cut
    by_cases hc : isWordChar u c = true
    · rw [if_pos hc]
      exact ⟨cut_addChar hc ih.1, by rw [text_addChar, ih.2]⟩
    · rw [if_neg hc]
      exact ⟨⟨by simpa using hc, ih.1⟩, by rw [text_cons, ih.2]; rfl⟩

theorem cut_word {u : Char → Bool} {l : List Piece} (hl : ∀ v m, l ≠ .word v :: m) (s : Str) (hs : cut u s = l) :
    ∀ (w : Str), w ≠ [] → (∀ c ∈ w, isWordChar u c = true) → cut u (w ++ s) = .word w :: l
  | [], h, _ => absurd rfl h
  | [c], _, h => by
    show (if isWordChar u c then addChar c (cut u s) else _) = _
    rw [if_pos (h c (by simp)), hs]
    match l, hl with
    | [], _ => rfl
    | .sep d :: l, _ => rfl
    | .word v :: m, hl => exact absurd rfl (hl v m)
  | c :: d :: w, _, h => by
    show (if isWordChar u c then addChar c (cut u (d :: w ++ s)) else _) = _
    rw [if_pos (h c (by simp)), cut_word hl s hs (d :: w) (by simp) (fun x hx => h x (by simp [hx]))]
    rfl

theorem cut_text {u : Char → Bool} : ∀ {l : List Piece}, Cut u l → cut u (text l) = l
  | [], _ => rfl
  | .sep c :: l, h => by
    show (if isWordChar u c then _ else _) = _
    rw [if_neg (by simp [h.1])]
    show _ :: cut u (text l) = _
    rw [cut_text h.2]
  | .word w :: l, h => by
    rw [text_cons]
    exact cut_word h.2.2.1 _ (cut_text h.2.2.2) w h.1 h.2.1

theorem cutOf_eq {u : Char → Bool} {s : Str} {l : List Piece} (h : CutOf u s l) : l = cut u s := by
  rw [← h.2, cut_text h.1]

theorem hasWord_iff (u : Char → Bool) (name s : Str) : HasWord u name s ↔ .word name ∈ cut u s :=
  ⟨fun ⟨l, h, hm⟩ => cutOf_eq h ▸ hm, fun h => ⟨_, cut_spec u s, h⟩⟩

instance (u : Char → Bool) (name s : Str) : Decidable (HasWord u name s) := decidable_of_iff _ (hasWord_iff u name s).symm

/-- Replace `name` by `by_`. -/
def put (name by_ w : Str) : Str := if w = name then by_ else w

def ap (f : Str → Str) : Piece → Piece
  | .word w => .word (f w)
  | .sep c => .sep c

/-- The text where the words are renamed. -/
def ren (u : Char → Bool) (f : Str → Str) (s : Str) : Str := text ((cut u s).map (ap f))

theorem renamed_iff (u : Char → Bool) (f : Str → Str) (s s' : Str) : Renamed u f s s' ↔ s' = ren u f s :=
  ⟨fun ⟨l, h, hm⟩ => by rw [hm, cutOf_eq h]; rfl, fun h => ⟨_, cut_spec u s, h⟩⟩

theorem text_ap (f : Str → Str) (l : List Piece) : text (l.map (ap f)) = l.flatMap (fun | .word w => f w | .sep c => [c]) := by
  induction l with
  | nil => rfl
  | cons p l ih =>
    rw [List.map_cons, text_cons, ih, List.flatMap_cons]
    cases p <;> rfl

theorem ren_congr {u : Char → Bool} {f g : Str → Str} {s : Str} (h : ∀ w, .word w ∈ cut u s → f w = g w) : ren u f s = ren u g s := by
  unfold ren
  congr 1
  apply List.map_congr_left
  intro p hp
  cases p with
  | sep c => rfl
  | word w => exact congrArg _ (h w hp)

theorem ren_id (u : Char → Bool) (s : Str) : ren u (fun w => w) s = s := by
  unfold ren
  have : (cut u s).map (ap fun w => w) = cut u s := by
    conv => rhs; rw [← List.map_id (cut u s)]
    apply List.map_congr_left
    intro p _
    cases p <;> rfl
  rw [this, (cut_spec u s).2]

theorem ren_unchanged {u : Char → Bool} {name by_ s : Str} (h : ¬ HasWord u name s) : ren u (put name by_) s = s := by
  conv => rhs; rw [← ren_id u s]
  apply ren_congr
  intro w hw
  unfold put
  rw [if_neg]
  rintro rfl
  exact h ((hasWord_iff _ _ _).2 hw)

theorem ident_cut {u : Char → Bool} {w : Str} (h : Ident u w) : cut u w = [.word w] := by
  have := cut_word (u := u) (l := []) (by simp) [] rfl w h.1 h.2
  rwa [List.append_nil] at this

theorem word_ident {u : Char → Bool} {w : Str} : ∀ {l : List Piece}, Cut u l → .word w ∈ l → Ident u w
  | [], _, hm => by simp at hm
  | .sep c :: l, h, hm => word_ident h.2 (by simpa using hm)
  | .word v :: l, h, hm => by
    rcases List.mem_cons.1 hm with e | hm
    · injection e with e; subst e; exact ⟨h.1, h.2.1⟩
    · exact word_ident h.2.2.2 hm

/-! Words of a renamed text. -/

theorem cut_append_sep (u : Char → Bool) (c : Char) (hc : isWordChar u c = false) (s t : Str) :
    cut u (s ++ c :: t) = cut u s ++ .sep c :: cut u t := by
  induction s with
  | nil =>
    show (if isWordChar u c then _ else _) = _
    rw [if_neg (by simp [hc])]; rfl
  | cons d s ih =>
    show (if isWordChar u d then addChar d (cut u (s ++ c :: t)) else .sep d :: cut u (s ++ c :: t)) =
      (if isWordChar u d then addChar d (cut u s) else .sep d :: cut u s) ++ _
    rw [ih]
    split
    · match cut u s with
      | [] => rfl
      | .sep _ :: _ => rfl
      | .word _ :: _ => rfl
    · rfl

theorem cut_ren (u : Char → Bool) (f : Str → Str) : ∀ {l : List Piece}, Cut u l →
    cut u (text (l.map (ap f))) = l.flatMap (fun | .word w => cut u (f w) | .sep c => [.sep c])
  | [], _ => rfl
  | .sep c :: l, h => by
    show cut u (c :: text (l.map (ap f))) = .sep c :: l.flatMap _
    rw [← cut_ren u f h.2]
    exact cut_append_sep u c h.1 [] _
  | [.word w], h => by
    show cut u (f w ++ []) = cut u (f w) ++ []
    simp
  | .word w :: .word v :: l, h => absurd rfl (h.2.2.1 v l)
  | .word w :: .sep c :: l, h => by
    show cut u (f w ++ c :: text (l.map (ap f))) = cut u (f w) ++ .sep c :: l.flatMap _
    rw [← cut_ren u f h.2.2.2.2]
    exact cut_append_sep u c h.2.2.2.1 _ _

theorem ren_ren (u : Char → Bool) (f g : Str → Str) (s : Str) : ren u g (ren u f s) = ren u (fun w => ren u g (f w)) s := by
  show text ((cut u (text ((cut u s).map (ap f)))).map (ap g)) = text ((cut u s).map (ap _))
  rw [cut_ren u f (cut_spec u s).1]
  generalize cut u s = l
  induction l with
  | nil => rfl
  | cons p l ih =>
    rw [List.flatMap_cons, List.map_append, text_append, ih, List.map_cons, text_cons]
    cases p <;> rfl

theorem hasWord_ren (u : Char → Bool) (f : Str → Str) (name s : Str) :
    HasWord u name (ren u f s) ↔ ∃ w, HasWord u w s ∧ HasWord u name (f w) := by
  rw [hasWord_iff]
  show _ ∈ cut u (text ((cut u s).map (ap f))) ↔ _
  rw [cut_ren u f (cut_spec u s).1, List.mem_flatMap]
  constructor
  · rintro ⟨p, hp, hm⟩
    cases p with
    | sep c => simp at hm
    | word w => exact ⟨w, (hasWord_iff _ _ _).2 hp, (hasWord_iff _ _ _).2 hm⟩
  · rintro ⟨w, hw, hm⟩
    exact ⟨.word w, (hasWord_iff _ _ _).1 hw, (hasWord_iff _ _ _).1 hm⟩

theorem ren_ident {u : Char → Bool} {f : Str → Str} {w : Str} (h : Ident u w) : ren u f w = f w := by
  unfold ren
  rw [ident_cut h]
  show f w ++ [] = _
  simp

theorem ren_sep (u : Char → Bool) (f : Str → Str) (l : List Piece) (c : Char) :
    text ((.sep c :: l).map (ap f)) = c :: text (l.map (ap f)) := rfl

/-! The replacement of the model is the replacement of words. -/

theorem startsWith_append (a b : Str) : startsWith (a ++ b) a = true := by
  unfold startsWith; simp

theorem subnAux_skip (u : Char → Bool) (name by_ : Str) (p : Bool) (s t : Str) (hs : s ≠ []) :
    subnAux u name by_ p s.length (s ++ t) = subnAux u name by_ (isWordChar u (s.getLast hs)) 0 t := by
  induction s generalizing p with
  | nil => exact absurd rfl hs
  | cons c s ih =>
    rw [List.length_cons, List.cons_append, subnAux]
    cases s with
    | nil => rfl
    | cons d s =>
      rw [ih _ (by simp)]
      rfl

theorem head_text {u : Char → Bool} {l : List Piece} (hl : ∀ v m, l ≠ .word v :: m) (h : Cut u l) :
    (text l).head?.any (isWordChar u) = false := by
  match l, hl, h with
  | [], _, _ => rfl
  | .sep c :: l, _, h =>
    show isWordChar u c = false
    exact h.1
  | .word v :: m, hl, _ => exact absurd rfl (hl v m)

theorem subnAux_word_rest {u : Char → Bool} (name by_ t : Str) (hn : name ≠ []) : ∀ (w : Str), (∀ c ∈ w, isWordChar u c = true) →
    subnAux u name by_ true 0 (w ++ t) = (w ++ (subnAux u name by_ true 0 t).1, (subnAux u name by_ true 0 t).2)
  | [], _ => by simp
  | c :: w, h => by
    have hc := h c (by simp)
    rw [List.cons_append, subnAux]
    simp only
    rw [if_neg (by simp [hc]), hc, subnAux_word_rest name by_ t hn w (fun x hx => h x (by simp [hx]))]
    rfl

theorem prefix_word {u : Char → Bool} {name w t : Str} (hn : Ident u name) (ht : t.head?.any (isWordChar u) = false)
    (h : startsWith (w ++ t) name = true) : ∃ v, w = name ++ v := by
  obtain ⟨v, hv⟩ := List.isPrefixOf_iff_prefix.1 h
  by_cases hle : name.length ≤ w.length
  · have hw : name <+: w := List.prefix_of_prefix_length_le ⟨v, hv⟩ (List.prefix_append w t) hle
    obtain ⟨x, hx⟩ := hw
    exact ⟨x, hx.symm⟩
  · exfalso
    have hw : w <+: name := List.prefix_of_prefix_length_le (List.prefix_append w t) ⟨v, hv⟩ (by omega)
    obtain ⟨x, rfl⟩ := hw
    have hx : x ++ v = t := by simpa using hv
    cases x with
    | nil => simp at hle
    | cons c x =>
      rw [← hx] at ht
      have : isWordChar u c = false := ht
      rw [hn.2 c (by simp)] at this
      simp at this

theorem subnAux_text {u : Char → Bool} {name by_ : Str} (hn : Ident u name) : ∀ (l : List Piece) (prev : Bool), Cut u l →
    (prev = true → ∀ v m, l ≠ .word v :: m) →
    subnAux u name by_ prev 0 (text l) = (text (l.map (ap (put name by_))), l.count (.word name))
  | [], prev, _, _ => by
    show (if name = [] ∧ _ then _ else _) = _
    rw [if_neg (by simp [hn.1])]; rfl
  | .sep c :: l, prev, h, _ => by
    have ih := subnAux_text (by_ := by_) hn l false h.2 (by simp)
    show subnAux u name by_ prev 0 (c :: text l) = _
    rw [subnAux]
    simp only
    have hns : startsWith (c :: text l) name = false := by
      apply Bool.eq_false_iff.2
      intro hs
      obtain ⟨v, hv⟩ := List.isPrefixOf_iff_prefix.1 hs
      cases hname : name with
      | nil => exact hn.1 hname
      | cons d n =>
        rw [hname] at hv
        injection hv with h1 _
        subst h1
        have := hn.2 d (by rw [hname]; simp)
        rw [h.1] at this
        simp at this
    rw [if_neg (by simp [hns]), h.1, ih]
    simp; rfl
  | .word w :: l, prev, h, hp => by
    have hprev : prev = false := by
      cases prev with
      | false => rfl
      | true => exact absurd rfl (hp rfl w l)
    subst hprev
    have ih := subnAux_text (by_ := by_) hn l true h.2.2.2 (fun _ => h.2.2.1)
    have hhead := head_text h.2.2.1 h.2.2.2
    obtain ⟨hw, hall, -, -⟩ := h
    cases w with
    | nil => exact absurd rfl hw
    | cons c w =>
      have hc := hall c (by simp)
      rw [text_cons]
      show subnAux u name by_ false 0 (c :: (w ++ text l)) = _
      rw [subnAux]
      simp only
      by_cases he : c :: w = name
      · rw [if_pos, if_neg hn.1]
        · have hlen : name.length - 1 = w.length := by rw [← he]; simp
          have hlen : subnAux u name by_ (isWordChar u c) (name.length - 1) (w ++ text l) = subnAux u name by_ true 0 (text l) := by
            rw [hlen, hc]
            cases w with
            | nil => rfl
            | cons d w =>
              rw [subnAux_skip _ _ _ _ (d :: w) _ (by simp), hall _ (List.mem_cons_of_mem _ (List.getLast_mem _))]
          rw [hlen, ih, he]
          simp [text_cons, ap, put, Piece.text]
        · refine ⟨by simp [hc], ?_, ?_⟩
          · show startsWith ((c :: w) ++ text l) name = true
            rw [he]; exact startsWith_append _ _
          · show _ ≠ (((c :: w) ++ text l).drop name.length).head?.any _
            rw [he, List.drop_left, hhead]
            cases hg : name.getLast? with
            | none => simp at hg; exact absurd hg hn.1
            | some d =>
              have := hn.2 d (List.mem_of_getLast? hg)
              simp [this]
      · rw [if_neg, hc, subnAux_word_rest _ _ _ hn.1 w (fun x hx => hall x (by simp [hx])), ih]
        · simp [text_cons, ap, put, Piece.text, he]
        · rintro ⟨-, h2, h3⟩
          obtain ⟨v, hv⟩ := prefix_word (w := c :: w) hn hhead h2
          cases v with
          | nil => exact he (by simpa using hv)
          | cons d v =>
            apply h3
            have hd := hall d (by rw [hv]; simp)
            show _ = (((c :: w) ++ text l).drop name.length).head?.any _
            rw [hv, List.append_assoc, List.drop_left]
            show _ = isWordChar u d
            rw [hd]
            cases hg : name.getLast? with
            | none => simp at hg; exact absurd hg hn.1
            | some x =>
              have := hn.2 x (List.mem_of_getLast? hg)
              simp [this]

theorem subn_ren {u : Char → Bool} {name : Str} (hn : Ident u name) (by_ s : Str) :
    subn u name by_ s = (ren u (put name by_) s, (cut u s).count (.word name)) := by
  have := subnAux_text (by_ := by_) hn (cut u s) false (cut_spec u s).1 (by simp)
  rw [(cut_spec u s).2] at this
  exact this

end Verif.Inst
