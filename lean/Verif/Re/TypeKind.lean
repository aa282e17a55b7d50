import Verif.Re.TypeQuiet

/-! The rules of the types by kinds, and the texts in which they find nothing. -/

namespace Verif.Re
open Verif.Py Spec Verif.Inst Verif.Inst.Spec
open Verif.Scope (isWordChar)

/-- The kinds of rules. -/
inductive Kind
  | two (A B v : Str)
  | word (h v : Str)
  | long (v : Str)
  | const1
  | const2
  | std (K : Str) (k : Re) (t : List Tok)
  | voidStar
  | ext (h : Str) (k : Re) (t : List Tok)
  | amp (c : Char)

/-- `\bstd::K` and what follows. -/
def stdRe (K : Str) (k : Re) : Re := .seq .wordB (lits "std".toList (lits "::".toList (lits K k)))

def Kind.rule : Kind → Re × List Tok
  | .two A B v => (twoRe A B, litTmpl v)
  | .word h v => (wordRe h, litTmpl v)
  | .long v => (wordRe "long".toList, litTmpl v)
  | .const1 => (constRe1, litTmpl "str".toList)
  | .const2 => (constRe2, litTmpl "str".toList)
  | .std K k t => (stdRe K k, t)
  | .voidStar => (.seq .wordB (lits "void".toList (.seq reS0 (.seq (.chr '*') .eps))), litTmpl "Any".toList)
  | .ext h k t => (.seq .wordB (lits h k), t)
  | .amp c => (lits [c] .eps, [])

/-- `<(.*?)>` -/
def angle : Re := .seq (.chr '<') (.seq (reLazy 1) (.seq (.chr '>') .eps))
/-- `\s*,\s*(.*?)\s*>` -/
def comma : Re := .seq reS0 (.seq (.chr ',') (.seq reS0 (.seq (reLazy 2) (.seq reS0 (.seq (.chr '>') .eps)))))

/-- The rules up to `const`. -/
def mainKinds : List Kind :=
  let L := fun s : String => litTmpl s.toList
  let t := fun s : String => s.toList
  [.two (t "unsigned") (t "int") (t "int"), .two (t "unsigned") (t "short") (t "int"), .two (t "unsigned") (t "long long") (t "int"),
   .two (t "unsigned") (t "long") (t "int"), .two (t "long") (t "long") (t "int"), .two (t "long") (t "double") (t "float"), .const1, .const2,
   .word (t "uint8_t") (t "int"), .word (t "int8_t") (t "int"), .word (t "uint16_t") (t "int"), .word (t "int16_t") (t "int"),
   .word (t "uint32_t") (t "int"), .word (t "int32_t") (t "int"), .word (t "uint64_t") (t "int"), .word (t "int64_t") (t "int"),
   .long (t "int"), .word (t "short") (t "int"), .word (t "double") (t "float"), .word (t "float") (t "float"), .word (t "size_t") (t "int"),
   .std (t "function") (.seq (.chr '<') (.seq (reGreedy 1) (.seq (.chr '(') (.seq (reGreedy 2) (lits ")>".toList .eps)))))
     (L "Callable[[" ++ [.ref 2] ++ L "], " ++ [.ref 1] ++ L "]"),
   .std (t "string_view") (.seq .wordB .eps) (L "str"), .std (t "string") (.seq (.chr '(') (.seq (.chr ')') .eps)) (L "\"\""),
   .std (t "string") (.seq .wordB .eps) (L "str"),
   .std (t "unique_ptr") angle [.ref 1], .std (t "shared_ptr") angle [.ref 1],
   .std (t "vector") (.seq reS0 (.seq (.chr '<') (.seq reS0 (.seq (reLazy 1) (.seq reS0 (.seq (.chr '>') .eps)))))) (L "List[" ++ [.ref 1] ++ L "]"),
   .std (t "array") (.seq reS0 (.seq (.chr '<') (.seq reS0 (.seq (reLazy 1) comma)))) (L "List[" ++ [.ref 1] ++ L "]"),
   .std (t "tuple") angle (L "Tuple[" ++ [.ref 1] ++ L "]"), .std (t "pair") angle (L "Tuple[" ++ [.ref 1] ++ L "]"),
   .std (t "variant") angle (L "Union[" ++ [.ref 1] ++ L "]"), .std (t "optional") angle (L "Optional[" ++ [.ref 1] ++ L "]"),
   .std (t "map") (.seq (.chr '<') (.seq reS0 (.seq (reLazy 1) comma))) (L "Dict[" ++ [.ref 1] ++ L ", " ++ [.ref 2] ++ L "]"),
   .voidStar, .word (t "void") (t "None"),
   .ext (t "py") (lits "::array".toList (.seq .wordB .eps)) (L "np.ndarray"), .ext (t "py") (lits "::ndarray".toList angle) (L "np.ndarray"),
   .ext (t "nb") (lits "::array".toList (.seq .wordB .eps)) (L "np.ndarray"), .ext (t "nb") (lits "::ndarray".toList angle) (L "np.ndarray")]

/-- The rules that remove. -/
def lastKinds : List Kind := [.word "const".toList [], .word "mutable".toList [], .amp '&', .amp '*']

def typeKinds : List Kind := mainKinds ++ lastKinds

theorem typeRules_eq : typeRules = typeKinds.map Kind.rule := by decide +kernel

/-! ### Cut of a text in two -/

theorem cut_two {u : Char → Bool} {a b : Str} (ha : ¬ EndsInWord u a) : cut u (a ++ b) = cut u a ++ cut u b := by
  rcases List.eq_nil_or_concat a with rfl | ⟨x, c, rfl⟩
  · rfl
  · have hc : isWordChar u c = false := by
      have : ¬ isWordChar u c = true := fun h => ha (by rw [List.concat_eq_append]; exact ends_concat.2 h)
      simpa using this
    rw [List.concat_eq_append, List.append_assoc]
    show cut u (x ++ c :: b) = _
    rw [cut_append_sep u c hc, cut_append_sep u c hc, List.append_assoc]
    rfl

theorem cut_sep {u : Char → Bool} {c : Char} (hc : isWordChar u c = false) (s : Str) : cut u (c :: s) = .sep c :: cut u s :=
  cut_append_sep u c hc [] s

/-- The pieces of `std::K`. -/
def stdPieces (K : Str) : List Piece := [.word "std".toList, .sep ':', .sep ':', .word K]

theorem colon_sep (u : Char → Bool) : isWordChar u ':' = false := rfl

theorem cut_std {u : Char → Bool} {K b : Str} (hK : Ident u K) (hb : ¬ BeginsWithWord u b) :
    cut u ("std".toList ++ ("::".toList ++ (K ++ b))) = stdPieces K ++ cut u b := by
  have h1 : cut u (K ++ b) = .word K :: cut u b := cut_word (cut_begins hb) _ rfl K hK.1 hK.2
  have h2 : cut u ("::".toList ++ (K ++ b)) = .sep ':' :: .sep ':' :: .word K :: cut u b := by
    show cut u (':' :: ':' :: (K ++ b)) = _
    rw [cut_sep (colon_sep u), cut_sep (colon_sep u), h1]
  rw [cut_word (by intro v m e; cases e) _ h2 _ (stdIdent u).1 (stdIdent u).2]
  rfl

/-- A match of a rule for `std::K`. -/
theorem std_occ {u : Char → Bool} {K : Str} {k : Re} (hK : Ident u K) (hk : Stops u k) {a m b : Str} {c c' : List (Nat × Str)}
    (h : Matches u (stdRe K k) a m b c c') : ∃ Y, cut u (a ++ (m ++ b)) = cut u a ++ (stdPieces K ++ Y) := by
  obtain ⟨m1, m2, k1, rfl, h1, h2⟩ := matches_seq h
  obtain ⟨rfl, _, hb⟩ := matches_wordB h1
  rw [List.append_nil] at h2
  obtain ⟨m3, rfl, h3⟩ := matches_lits _ h2
  obtain ⟨m4, rfl, h4⟩ := matches_lits _ h3
  obtain ⟨m5, rfl, h5⟩ := matches_lits _ h4
  have hn := hk _ _ _ _ _ (ends_append hK.1 hK.2) h5
  have ha : ¬ EndsInWord u a := fun ha => hb ⟨fun _ => by
    rw [List.append_assoc]
    exact begins_append (stdIdent u).1 (stdIdent u).2, fun _ => ha⟩
  refine ⟨cut u (m5 ++ b), ?_⟩
  rw [cut_two ha]
  congr 1
  rw [← cut_std hK hn]
  simp only [List.append_assoc, List.nil_append]

/-! ### Texts in which nothing is found -/

/-- The words at which a rule other than the ones for `std` begins. -/
def banned : List Str :=
  ["unsigned".toList, "long".toList, "const".toList, "uint8_t".toList, "int8_t".toList, "uint16_t".toList, "int16_t".toList, "uint32_t".toList,
   "int32_t".toList, "uint64_t".toList, "int64_t".toList, "short".toList, "double".toList, "size_t".toList, "void".toList, "py".toList, "nb".toList,
   "mutable".toList]

/-- No word at which a rule begins, `std::` only before names of the list. -/
structure Still (u : Char → Bool) (Ks : List Str) (s : Str) : Prop where
  words : ∀ w, .word w ∈ cut u s → w ∉ banned
  std : ∀ X v Y, cut u s = X ++ (stdPieces v ++ Y) → v ∈ Ks
  amp : '&' ∉ s
  star : '*' ∉ s

/-- What follows the word is not a word character (a check). -/
def stopsB : Re → Bool
  | .seq .wordB _ => true
  | .seq (.chr c) _ => decide (c.toNat < 128) && !isWordChar (fun _ => false) c
  | .seq (.star g r) (.seq (.chr c) _) => decide (r = reS) && g && decide (c.toNat < 128) && !isWordChar (fun _ => false) c
  | _ => false

theorem ascii_sep {u : Char → Bool} {c : Char} (h1 : c.toNat < 128) (h2 : isWordChar (fun _ => false) c = false) : isWordChar u c = false := by
  unfold isWordChar at h2 ⊢
  rw [if_pos h1] at h2 ⊢
  exact h2

theorem stops_of {u : Char → Bool} (hu : SpaceApart u) {k : Re} (h : stopsB k = true) : Stops u k := by
  unfold stopsB at h
  split at h
  · exact stops_wordB u _
  · rw [Bool.and_eq_true, Bool.not_eq_true'] at h
    exact stops_chr (ascii_sep (of_decide_eq_true h.1) h.2) _
  · rw [Bool.and_eq_true, Bool.and_eq_true, Bool.and_eq_true, Bool.not_eq_true'] at h
    obtain ⟨⟨⟨h1, h2⟩, h3⟩, h4⟩ := h
    rw [of_decide_eq_true h1]
    subst h2
    exact stops_space hu (chr_begins (ascii_sep (of_decide_eq_true h3) h4) _)
  · cases h

/-- All the characters are word characters of ASCII (a check). -/
def identB (w : Str) : Bool := decide (w ≠ []) && w.all (fun c => decide (c.toNat < 128) && isWordChar (fun _ => false) c)

theorem ident_of_B {u : Char → Bool} {w : Str} (h : identB w = true) : Ident u w := by
  unfold identB at h
  rw [Bool.and_eq_true, List.all_eq_true] at h
  refine ident_of (of_decide_eq_true h.1) (fun c hc => ?_)
  have := h.2 c hc
  rw [Bool.and_eq_true] at this
  exact ⟨of_decide_eq_true this.1, this.2⟩

/-- The word at which the rule begins is banned (a check). -/
def Kind.sane : Kind → Bool
  | .two A _ _ => identB A && decide (A ∈ banned)
  | .word h v => identB h && (decide (h ∈ banned) || decide (h = v))
  | .std K k _ => identB K && stopsB k
  | .ext h k _ => identB h && decide (h ∈ banned) && stopsB k
  | .amp c => decide (c = '&' ∨ c = '*')
  | _ => true

theorem typeKinds_sane : ∀ k ∈ typeKinds, k.sane = true := by
  rw [← List.all_eq_true]
  decide +kernel

theorem sub_std_absent {u : Char → Bool} {K : Str} {k : Re} (hK : Ident u K) (hk : Stops u k) (t : List Tok) {s : Str}
    (h : ∀ X Y, cut u s ≠ X ++ (stdPieces K ++ Y)) : sub u (stdRe K k) t s = s := by
  refine sub_quiet t (neverEmpty_lits (h := "std".toList) (by decide) _) ?_
  rintro x c y rfl m b' e ⟨c', hm⟩
  obtain ⟨Y, hY⟩ := std_occ hK hk hm
  rw [← e, List.append_nil, List.nil_append] at hY
  exact h _ _ hY

theorem headed_of {u : Char → Bool} {h : Str} (hh : identB h = true) {k : Re} (hk : Stops u k) : Headed u h (.seq .wordB (lits h k)) :=
  headed_lits (ident_of_B hh) hk

theorem longIdent (u : Char → Bool) : Ident u "long".toList := ident_of (by decide) (by decide)
theorem constIdent (u : Char → Bool) : Ident u "const".toList := ident_of (by decide) (by decide)

theorem sub_still {u : Char → Bool} (hu : SpaceApart u) {Ks : List Str} {s : Str} (h : Still u Ks s) {k : Kind} (hk : k.sane = true)
    (hs : ∀ K r t, k = .std K r t → K ∉ Ks ∨ (needs '<' r = true ∧ '<' ∉ s)) : sub u k.rule.1 k.rule.2 s = s := by
  cases k with
  | two A B v =>
    rw [Kind.sane, Bool.and_eq_true] at hk
    exact sub_absent_word (ident_of_B hk.1) (headed_of hk.1 (stops_chr (hu ' ' isSpace_blank) _)) (neverEmpty_lits (ident_of_B (u := u) hk.1).1 _) _
      (fun hm => h.words A hm (of_decide_eq_true hk.2))
  | word x v =>
    rw [Kind.sane, Bool.and_eq_true, Bool.or_eq_true] at hk
    rcases hk.2 with h1 | h1
    · exact sub_absent_word (ident_of_B hk.1) (headed_of hk.1 (stops_wordB u _)) (neverEmpty_lits (ident_of_B (u := u) hk.1).1 _) _
        (fun hm => h.words x hm (of_decide_eq_true h1))
    · have h1 := of_decide_eq_true h1
      subst h1
      show sub u (wordRe x) (litTmpl x) s = s
      rw [sub_renames (renames_wordRe (ident_of_B hk.1) _)]
      refine (ren_congr (g := fun w => w) (fun w _ => ?_)).trans (ren_id u s)
      unfold put
      split
      · next h => exact h.symm
      · rfl
  | long v =>
    exact sub_absent_word (longIdent u) (headed_lits (longIdent u) (stops_wordB u _)) (neverEmpty_lits (by decide) _) _
      (fun hm => h.words _ hm (by decide +kernel))
  | const1 =>
    refine sub_absent_word (constIdent u) ?_ (neverEmpty_lits (h := "const ".toList) (by decide) _) _ (fun hm => h.words _ hm (by decide +kernel))
    exact headed_lits (constIdent u) (stops_chr (hu ' ' isSpace_blank) _)
  | const2 =>
    refine sub_absent_word (constIdent u) ?_ (neverEmpty_lits (h := "const ".toList) (by decide) _) _ (fun hm => h.words _ hm (by decide +kernel))
    exact headed_lits (constIdent u) (stops_chr (hu ' ' isSpace_blank) _)
  | std K r t =>
    rw [Kind.sane, Bool.and_eq_true] at hk
    rcases hs K r t rfl with h1 | ⟨h1, h2⟩
    · exact sub_std_absent (ident_of_B hk.1) (stops_of hu hk.2) t (fun X Y e => h1 (h.std X K Y e))
    · refine sub_needs (c := '<') ?_ t h2
      exact needs_lits_right "std".toList (needs_lits_right "::".toList (needs_lits_right K h1))
  | voidStar =>
    exact sub_absent_word (voidIdent u) (headed_lits (voidIdent u) (stops_space hu (chr_begins rfl _))) (neverEmpty_lits (by decide) _) _
      (fun hm => h.words _ hm (by decide +kernel))
  | ext x r t =>
    rw [Kind.sane, Bool.and_eq_true, Bool.and_eq_true] at hk
    exact sub_absent_word (ident_of_B hk.1.1) (headed_of hk.1.1 (stops_of hu hk.2)) (neverEmpty_lits (ident_of_B (u := u) hk.1.1).1 _) _
      (fun hm => h.words x hm (of_decide_eq_true hk.1.2))
  | amp c =>
    refine sub_needs (c := c) (needs_lits (by simp) _) _ ?_
    rcases of_decide_eq_true hk with h1 | h1
    · rw [h1]; exact h.amp
    · rw [h1]; exact h.star

theorem passR_cons' (u : Char → Bool) (r : Re × List Tok) (rs : List (Re × List Tok)) (s : Str) : passR u (r :: rs) s = passR u rs (sub u r.1 r.2 s) := rfl

/-- Nothing is found by all the rules. -/
theorem pass_still {u : Char → Bool} (hu : SpaceApart u) {Ks : List Str} {s : Str} (h : Still u Ks s) : ∀ {ks : List Kind}, (∀ k ∈ ks, k.sane = true) →
    (∀ K r t, .std K r t ∈ ks → K ∉ Ks ∨ (needs '<' r = true ∧ '<' ∉ s)) → passR u (ks.map Kind.rule) s = s
  | [], _, _ => rfl
  | k :: ks, hk, hs => by
    rw [List.map_cons, passR_cons', sub_still hu h (hk k (by simp)) (fun K r t e => hs K r t (by simp [e]))]
    exact pass_still hu h (fun x hx => hk x (by simp [hx])) (fun K r t e => hs K r t (by simp [e]))

end Verif.Re
