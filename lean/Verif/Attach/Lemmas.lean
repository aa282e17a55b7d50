import Verif.Py.StrLemmas
import Verif.Attach.Spec
import Mathlib.Data.List.Forall2

namespace Verif.Attach
open Verif.Py Spec

theorem emptyLineComment_eq : "// _SRCML_EMPTY_LINE_".toList = emptyLineComment := rfl
theorem newLineToken_eq : "_SRCML_LINEFEED_".toList = newLineToken := rfl

theorem topText_eq (s : Str) : topText s = suppressMarks s := rfl

/-! ### attachment, by windows -/

def eolAt (p : Option Child) (c : Child) : Bool := match p with | none => false | some p => eolPair p c

def topAt (p : Option Child) (c : Child) (rest : List Child) : Bool :=
  match rest with
  | [] => false
  | n :: rest' => if eolAt p c then false else onPreviousLine c n rest'.head?

theorem isEol_window (pre : List Child) (c : Child) (rest : List Child) :
    isCommentEndOfLine (pre ++ c :: rest) pre.length = eolAt pre.getLast? c := by
  rcases List.eq_nil_or_concat pre with h | ⟨l, x, h⟩
  · subst h; rfl
  · subst h
    simp only [List.concat_eq_append, List.length_append, List.length_cons, List.length_nil, Nat.zero_add]
    unfold isCommentEndOfLine
    simp only [List.append_assoc, List.cons_append, List.nil_append]
    have h1 : (l ++ x :: c :: rest)[l.length]? = some x := by simp
    have h2 : (l ++ x :: c :: rest)[l.length + 1]? = some c := by
      rw [List.getElem?_append_right (by omega)]; simp
    rw [h1, h2]
    simp [eolAt]

theorem isTop_window (pre : List Child) (c : Child) (rest : List Child) :
    isCommentOnPreviousLine (pre ++ c :: rest) pre.length = topAt pre.getLast? c rest := by
  unfold isCommentOnPreviousLine
  rw [isEol_window]
  have h1 : (pre ++ c :: rest)[pre.length]? = some c := by simp
  have h2 : (pre ++ c :: rest)[pre.length + 1]? = rest.head? := by
    rw [List.getElem?_append_right (by omega)]; cases rest <;> simp
  have h3 : (pre ++ c :: rest)[pre.length + 2]? = rest.tail.head? := by
    rw [List.getElem?_append_right (by omega)]
    cases rest with
    | nil => simp
    | cons a as => cases as <;> simp
  rw [h1, h2, h3]
  cases rest <;> rfl

def topStr (pp p : Option Child) (s : List Child) : Str :=
  match p with | none => [] | some q => if topAt pp q s then q.textD else []

def eolStr (c : Child) (rest : List Child) : Str :=
  match rest with | [] => [] | d :: _ => if eolPair c d then d.textD else []

/-- One element of the loop, by its neighbours. -/
def one (pp p : Option Child) (c : Child) (rest : List Child) : Option Out :=
  if topAt p c rest then none
  else if eolAt p c then none else some ⟨c, suppressMarks (topStr pp p (c :: rest)), eolStr c rest⟩

theorem topOf_window (pre : List Child) (c : Child) (rest : List Child) :
    topOf (pre ++ c :: rest) pre.length = topStr pre.dropLast.getLast? pre.getLast? (c :: rest) := by
  rcases List.eq_nil_or_concat pre with h | ⟨l, x, h⟩
  · subst h; rfl
  · subst h
    simp only [List.concat_eq_append, List.length_append, List.length_cons, List.length_nil, Nat.zero_add,
      List.append_assoc, List.cons_append, List.nil_append]
    unfold topOf textAt
    have h1 : (l ++ x :: c :: rest)[l.length]? = some x := by simp
    have h2 := isTop_window l x (c :: rest)
    simp only [h1, h2]
    simp [topStr]

theorem eolOf_window (pre : List Child) (c : Child) (rest : List Child) :
    eolOf (pre ++ c :: rest) pre.length = eolStr c rest := by
  unfold eolOf textAt
  cases rest with
  | nil => simp [isCommentEndOfLine, eolStr]
  | cons d ds =>
    have h := isEol_window (pre ++ [c]) d ds
    simp only [List.append_assoc, List.cons_append, List.nil_append, List.length_append,
      List.length_cons, List.length_nil, Nat.zero_add] at h
    have hd : (pre ++ c :: d :: ds)[pre.length + 1]? = some d := by
      rw [List.getElem?_append_right (by omega)]; simp
    rw [h, hd]
    simp [eolAt, eolStr]

theorem attachOne_eq (pre : List Child) (c : Child) (rest : List Child) :
    attachOne (pre ++ c :: rest) pre.length c = one pre.dropLast.getLast? pre.getLast? c rest := by
  unfold attachOne one
  rw [isTop_window, isEol_window, topOf_window, eolOf_window]

def go : Option Child → Option Child → List Child → List Out
  | _, _, [] => []
  | pp, p, c :: rest => (one pp p c rest).toList ++ go p (some c) rest

theorem go_cons (pp p : Option Child) (c : Child) (rest : List Child) :
    go pp p (c :: rest) = (one pp p c rest).toList ++ go p (some c) rest := rfl

theorem attach_eq_go (children : List Child) : attach children = go none none children := by
  have key : ∀ (rest pre : List Child),
      ((rest.zipIdx pre.length).filterMap (fun p => attachOne (pre ++ rest) p.2 p.1)) =
        go pre.dropLast.getLast? pre.getLast? rest := by
    intro rest
    induction rest with
    | nil => intro pre; rfl
    | cons c rest ih =>
      intro pre
      rw [List.zipIdx_cons, List.filterMap_cons]
      have h := ih (pre ++ [c])
      simp only [List.append_assoc, List.cons_append, List.nil_append, List.length_append,
        List.length_cons, List.length_nil, Nat.zero_add, List.dropLast_concat] at h
      rw [h, attachOne_eq, go_cons]
      simp only [List.getLast?_append, List.getLast?_singleton, Option.some_or]
      cases one pre.dropLast.getLast? pre.getLast? c rest <;> simp
  have := key children []
  simpa [attach] using this

theorem eolPair_tags {a b : Child} (h : eolPair a b = true) :
    b.isComment = true ∧ a.isComment = false ∧ b.start = a.stop := by
  simp [eolPair] at h
  exact ⟨h.1.1.1, h.1.1.2, h.2⟩

theorem onPrev_tags {c n : Child} {m : Option Child} (h : onPreviousLine c n m = true) :
    c.isComment = true ∧ n.isComment = false ∧ c.stop + 1 = n.start := by
  unfold onPreviousLine at h
  by_cases h1 : isGroupComment c n m = true
  · rw [if_pos h1] at h; cases h
  · rw [if_neg h1] at h
    by_cases h2 : (c.isComment && !n.isComment) = true
    · rw [if_pos h2] at h
      simp only [Bool.and_eq_true, Bool.not_eq_true'] at h2
      by_cases h3 : c.textD = [' '] ++ emptyLineContent
      · rw [if_pos h3] at h; cases h
      · rw [if_neg h3] at h
        by_cases h4 : c.stop + 1 = n.start
        · exact ⟨h2.1, h2.2, h4⟩
        · rw [if_neg h4] at h; cases h
    · rw [if_neg h2] at h; cases h

theorem topAt_tags {p : Option Child} {c n : Child} {rest : List Child}
    (h : topAt p c (n :: rest) = true) :
    c.isComment = true ∧ n.isComment = false ∧ c.stop + 1 = n.start ∧ eolAt p c = false := by
  unfold topAt at h
  by_cases h1 : eolAt p c = true
  · simp only [if_pos h1] at h; cases h
  · simp only [if_neg h1] at h
    obtain ⟨a, b, d⟩ := onPrev_tags h
    exact ⟨a, b, d, by simpa using h1⟩

theorem topAt_not_comment {p : Option Child} {c : Child} {rest : List Child} (h : c.isComment = false) :
    topAt p c rest = false := by
  cases rest with
  | nil => rfl
  | cons n r =>
    cases hb : topAt p c (n :: r) with
    | false => rfl
    | true => rw [(topAt_tags hb).1] at h; cases h

theorem eolPair_of_comment {p c : Child} (h : p.isComment = true) : eolPair p c = false := by
  cases hb : eolPair p c with
  | false => rfl
  | true => rw [(eolPair_tags hb).2.1] at h; cases h

theorem eolAt_not_comment {p : Option Child} {c : Child} (h : c.isComment = false) : eolAt p c = false := by
  cases p with
  | none => rfl
  | some p =>
    cases hb : eolPair p c with
    | false => exact hb
    | true => rw [(eolPair_tags hb).1] at h; cases h

/-- Between `p` and the next element nothing is pending. -/
def Boundary (pp p : Option Child) (s : List Child) : Prop :=
  match s with
  | [] => True
  | c :: _ => (∀ q, p = some q → topAt pp q s = false) ∧ eolAt p c = false

theorem go_placed (n : Nat) : ∀ (pp p : Option Child) (s : List Child), s.length ≤ n →
    Boundary pp p s → Placed s (go pp p s) := by
  induction n with
  | zero =>
    intro pp p s hs _
    have : s = [] := List.eq_nil_of_length_eq_zero (by omega)
    subst this
    exact .nil
  | succ n ih =>
    intro pp p s hs hb
    cases s with
    | nil => exact .nil
    | cons c rest =>
      obtain ⟨hb1, hb2⟩ := hb
      simp only [List.length_cons] at hs
      have htop : topStr pp p (c :: rest) = [] := by
        cases p with
        | none => rfl
        | some q => simp [topStr, hb1 q rfl]
      have hsup : suppressMarks [] = [] := rfl
      -- an element `e` followed by `r`: its end-of-line comment
      have elem : ∀ (q : Option Child) (e : Child) (r : List Child), e.isComment = false →
          r.length ≤ n →
            ((eolStr e r = [] ∧ Placed r (go q (some e) r)) ∨
             (∃ d r', r = d :: r' ∧ d.isComment = true ∧ d.start = e.stop ∧ eolStr e r = d.textD ∧
                Placed r' (go q (some e) r))) := by
        intro q e r he hr
        cases r with
        | nil => exact Or.inl ⟨rfl, .nil⟩
        | cons d r' =>
          cases hd : eolPair e d with
          | false =>
            left
            refine ⟨by simp [eolStr, hd], ?_⟩
            apply ih
            · exact hr
            · exact ⟨fun x hx => by cases hx; exact topAt_not_comment he, hd⟩
          | true =>
            right
            obtain ⟨hd1, hd2, hd3⟩ := eolPair_tags hd
            refine ⟨d, r', rfl, hd1, hd3, by simp [eolStr, hd], ?_⟩
            have h0 : ∀ s, topAt (some e) d s = false := by
              intro s
              cases s with
              | nil => rfl
              | cons f fs => simp [topAt, eolAt, hd]
            have hgo : go q (some e) (d :: r') = go (some e) (some d) r' := by
              rw [go_cons]
              have : one q (some e) d r' = none := by
                unfold one
                rw [h0]
                simp [eolAt, hd]
              rw [this]; rfl
            rw [hgo]
            apply ih
            · simp only [List.length_cons] at hr; omega
            · cases r' with
              | nil => trivial
              | cons f fs =>
                refine ⟨?_, eolPair_of_comment hd1⟩
                intro x hx
                cases hx
                exact h0 _
      cases hc : c.isComment with
      | false =>
        have h1 : topAt p c rest = false := topAt_not_comment hc
        have hgo : go pp p (c :: rest) = ⟨c, [], eolStr c rest⟩ :: go p (some c) rest := by
          rw [go_cons]
          unfold one
          rw [h1, hb2, htop, hsup]; rfl
        rw [hgo]
        rcases elem p c rest hc (by omega) with h | ⟨d, r', h1, h2, h3, h4, h5⟩
        · rw [h.1]
          exact .plain c rest _ hc h.2
        · rw [h4]
          subst h1
          exact .eol c d r' _ hc h2 h3 h5
      | true =>
        cases ht : topAt p c rest with
        | false =>
          have heol : eolStr c rest = [] := by
            cases rest with
            | nil => rfl
            | cons d ds => simp [eolStr, eolPair_of_comment hc]
          have hgo : go pp p (c :: rest) = ⟨c, [], []⟩ :: go p (some c) rest := by
            rw [go_cons]
            unfold one
            rw [ht, hb2, htop, hsup, heol]; rfl
          rw [hgo]
          apply Placed.standalone _ _ _ hc
          apply ih _ _ _ (by omega)
          cases rest with
          | nil => trivial
          | cons d ds =>
            exact ⟨fun x hx => by cases hx; exact ht, eolPair_of_comment hc⟩
        | true =>
          cases rest with
          | nil => cases ht
          | cons e r =>
            obtain ⟨_, he, hl, _⟩ := topAt_tags ht
            simp only [List.length_cons] at hs
            have hgo : go pp p (c :: e :: r) =
                ⟨e, suppressMarks c.textD, eolStr e r⟩ :: go (some c) (some e) r := by
              have h1 : topAt (some c) e r = false := topAt_not_comment he
              have h2 : eolAt (some c) e = false := eolAt_not_comment he
              have h3 : topStr p (some c) (e :: r) = c.textD := by simp [topStr, ht]
              rw [go_cons, go_cons]
              unfold one
              rw [ht, h1, h2, h3]; rfl
            rw [hgo]
            rcases elem (some c) e r he (by omega) with h | ⟨d, r', h1, h2, h3, h4, h5⟩
            · rw [h.1]
              exact .top c e r _ hc he hl h.2
            · rw [h4]
              subst h1
              exact .both c e d r' _ hc he h2 hl h3 h5

/-! ### grouping -/

theorem contains_append_left {s t p : Str} (h : contains (s ++ t) p = false) : contains s p = false := by
  rw [Bool.eq_false_iff] at h ⊢
  intro hc
  obtain ⟨a, b, he⟩ := (contains_iff _ _).1 hc
  exact h ((contains_iff _ _).2 ⟨a, b ++ t, by rw [he]; simp⟩)

theorem marked_iff (c : Child) : Marked c ↔ ∃ t, c.text = some t ∧ contains t emptyLineContent = true := by
  constructor
  · rintro ⟨t, a, b, h1, h2⟩
    exact ⟨t, h1, (contains_iff _ _).2 ⟨a, b, h2⟩⟩
  · rintro ⟨t, h1, h2⟩
    obtain ⟨a, b, h3⟩ := (contains_iff _ _).1 h2
    exact ⟨t, a, b, h1, h3⟩

theorem rawComment_eq (t : Str) : rawComment t = body t := by
  unfold rawComment body startsWith
  by_cases h : ['/', '/'] <+: t
  · rw [if_pos h, if_pos (List.isPrefixOf_iff_prefix.2 h)]
  · rw [if_neg h, if_neg (fun hh => h (List.isPrefixOf_iff_prefix.1 hh))]

structure Merge (p child : Child) : Prop where
  pc : p.isComment = true
  cc : child.isComment = true
  line : child.start = p.stop + 1
  pm : ¬ Marked p
  cm : ¬ Marked child

theorem shallConcat_merge {pp : Option Child} {p child p' : Child} (h : shallConcat pp (some p) child = true)
    (hc : concatComment p child = some p') : Merge p child := by
  simp only [shallConcat, Bool.and_eq_true, decide_eq_true_eq, Bool.not_eq_true'] at h
  obtain ⟨⟨⟨⟨⟨⟨_, _⟩, h3⟩, h4⟩, h5⟩, _⟩, h7⟩ := h
  unfold concatComment at hc
  cases hp : p.text with
  | none => rw [hp] at hc; cases hc
  | some tp =>
    cases ht : child.text with
    | none => rw [hp, ht] at hc; cases hc
    | some t =>
      rw [hp, ht] at h7
      simp only [isEmptyLineMark, Bool.or_eq_false_iff] at h7
      refine ⟨h3, h4, h5, ?_, ?_⟩
      · rw [marked_iff]
        rintro ⟨x, hx, hx'⟩
        rw [hp] at hx; cases hx
        rw [h7.2] at hx'; cases hx'
      · rw [marked_iff]
        rintro ⟨x, hx, hx'⟩
        rw [ht] at hx; cases hx
        rw [h7.1] at hx'; cases hx'

theorem merged_single (c : Child) : merged [c] = some c := by
  obtain ⟨i, tg, tx, a, b⟩ := c
  cases tx <;> simp [merged]

theorem merged_snoc {g : List Child} {p child p' : Child} (hg : merged g = some p)
    (hc : concatComment p child = some p') : merged (g ++ [child]) = some p' := by
  cases g with
  | nil => cases hg
  | cons c cs =>
    simp only [merged, Option.some.injEq] at hg
    subst hg
    unfold concatComment at hc
    cases hct : c.text with
    | none => rw [hct] at hc; cases hc
    | some t =>
      cases hch : child.text with
      | none => rw [hct, hch] at hc; cases hc
      | some u =>
        rw [hct, hch] at hc
        simp only [Option.map_some, Option.some.injEq] at hc
        subst hc
        have hl : (c :: (cs ++ [child])).getLast? = some child := by
          rw [← List.cons_append, List.getLast?_append]; rfl
        simp only [merged, List.cons_append, hl, hct, Option.map_some, List.flatMap_append, List.flatMap_cons,
          List.flatMap_nil, List.append_nil, rawComment_eq, Child.textD, hch, Option.getD_some, Option.elim_some,
          newLineToken_eq, List.append_assoc]

theorem groupable_snoc : ∀ {g : List Child} {p child : Child}, merged g = some p → Groupable g →
    Merge p child → Groupable (g ++ [child])
  | [], _, _, hg, _, _ => by cases hg
  | [c], p, child, hg, _, hm => by
    rw [merged_single] at hg
    cases hg
    exact ⟨hm.pc, hm.cc, hm.line, hm.pm, hm.cm, trivial⟩
  | a :: b :: cs, p, child, hg, h, hm => by
    obtain ⟨h1, h2, h3, h4, h5, h6⟩ := h
    refine ⟨h1, h2, h3, h4, h5, ?_⟩
    cases cs with
    | nil =>
      refine ⟨h2, hm.cc, ?_, h5, hm.cm, trivial⟩
      have := hm.line
      simp only [merged, Option.some.injEq] at hg
      subst hg
      simpa using this
    | cons d ds =>
      have hm' : merged (b :: d :: ds) = some { b with
          text := b.text.map (fun t => t ++ (d :: ds).flatMap (fun d => "_SRCML_LINEFEED_".toList ++ body d.textD)),
          stop := (b :: d :: ds).getLast?.elim b.stop Child.stop } := rfl
      -- `Groupable` of the tail only looks at the last element
      have key : ∀ (l : List Child) (x : Child), Groupable (x :: l) →
          (x :: l).getLast?.elim x.stop Child.stop = p.stop → l ≠ [] → Groupable (x :: l ++ [child]) := by
        intro l
        induction l with
        | nil => intro x _ _ hne; exact absurd rfl hne
        | cons y ys ih =>
          intro x hx hl _
          obtain ⟨k1, k2, k3, k4, k5, k6⟩ := hx
          refine ⟨k1, k2, k3, k4, k5, ?_⟩
          cases ys with
          | nil =>
            refine ⟨k2, hm.cc, ?_, k5, hm.cm, trivial⟩
            have h0 := hm.line
            rw [← hl] at h0
            simpa using h0
          | cons z zs =>
            apply ih y k6 _ (by simp)
            rw [← hl]
            simp [List.getLast?_cons_cons, List.getLast?_eq_some_getLast]
      apply key _ _ h6 _ (by simp)
      simp only [merged, Option.some.injEq] at hg
      subst hg
      simp [List.getLast?_cons_cons, List.getLast?_eq_some_getLast]

theorem groupLoop_spec (rest : List Child) : ∀ (done : List Child) (groups : List (List Child)) (res : List Child),
    List.Forall₂ (fun g r => merged g = some r ∧ Groupable g) groups done →
    groupLoop done rest = some res →
    ∃ gs, (gs.flatten = groups.reverse.flatten ++ rest) ∧
      List.Forall₂ (fun g r => merged g = some r ∧ Groupable g) gs res := by
  induction rest with
  | nil =>
    intro done groups res hf h
    simp only [groupLoop, Option.some.injEq] at h
    subst h
    refine ⟨groups.reverse, by simp, ?_⟩
    exact List.rel_reverse hf
  | cons child rest ih =>
    intro done groups res hf h
    unfold groupLoop at h
    by_cases hs : shallConcat done[1]? done[0]? child = true
    · rw [if_pos hs] at h
      cases done with
      | nil => cases h
      | cons p ds =>
        simp only [Option.bind_eq_some_iff] at h
        obtain ⟨p', hp', h⟩ := h
        cases hf with
        | @cons g _ gs _ hg hgs =>
          have hm : Merge p child := shallConcat_merge (by simpa using hs) hp'
          obtain ⟨out, ho, hof⟩ := ih (p' :: ds) ((g ++ [child]) :: gs) res
            (.cons ⟨merged_snoc hg.1 hp', groupable_snoc hg.1 hg.2 hm⟩ hgs) h
          refine ⟨out, ?_, hof⟩
          rw [ho]; simp
    · rw [if_neg hs] at h
      obtain ⟨out, ho, hof⟩ := ih (child :: done) ([child] :: groups) res
        (.cons ⟨merged_single child, trivial⟩ hf) h
      refine ⟨out, ?_, hof⟩
      rw [ho]; simp

/-- No two neighbours (the list is reversed) could have been grouped. -/
def Sep : List Child → Prop
  | r2 :: r1 :: ds =>
    (r1.isComment = true → r2.isComment = true → r2.start = r1.stop + 1 → 0 ≤ r1.stop →
      Marked r1 ∨ Marked r2 ∨ ∃ e, ds.head? = some e ∧ e.isComment = false ∧ e.stop = r1.stop) ∧ Sep (r1 :: ds)
  | _ => True

theorem groupLoop_sep (rest : List Child) : ∀ (done res : List Child), Sep done →
    groupLoop done rest = some res → Sep res.reverse := by
  induction rest with
  | nil =>
    intro done res hs h
    simp only [groupLoop, Option.some.injEq] at h
    subst h
    simpa using hs
  | cons child rest ih =>
    intro done res hsep h
    unfold groupLoop at h
    by_cases hs : shallConcat done[1]? done[0]? child = true
    · rw [if_pos hs] at h
      cases done with
      | nil => cases h
      | cons p ds =>
        simp only [Option.bind_eq_some_iff] at h
        obtain ⟨p', hp', h⟩ := h
        apply ih _ _ _ h
        have hm : Merge p child := shallConcat_merge (by simpa using hs) hp'
        cases ds with
        | nil => trivial
        | cons r1 ds =>
          refine ⟨?_, hsep.2⟩
          intro h1 h2 h3 h4
          have hp1 : p'.isComment = p.isComment ∧ p'.start = p.start := by
            unfold concatComment at hp'
            split at hp'
            · cases hp'; exact ⟨rfl, rfl⟩
            · cases hp'
          rcases hsep.1 h1 (hp1.1 ▸ h2) (hp1.2 ▸ h3) h4 with hh | hh | hh
          · exact Or.inl hh
          · exact absurd hh hm.pm
          · exact Or.inr (Or.inr hh)
    · rw [if_neg hs] at h
      apply ih _ _ _ h
      cases done with
      | nil => trivial
      | cons r1 ds =>
        refine ⟨?_, hsep⟩
        intro h1 h2 h3 h4
        simp only [List.getElem?_cons_zero, List.getElem?_cons_succ, shallConcat] at hs
        rw [h1, h2, h3] at hs
        have h5 : decide (r1.stop + 1 ≥ 0) = true := by simp; omega
        have h6 : decide (r1.stop ≥ 0) = true := by simp; omega
        rw [h5, h6] at hs
        simp only [Bool.and_true, Bool.true_and, decide_true, Bool.and_eq_true, Bool.not_eq_true', not_and] at hs
        cases he : isEolOf ds[0]? r1 with
        | true =>
          right; right
          unfold isEolOf at he
          cases ds with
          | nil => cases he
          | cons e es =>
            simp only [List.getElem?_cons_zero, Bool.and_eq_true, decide_eq_true_eq, Bool.not_eq_true'] at he
            exact ⟨e, rfl, he.2, he.1.2⟩
        | false =>
          have hmk := hs he
          simp only [Bool.not_eq_false] at hmk
          unfold isEmptyLineMark at hmk
          cases hp : r1.text with
          | none =>
            cases hc : child.text <;> (rw [hp, hc] at hmk; cases hmk)
          | some tp =>
            cases hc : child.text with
            | none => rw [hp, hc] at hmk; cases hmk
            | some t =>
              rw [hp, hc] at hmk
              simp only [Bool.or_eq_true] at hmk
              rcases hmk with hmk | hmk
              · exact Or.inr (Or.inl ((marked_iff _).2 ⟨t, hc, hmk⟩))
              · exact Or.inl ((marked_iff _).2 ⟨tp, hp, hmk⟩)

theorem sep_window (b : List Child) : ∀ (a : List Child) (r1 r2 : Child),
    Sep (b ++ r2 :: r1 :: a) → Sep (r2 :: r1 :: a) := by
  induction b with
  | nil => intro a r1 r2 h; exact h
  | cons x xs ih =>
    intro a r1 r2 h
    apply ih
    cases xs with
    | nil => exact h.2
    | cons y ys => exact h.2

/-! ### texts -/

theorem token_border : ∀ k, k < 15 → 0 < k → ¬ (newLineToken.drop k <+: newLineToken) := by decide

theorem prefix_trim {p a b : Str} (h : p <+: a ++ b) (hl : p.length ≤ a.length) : p <+: a :=
  List.prefix_of_prefix_length_le h (List.prefix_append a b) hl

/-- The first token after a text that does not contain (almost) one. -/
theorem token_not_before {a rest : Str} (hne : a ≠ [])
    (h : contains a "_SRCML_LINEFEED".toList = false) : ¬ newLineToken <+: a ++ (newLineToken ++ rest) := by
  intro hp
  by_cases hl : 15 ≤ a.length
  · have h15 : "_SRCML_LINEFEED".toList <+: a ++ (newLineToken ++ rest) :=
      List.IsPrefix.trans ⟨['_'], by decide⟩ hp
    have := prefix_trim h15 (by simpa using hl)
    obtain ⟨t, ht⟩ := this
    rw [Bool.eq_false_iff] at h
    exact h ((contains_iff _ _).2 ⟨[], t, by rw [← ht]; rfl⟩)
  · obtain ⟨t, ht⟩ := hp
    have hd : newLineToken.drop a.length ++ t = newLineToken ++ rest := by
      have := congrArg (List.drop a.length) ht
      rw [List.drop_left, List.drop_append] at this
      have h0 : a.length - newLineToken.length = 0 := by
        have : newLineToken.length = 16 := by decide
        omega
      rw [h0, List.drop_zero] at this
      exact this
    have hpre : newLineToken.drop a.length <+: newLineToken ++ rest := ⟨t, hd⟩
    have := prefix_trim hpre (by simp)
    apply token_border a.length (by omega) _ this
    cases a with
    | nil => exact absurd rfl hne
    | cons => simp

theorem contains_tail {c : Char} {s p : Str} (h : contains (c :: s) p = false) : contains s p = false := by
  unfold contains at h
  rw [Bool.or_eq_false_iff] at h
  exact h.2

theorem replace_before_token (a rest : Str) (h : contains a "_SRCML_LINEFEED".toList = false) (new : Str) :
    replace (a ++ (newLineToken ++ rest)) newLineToken new = a ++ (new ++ replace rest newLineToken new) := by
  induction a with
  | nil => exact replace_match (by decide)
  | cons c a ih =>
    have := token_not_before (rest := rest) (a := c :: a) (by simp) h
    rw [List.cons_append] at this ⊢
    rw [replace_no_match this, ih (contains_tail h)]
    rfl

theorem not_contains_token {a : Str} (h : contains a "_SRCML_LINEFEED".toList = false) :
    contains a newLineToken = false := by
  rw [Bool.eq_false_iff] at h ⊢
  intro hc
  obtain ⟨x, y, he⟩ := (contains_iff _ _).1 hc
  refine h ((contains_iff _ _).2 ⟨x, '_' :: y, ?_⟩)
  rw [he]
  have : newLineToken = "_SRCML_LINEFEED".toList ++ ['_'] := by decide
  rw [this]; simp

theorem replace_tokens (t : Str) (ts : List Str)
    (h : ∀ u ∈ t :: ts, contains u "_SRCML_LINEFEED".toList = false) :
    replace (t ++ ts.flatMap (fun d => newLineToken ++ d)) newLineToken ['\n'] = unlines (t :: ts) := by
  induction ts generalizing t with
  | nil =>
    simp only [List.flatMap_nil, List.append_nil]
    exact replace_of_not_contains (not_contains_token (h t (by simp)))
  | cons u us ih =>
    rw [List.flatMap_cons, List.append_assoc, replace_before_token _ _ (h t (by simp)),
      ih u (fun x hx => h x (List.mem_cons_of_mem _ hx))]
    show _ = t ++ ['\n'] ++ unlines (u :: us)
    simp

theorem contains_cons_of_ne {c p : Char} {s ps : Str} (hc : p ≠ c) (h : contains s (p :: ps) = false) :
    contains (c :: s) (p :: ps) = false := by
  unfold contains
  rw [h, Bool.or_false]
  show (p == c && ps.isPrefixOf s) = false
  simp [hc]

theorem removeSlashes_slashes (t : Str) : removeSlashes ('/' :: '/' :: t) = t := by
  unfold removeSlashes
  have : lstrip ('/' :: '/' :: t) = '/' :: '/' :: t := lstrip_cons_of_not (by decide)
  rw [this]
  simp [startsWith]

theorem removeSlashes_of_not {t : Str} (h : ¬ ['/', '/'] <+: lstrip t) : removeSlashes t = t := by
  unfold removeSlashes startsWith
  rw [if_neg (fun hh => h (List.isPrefixOf_iff_prefix.1 hh))]

theorem removeTokens_lines (t : Str) (ts : List Str)
    (h : ∀ u ∈ t :: ts, contains u "_SRCML_LINEFEED".toList = false) (hnl : ∀ u ∈ t :: ts, '\n' ∉ u)
    (hs : ∀ u ∈ ts, ¬ ['/', '/'] <+: lstrip u) :
    removeCommentTokens ('/' :: '/' :: t ++ ts.flatMap (fun d => newLineToken ++ d)) = unlines (t :: ts) := by
  unfold removeCommentTokens
  have h1 : contains ('/' :: '/' :: t) "_SRCML_LINEFEED".toList = false := by
    have e : "_SRCML_LINEFEED".toList = '_' :: "SRCML_LINEFEED".toList := by decide
    rw [e]
    exact contains_cons_of_ne (by decide) (contains_cons_of_ne (by decide) (e ▸ h t (by simp)))
  have h2 := replace_tokens ('/' :: '/' :: t) ts (by
    intro u hu
    rcases List.mem_cons.1 hu with rfl | hu
    · exact h1
    · exact h u (List.mem_cons_of_mem _ hu))
  rw [h2]
  have hst : startsWith (unlines (('/' :: '/' :: t) :: ts)) ['/', '*'] = false := by
    cases ts <;> rfl
  simp only [hst, Bool.false_and, Bool.false_eq_true, if_false]
  rw [lines_unlines (by simp)]
  · rw [List.map_cons, removeSlashes_slashes]
    congr 2
    rw [← List.map_id ts]
    rw [List.map_map]
    exact List.map_congr_left (fun u hu => removeSlashes_of_not (hs u hu))
  · intro l hl
    rcases List.mem_cons.1 hl with rfl | hl
    · have := hnl t (by simp)
      simp [this]
    · exact hnl l (List.mem_cons_of_mem _ hl)

theorem not_contains_snoc {s ps : Str} {p c : Char} (hc : c ∉ p :: ps) (h : contains s (p :: ps) = false) :
    contains (s ++ [c]) (p :: ps) = false := by
  rw [Bool.eq_false_iff] at h ⊢
  intro hcon
  obtain ⟨a, b, he⟩ := (contains_iff _ _).1 hcon
  rcases List.eq_nil_or_concat b with hb | ⟨b', x, hb⟩
  · subst hb
    have : (s ++ [c]).getLast? = some c := by simp
    rw [he, List.append_nil, List.getLast?_append, List.getLast?_eq_some_getLast (by simp)] at this
    simp only [Option.some_or, Option.some.injEq] at this
    apply hc
    rw [← this]
    exact List.getLast_mem _
  · subst hb
    rw [List.concat_eq_append, ← List.append_assoc] at he
    have := List.append_inj' he rfl
    exact h ((contains_iff _ _).2 ⟨a, b', this.1⟩)

theorem removeTokens_block (t : Str) (h : contains t newLineToken = false) :
    removeCommentTokens (['/', '*'] ++ t ++ ['*', '/']) = t := by
  unfold removeCommentTokens
  have e : newLineToken = '_' :: "SRCML_LINEFEED_".toList := by decide
  have h1 : contains (['/', '*'] ++ t ++ ['*', '/']) newLineToken = false := by
    rw [e] at h ⊢
    have : ['/', '*'] ++ t ++ ['*', '/'] = (('/' :: '*' :: t) ++ ['*']) ++ ['/'] := by simp
    rw [this]
    exact not_contains_snoc (by decide) (not_contains_snoc (by decide)
      (contains_cons_of_ne (by decide) (contains_cons_of_ne (by decide) h)))
  rw [replace_of_not_contains h1]
  have h2 : startsWith (['/', '*'] ++ t ++ ['*', '/']) ['/', '*'] = true := by simp [startsWith]
  have h3 : endsWith (['/', '*'] ++ t ++ ['*', '/']) ['*', '/'] = true := by
    unfold endsWith
    rw [List.isSuffixOf_iff_suffix]
    exact ⟨_, rfl⟩
  simp only [h2, h3, Bool.and_self, if_true]
  have : (['/', '*'] ++ t ++ ['*', '/']).length - 2 = (['/', '*'] ++ t).length := by simp
  rw [this, List.take_left]
  rfl

end Verif.Attach
