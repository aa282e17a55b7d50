import Verif.Prep.Spec

namespace Verif.Prep
open Verif.Py Spec

/-- The state is in a place that is active or not. -/
def active (rs : List Region) : Bool := !contentExcluded rs

theorem active_cons (r : Region) (rs : List Region) :
    active (r :: rs) = ((!r.regionExcluded && !r.inSecondaryBranch) && active rs) := by
  simp [active, contentExcluded, Bool.not_or]

theorem directive_cons (r : Region) (rs : List Region) :
    directiveExcluded (r :: rs) = !(!r.regionExcluded && active rs) := by
  unfold directiveExcluded active
  cases h : r.regionExcluded <;> simp [h]

/-- The line of the last directive after a sequence. -/
def lastAfter : Int → Doc → Int
  | l, .nil => l
  | l, .code _ r => lastAfter l r
  | l, .comment _ r => lastAfter l r
  | _, .region _ _ _ _ _ _ cl r => lastAfter cl r

theorem secondary_mark (rs : List Region) (r : Region) :
    markSecondary (r :: rs) = ⟨r.regionExcluded, true⟩ :: rs := rfl

mutual
/-- Running the loop over a well formed sequence, then over anything. -/
theorem loop_doc (acc : Str → Bool) (d : Doc) (hd : d.WF) (st : State) (tail : List Elem) :
    ∃ fl, filterLoop acc st (d.flat ++ tail) =
      (filterLoop acc ⟨fl, lastAfter st.lastLine d, st.stack⟩ tail).map
        (fun kept => (d.keep acc (active st.stack) st.lastLine).flat ++ kept) := by
  match d with
  | .nil => exact ⟨st.ignoredEndif, by simp [Doc.flat, Doc.keep, lastAfter]⟩
  | .code e r =>
    obtain ⟨⟨n, hn⟩, hr⟩ := hd
    have hp : ∃ fl, processTag acc st e = some ⟨fl, st.lastLine, st.stack⟩ := by
      unfold processTag
      cases e.endLine with
      | none => exact ⟨st.ignoredEndif, rfl⟩
      | some l => rw [hn]; exact ⟨false, rfl⟩
    obtain ⟨fl, hp⟩ := hp
    obtain ⟨fl2, ih⟩ := loop_doc acc r hr ⟨fl, st.lastLine, st.stack⟩ tail
    refine ⟨fl2, ?_⟩
    have hs : shallIgnore ⟨fl, st.lastLine, st.stack⟩ e = !active st.stack := by
      unfold shallIgnore active; rw [hn]; simp
    simp only [Doc.flat, List.cons_append]
    conv => lhs; unfold filterLoop
    simp only [hp, ih, hs, Doc.keep, lastAfter, Option.map_map]
    cases active st.stack <;> rfl
  | .comment e r =>
    obtain ⟨hn, hr⟩ := hd
    have hp : ∃ fl, processTag acc st e = some ⟨fl, st.lastLine, st.stack⟩ := by
      unfold processTag
      cases e.endLine with
      | none => exact ⟨st.ignoredEndif, rfl⟩
      | some l => rw [hn]; exact ⟨false, rfl⟩
    obtain ⟨fl, hp⟩ := hp
    obtain ⟨fl2, ih⟩ := loop_doc acc r hr ⟨fl, st.lastLine, st.stack⟩ tail
    refine ⟨fl2, ?_⟩
    have hs : shallIgnore ⟨fl, st.lastLine, st.stack⟩ e =
        decide (¬ (active st.stack = true ∧ e.startLine ≠ some st.lastLine)) := by
      unfold shallIgnore active; rw [hn]
      by_cases h : e.startLine = some st.lastLine <;> cases contentExcluded st.stack <;> simp [h]
    simp only [Doc.flat, List.cons_append]
    conv => lhs; unfold filterLoop
    simp only [hp, ih, hs, Doc.keep, lastAfter, Option.map_map]
    by_cases h : active st.stack = true ∧ e.startLine ≠ some st.lastLine
    · have hd : decide (¬ (active st.stack = true ∧ e.startLine ≠ some st.lastLine)) = false :=
        decide_eq_false (fun hh => hh h)
      rw [if_pos h]
      congr 1
      funext kept
      simp only [Function.comp, hd]
      rfl
    · have hd : decide (¬ (active st.stack = true ∧ e.startLine ≠ some st.lastLine)) = true :=
        decide_eq_true h
      rw [if_neg h]
      congr 1
      funext kept
      simp only [Function.comp, hd]
      rfl
  | .region o l m f b c cl r =>
    obtain ⟨ho, hol, hom, hf, hb, hc, hccl, hr⟩ := hd
    have hp : processTag acc st o = some ⟨false, l, ⟨!acc m, false⟩ :: st.stack⟩ := by
      unfold processTag
      rw [hol]
      rcases ho with ho | ho | ho <;> simp [ho, hom]
    have hs : shallIgnore ⟨false, l, ⟨!acc m, false⟩ :: st.stack⟩ o = !(acc m && active st.stack) := by
      unfold shallIgnore
      rcases ho with ho | ho | ho <;> simp [ho, directive_cons]
    obtain ⟨fl1, h1⟩ := loop_doc acc f hf ⟨false, l, ⟨!acc m, false⟩ :: st.stack⟩
      (b.flat ++ c :: (r.flat ++ tail))
    obtain ⟨fl2, sec2, l2, h2⟩ := loop_branches acc b hb fl1 (lastAfter l f) (!acc m) false st.stack
      (c :: (r.flat ++ tail))
    obtain ⟨fl3, h3⟩ := loop_doc acc r hr ⟨!(acc m && active st.stack), cl, st.stack⟩ tail
    refine ⟨fl3, ?_⟩
    have e1 : Doc.flat (.region o l m f b c cl r) ++ tail =
        o :: (f.flat ++ (b.flat ++ c :: (r.flat ++ tail))) := by
      simp [Doc.flat]
    have hpc : processTag acc ⟨fl2, l2, ⟨!acc m, sec2⟩ :: st.stack⟩ c =
        some ⟨!(acc m && active st.stack), cl, st.stack⟩ := by
      unfold processTag
      rw [hccl, hc]
      simp [directive_cons]
    have hsc : shallIgnore ⟨!(acc m && active st.stack), cl, st.stack⟩ c = !(acc m && active st.stack) := by
      unfold shallIgnore; rw [hc]
    rw [e1]
    conv => lhs; unfold filterLoop
    simp only [hp, h1, h2, hs]
    conv => lhs; unfold filterLoop
    simp only [hpc, hsc, h3, lastAfter, Option.map_map]
    have hact : active (⟨!acc m, false⟩ :: st.stack) = (acc m && active st.stack) := by
      rw [active_cons]; simp
    rw [hact]
    congr 1
    funext kept
    simp only [Function.comp, Doc.keep]
    cases ha : active st.stack <;> cases hm : acc m
    · simp [Doc.flat, keep_inactive]
    · simp [Doc.flat, keep_inactive]
    · simp [Doc.flat, keep_inactive]
    · simp [Doc.flat]
/-- The branches after the first one: only their directives can be kept. -/
theorem loop_branches (acc : Str → Bool) (b : Branches) (hb : b.WF) (fl : Bool) (last : Int)
    (ex sec : Bool) (rs : List Region) (tail : List Elem) :
    ∃ fl2 sec2 l2, filterLoop acc ⟨fl, last, ⟨ex, sec⟩ :: rs⟩ (b.flat ++ tail) =
      (filterLoop acc ⟨fl2, l2, ⟨ex, sec2⟩ :: rs⟩ tail).map
        (fun kept => (if !ex && active rs then b.bare.flat else []) ++ kept) := by
  match b with
  | .nil => exact ⟨fl, sec, last, by simp [Branches.flat, Branches.bare]⟩
  | .cons d l body r =>
    obtain ⟨hd, hl, hbody, hr⟩ := hb
    have hp : processTag acc ⟨fl, last, ⟨ex, sec⟩ :: rs⟩ d = some ⟨false, l, ⟨ex, true⟩ :: rs⟩ := by
      unfold processTag
      rw [hl]
      rcases hd with hd | hd <;> simp [hd, markSecondary]
    have hs : shallIgnore ⟨false, l, ⟨ex, true⟩ :: rs⟩ d = !(!ex && active rs) := by
      unfold shallIgnore
      rcases hd with hd | hd <;> simp [hd, directive_cons]
    obtain ⟨fl1, h1⟩ := loop_doc acc body hbody ⟨false, l, ⟨ex, true⟩ :: rs⟩ (r.flat ++ tail)
    obtain ⟨fl2, sec2, l2, h2⟩ := loop_branches acc r hr fl1 (lastAfter l body) ex true rs tail
    refine ⟨fl2, sec2, l2, ?_⟩
    have e1 : Branches.flat (.cons d l body r) ++ tail = d :: (body.flat ++ (r.flat ++ tail)) := by
      simp [Branches.flat]
    have hact : active (⟨ex, true⟩ :: rs) = false := by
      rw [active_cons]; simp
    rw [e1]
    conv => lhs; unfold filterLoop
    simp only [hp, h1, h2, hs, hact, Option.map_map]
    congr 1
    funext kept
    simp only [Function.comp]
    cases h : (!ex && active rs)
    · simp [keep_inactive]
    · simp [keep_inactive, Branches.bare, Branches.flat, Doc.flat]
theorem keep_inactive (acc : Str → Bool) (last : Int) (d : Doc) : (d.keep acc false last).flat = [] := by
  match d with
  | .nil => rfl
  | .code e r => simpa [Doc.keep] using keep_inactive acc last r
  | .comment e r => simpa [Doc.keep] using keep_inactive acc last r
  | .region o l m f b c cl r => simpa [Doc.keep] using keep_inactive acc cl r
end

/-! ### macro names -/

mutual
theorem visitChild_eq (x : Xml) (h : TextsOK x) : visitChild x = (candidates x).head? := by
  match x with
  | .node tag text children =>
    obtain ⟨h1, h2⟩ := h
    have ih := visitList_eq children h2
    have hne := candidates_ne children h2
    unfold visitChild candidates
    by_cases hn : tag = "name".toList
    · have hna : tag ≠ "argument".toList := by rw [hn]; decide
      simp only [hn, true_and]
      cases text with
      | none =>
        have hna' : ¬ ("name".toList = "argument".toList) := by decide
        simp only [ne_eq, not_true_eq_false, false_and, if_false, reduceCtorEq, not_false_eq_true, if_true,
          Option.toList, List.nil_append, hna']
        rw [ih]
        cases hc : candidatesList children with
        | nil => simp
        | cons a as =>
          have := hne a (by rw [hc]; simp)
          simp [this]
      | some t =>
        by_cases ht : t = "defined".toList
        · have hna' : ¬ ("name".toList = "argument".toList) := by decide
          simp only [ht, ne_eq, not_true_eq_false, and_false, if_false, hna', false_and, List.nil_append]
          rw [ih]
          cases hc : candidatesList children with
          | nil => simp
          | cons a as =>
            have := hne a (by rw [hc]; simp)
            simp [this]
        · have : ¬ (some t = some "defined".toList) := by simpa using ht
          simp only [ne_eq, reduceCtorEq, not_false_eq_true, true_and, this, if_true, Option.toList,
            List.cons_append, List.nil_append, List.head?_cons]
    · have e1 : ¬ (tag = "name".toList ∧ text ≠ none ∧ text ≠ some "defined".toList) := fun h => hn h.1
      have e2 : ¬ (tag = "name".toList ∧ text ≠ some "defined".toList) := fun h => hn h.1
      rw [if_neg e1, if_neg e2]
      by_cases ha : tag = "argument".toList
      · rw [if_pos ha]
        simp only [ha, true_and]
        cases text with
        | none =>
          simp only [Bool.false_eq_true, if_false, Option.map_none, Option.toList, List.filter_nil,
            List.nil_append]
          rw [ih]
          cases hc : candidatesList children with
          | nil => simp
          | cons a as =>
            have := hne a (by rw [hc]; simp)
            simp [this]
        | some t =>
          by_cases ht : strip t = []
          · simp only [ht, ne_eq, not_true_eq_false, decide_false, Bool.false_eq_true, if_false,
              Option.map_some, Option.toList, List.filter_cons, List.filter_nil, List.nil_append]
            rw [ih]
            cases hc : candidatesList children with
            | nil => simp
            | cons a as =>
              have := hne a (by rw [hc]; simp)
              simp [this]
          · simp [ht, Option.toList]
      · rw [if_neg ha, if_neg (fun h => ha h.1)]
        simp only [List.nil_append]
        rw [ih]
        cases hc : candidatesList children with
        | nil => simp
        | cons a as =>
          have := hne a (by rw [hc]; simp)
          simp [this]
theorem visitList_eq (xs : List Xml) (h : TextsOKList xs) : visitList xs = (candidatesList xs).headD [] := by
  match xs with
  | [] => rfl
  | x :: xs =>
    unfold visitList candidatesList
    rw [visitChild_eq x h.1]
    cases hc : candidates x with
    | nil => simpa using visitList_eq xs h.2
    | cons a as => simp
theorem candidates_ne (xs : List Xml) (h : TextsOKList xs) : ∀ a ∈ candidatesList xs, a ≠ [] := by
  match xs with
  | [] => simp [candidatesList]
  | .node tag text children :: xs =>
    intro a ha
    unfold candidatesList at ha
    rcases List.mem_append.1 ha with ha | ha
    · unfold candidates at ha
      rcases List.mem_append.1 ha with ha | ha
      · split at ha
        · rename_i hn
          cases text with
          | none => simp at ha
          | some t =>
            simp at ha
            subst ha
            intro e
            exact h.1.1 hn.1 (by rw [e])
        · split at ha
          · simp only [List.mem_filter, decide_eq_true_eq] at ha
            exact ha.2
          · simp at ha
      · exact candidates_ne children h.1.2 a ha
    · exact candidates_ne xs h.2 a ha
end

end Verif.Prep
