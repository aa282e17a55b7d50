import Mathlib.Data.List.Forall2
import Verif.Py.StrLemmas
import Verif.Comment.Model
import Verif.Comment.Spec

namespace Verif.Comment
open Verif.Py

/-! ### C++ comments -/

/-- Unconditional facts on the position found by the scanner. -/
theorem cppScan_some (s : Str) : ∀ (b : Bool) (last : Option Char) (i p : Nat),
    (last = some '/' → 1 ≤ i) → cppScan b last i s = some p →
    (p + 1 = i ∧ last = some '/' ∧ ['/'] <+: s) ∨ (i ≤ p ∧ ['/', '/'] <+: s.drop (p - i)) := by
  induction s with
  | nil => intro b last i p _ h; simp [cppScan] at h
  | cons c cs ih =>
    intro b last i p hi h
    unfold cppScan at h
    split at h
    · rename_i hc
      left
      obtain ⟨rfl, hl, _⟩ := hc
      have := hi hl
      simp at h
      exact ⟨by omega, hl, by simp⟩
    · rcases ih _ _ _ p (by omega) h with ⟨h1, h2, h3⟩ | ⟨h1, h2⟩
      · right
        have : p = i := by omega
        subst this
        refine ⟨Nat.le_refl _, ?_⟩
        simp at h2
        subst h2
        obtain ⟨t, rfl⟩ := h3
        simp
      · right
        refine ⟨by omega, ?_⟩
        have : p - i = (p - (i + 1)) + 1 := by omega
        rw [this]; simpa using h2

theorem position_some {line : Str} {p : Nat} (h : lineCppCommentPosition line = some p) :
    ['/', '/'] <+: line.drop p := by
  rcases cppScan_some line false none 0 p (by simp) h with ⟨h1, _, _⟩ | ⟨_, h2⟩
  · omega
  · simpa using h2

theorem lastCodeLoop_eq (line : Str) : ∀ k, k ≤ line.length →
    lastCodeLoop line k = (rstrip (line.take k)).length := by
  intro k
  induction k with
  | zero => intro _; rfl
  | succ k ih =>
    intro hk
    have hk' : k < line.length := by omega
    unfold lastCodeLoop
    rw [List.getElem?_eq_getElem hk']
    simp only
    have ht : line.take (k + 1) = line.take k ++ [line[k]] := by
      rw [List.take_add_one, List.getElem?_eq_getElem hk']; rfl
    rw [ht]
    cases hc : isSpace line[k] with
    | true =>
      rw [rstrip_append_of_all (by intro c h; simp at h; rw [h]; exact hc)]
      simpa using ih (by omega)
    | false =>
      rw [rstrip_append_of_not hc]
      simp; omega

/-- Where the token goes: right after the code. -/
theorem lastCode_eq (line : Str) :
    ∃ code rest, line = code ++ rest ∧ (rest = [] ∨ ['/', '/'] <+: rest) ∧
      (lineCppCommentPosition line = none → rest = []) ∧
      (∀ p, lineCppCommentPosition line = some p → code.length = p) ∧
      lastCodePositionBeforeCppComment line = (rstrip code).length := by
  unfold lastCodePositionBeforeCppComment
  cases h : lineCppCommentPosition line with
  | none => exact ⟨line, [], by simp, Or.inl rfl, fun _ => rfl, by simp, rfl⟩
  | some p =>
    have hp := position_some h
    have hle : p ≤ line.length := by
      have := hp.length_le
      simp at this; omega
    refine ⟨line.take p, line.drop p, by simp, Or.inr hp, by simp, ?_, ?_⟩
    · intro q hq; simp at hq; subst hq; simp [hle]
    · exact lastCodeLoop_eq line p hle

theorem addToken_eq (token line : Str) :
    ∃ code blanks rest, line = code ++ blanks ++ rest ∧
      (∀ c ∈ blanks, isSpace c = true) ∧ (∀ c ∈ code.getLast?, isSpace c = false) ∧
      (rest = [] ∨ ['/', '/'] <+: rest) ∧
      (lineCppCommentPosition line = none → rest = []) ∧
      (∀ p, lineCppCommentPosition line = some p → (code ++ blanks).length = p) ∧
      addTokenToLine token line = code ++ token ++ blanks ++ rest := by
  obtain ⟨code, rest, h1, h2, h2a, h2b, h3⟩ := lastCode_eq line
  obtain ⟨w, h4, h5⟩ := rstrip_decomp code
  refine ⟨rstrip code, w, rest, by rw [← h4]; exact h1, h5, ?_, h2, h2a, by rw [← h4]; exact h2b, ?_⟩
  · intro c hc
    rcases rstrip_last code with h | ⟨a, d, h, hd⟩
    · rw [h] at hc; simp at hc
    · rw [h] at hc; simp at hc; rw [← hc]; exact hd
  · unfold addTokenToLine
    simp only [h3]
    rw [h1]
    conv => lhs; rw [h4]
    have a1 : (rstrip (rstrip code ++ w)).length = (rstrip code).length := by
      rw [rstrip_append_of_all h5, rstrip_rstrip]
    rw [a1, List.append_assoc (rstrip code), List.take_left, List.drop_left]
    simp

/-- What the scanner does inside a string literal. -/
theorem cppScan_str (rest : Str) : ∀ (body : List Spec.BodyItem) (last : Option Char) (i : Nat),
    (∀ b ∈ body, b.WF) → (body = [] → last ≠ some '\\') →
    (body.getLast? ≠ some (Spec.BodyItem.escape '\\')) →
    cppScan true last i (body.flatMap Spec.BodyItem.render ++ '"' :: rest) =
      cppScan false (some '"') (i + (body.flatMap Spec.BodyItem.render).length + 1) rest := by
  intro body
  induction body with
  | nil =>
    intro last i _ hl _
    have := hl rfl
    simp [cppScan, cppToggle, this]
  | cons b bs ih =>
    intro last i hwf _ hlast
    have hb := hwf b (by simp)
    have hbs : ∀ x ∈ bs, x.WF := fun x hx => hwf x (by simp [hx])
    have hlast' : bs.getLast? ≠ some (Spec.BodyItem.escape '\\') := by
      intro h; apply hlast
      cases bs with
      | nil => simp at h
      | cons y ys => simpa using h
    cases b with
    | ordinary c =>
      obtain ⟨h1, h2⟩ := hb
      simp only [List.flatMap_cons, Spec.BodyItem.render, List.cons_append, List.nil_append]
      have ht : cppToggle true last c = true := by simp [cppToggle, h1]
      conv => lhs; unfold cppScan
      rw [ht, if_neg (by simp), ih (some c) (i + 1) hbs (by intro _; simpa using h2) hlast']
      congr 1
      simp; omega
    | escape c =>
      simp only [List.flatMap_cons, Spec.BodyItem.render, List.cons_append, List.nil_append]
      have ht : cppToggle true last '\\' = true := by simp [cppToggle]
      have ht2 : cppToggle true (some '\\') c = true := by simp [cppToggle]
      conv => lhs; unfold cppScan
      rw [ht, if_neg (by simp)]
      conv => lhs; unfold cppScan
      rw [ht2, if_neg (by simp), ih (some c) (i + 1 + 1) hbs ?_ hlast']
      · congr 1
        simp; omega
      · rintro rfl
        intro h; simp at h; subst h; simp at hlast

theorem cppScan_item (it : Spec.Item) (last : Option Char) (i : Nat) (rest : Str)
    (hwf : it.WF) (hh : it.Handled) (hl : last ≠ some '\\')
    (hs : ¬ (last = some '/' ∧ it = Spec.Item.plain '/')) :
    ∃ last', cppScan false last i (it.render ++ rest) =
        cppScan false last' (i + it.render.length) rest ∧ last' ≠ some '\\' ∧
      (last' = some '/' → it = Spec.Item.plain '/') := by
  cases it with
  | plain c =>
    obtain ⟨h1, h2, h3⟩ := hwf
    refine ⟨some c, ?_, by simpa using h3, by simp⟩
    simp only [Spec.Item.render, List.cons_append, List.nil_append]
    have ht : cppToggle false last c = false := by simp [cppToggle, h1]
    conv => lhs; unfold cppScan
    rw [ht, if_neg]
    · rfl
    · rintro ⟨rfl, h5, _⟩; exact hs ⟨h5, rfl⟩
  | str body =>
    refine ⟨some '"', ?_, by decide, by simp⟩
    simp only [Spec.Item.render, List.cons_append]
    have ht : cppToggle false last '"' = true := by simp [cppToggle, hl]
    conv => lhs; unfold cppScan
    rw [ht, if_neg (by simp)]
    rw [List.append_assoc, List.singleton_append]
    rw [cppScan_str rest body (some '"') (i + 1) hwf (by intro _; decide) hh]
    congr 1
    simp; omega
  | chr c =>
    obtain ⟨h1, h2⟩ := hwf
    have h3 : c ≠ '"' := hh
    refine ⟨some '\'', ?_, by decide, by simp⟩
    simp [Spec.Item.render, cppScan, cppToggle, h3]
  | chrEsc c =>
    refine ⟨some '\'', ?_, by decide, by simp⟩
    simp [Spec.Item.render, cppScan, cppToggle]

theorem cppScan_items (cmt : Str) : ∀ (items : List Spec.Item) (last : Option Char) (i : Nat),
    (∀ it ∈ items, it.WF) → (∀ it ∈ items, it.Handled) →
    List.IsChain (fun a b => ¬ (a = Spec.Item.plain '/' ∧ b = Spec.Item.plain '/')) items →
    (cmt = [] ∨ (['/', '/'] <+: cmt ∧ items.getLast? ≠ some (Spec.Item.plain '/'))) →
    last ≠ some '\\' → (∀ it ∈ items.head?, ¬ (last = some '/' ∧ it = Spec.Item.plain '/')) →
    (items = [] → cmt ≠ [] → last ≠ some '/') →
    cppScan false last i (Spec.render items ++ cmt) =
      if cmt = [] then none else some (i + (Spec.render items).length) := by
  intro items
  induction items with
  | nil =>
    intro last i _ _ _ hc _ _ hlast
    rcases hc with rfl | ⟨⟨t, rfl⟩, _⟩
    · rfl
    · have := hlast rfl (by simp)
      simp [Spec.render, cppScan, cppToggle, this]
  | cons it its ih =>
    intro last i hwf hh hch hc hl hhead _
    have hrender : Spec.render (it :: its) = it.render ++ Spec.render its := by simp [Spec.render]
    obtain ⟨last', h1, h2, h3⟩ := cppScan_item it last i (Spec.render its ++ cmt)
      (hwf it (by simp)) (hh it (by simp)) hl (hhead it (by simp))
    rw [hrender, List.append_assoc, h1, ih last' _ (fun x hx => hwf x (by simp [hx]))
      (fun x hx => hh x (by simp [hx])) ?_ ?_ h2 ?_ ?_]
    · split
      · rfl
      · simp; omega
    · cases its with
      | nil => simp
      | cons y ys => exact (List.isChain_cons_cons.1 hch).2
    · rcases hc with rfl | ⟨h4, h5⟩
      · left; rfl
      · right
        refine ⟨h4, ?_⟩
        intro h
        apply h5
        cases its with
        | nil => simp at h
        | cons y ys => simpa using h
    · intro x hx ⟨h4, h5⟩
      cases its with
      | nil => simp at hx
      | cons y ys =>
        simp at hx; subst hx
        exact (List.isChain_cons_cons.1 hch).1 ⟨h3 h4, h5⟩
    · rintro rfl hne h4
      rcases hc with rfl | ⟨_, h5⟩
      · exact hne rfl
      · rw [h3 h4] at h5; simp at h5

theorem position_of_line (items : List Spec.Item) (cmt : Str) (h : Spec.IsLine items cmt)
    (hh : ∀ it ∈ items, it.Handled) :
    lineCppCommentPosition (Spec.render items ++ cmt) =
      if cmt = [] then none else some (Spec.render items).length := by
  obtain ⟨h1, h2, h3⟩ := h
  have := cppScan_items cmt items none 0 h1 hh h2 h3 (by decide) (by simp) (by simp)
  simpa [lineCppCommentPosition] using this

/-! ### Python comments -/

def toggleQ (inString : Bool) (c : Char) : Bool :=
  if c = '"' ∨ c = '\'' then !inString else inString

/-- The scanner on the line itself, both quote characters toggling. -/
def scanQ (skip : Bool) : Bool → Bool → Nat → Str → Option Nat
  | _, _, _, [] => none
  | inString, seen, i, c :: cs =>
    if c = '#' ∧ toggleQ inString c = false ∧ (skip = false ∨ seen = true) then some i
    else scanQ skip (toggleQ inString c) (seen || !isSpace c) (i + 1) cs

theorem scanQ_quote_step (skip b s : Bool) (i : Nat) (c : Char) (rest : Str)
    (hc : c = '"' ∨ c = '\'') :
    scanQ skip b s i (c :: rest) = scanQ skip (!b) true (i + 1) rest := by
  rcases hc with rfl | rfl <;> simp [scanQ, toggleQ, show isSpace '"' = false by decide,
    show isSpace '\'' = false by decide]

theorem scanQ_under_step (skip b s : Bool) (i : Nat) (rest : Str) :
    scanQ skip b s i ('_' :: rest) = scanQ skip b true (i + 1) rest := by
  simp [scanQ, toggleQ, show isSpace '_' = false by decide]

theorem scanQ_triple (skip : Bool) (q : Char) (hq : q = '"' ∨ q = '\'') :
    ∀ (n : Nat) (s : Str), s.length ≤ n → ∀ (b seen : Bool) (i : Nat),
    scanQ skip b seen i (replace s [q, q, q] ['_', '_', q]) = scanQ skip b seen i s := by
  intro n
  induction n with
  | zero =>
    intro s hs b seen i
    have : s = [] := by simpa using hs
    subst this; rfl
  | succ n ih =>
    intro s hs b seen i
    by_cases hp : [q, q, q] <+: s
    · obtain ⟨t, rfl⟩ := hp
      have hlen : t.length ≤ n := by simp at hs; omega
      rw [replace_match (by simp)]
      simp only [List.cons_append, List.nil_append]
      rw [scanQ_under_step, scanQ_under_step, scanQ_quote_step _ _ _ _ _ _ hq,
        scanQ_quote_step _ _ _ _ _ _ hq, scanQ_quote_step _ _ _ _ _ _ hq,
        scanQ_quote_step _ _ _ _ _ _ hq, ih t hlen]
      simp
    · cases s with
      | nil => rfl
      | cons c cs =>
        rw [replace_no_match hp]
        unfold scanQ
        split
        · rfl
        · exact ih cs (by simpa using hs) _ _ _

theorem pyScan_quotes (skip : Bool) (s : Str) : ∀ (b seen : Bool) (i : Nat),
    pyScan skip b seen i (replace s ['\''] ['"']) = scanQ skip b seen i s := by
  rw [replace_char]
  induction s with
  | nil => intro b seen i; rfl
  | cons c cs ih =>
    intro b seen i
    by_cases hc : c = '\''
    · subst hc
      simp [pyScan, scanQ, pyToggle, toggleQ, ih, show isSpace '"' = false by decide,
        show isSpace '\'' = false by decide]
    · simp [hc, pyScan, scanQ, pyToggle, toggleQ, ih]

theorem position_eq_scanQ (line : Str) (skip : Bool) :
    linePythonCommentPosition line skip = scanQ skip false false 0 line := by
  unfold linePythonCommentPosition normalizeQuotes
  rw [pyScan_quotes]
  have h1 := scanQ_triple skip '\'' (Or.inr rfl) _ (replace line "\"\"\"".toList "__\"".toList)
    (Nat.le_refl _) false false 0
  have h2 := scanQ_triple skip '"' (Or.inl rfl) _ line (Nat.le_refl _) false false 0
  exact h1.trans h2

abbrev isQuote : Char → Bool := fun c => c = '"' || c = '\''

/-- Scanning a piece without a hit only changes the state. -/
theorem scanQ_none_append (a b : Str) : ∀ (q s : Bool) (i : Nat), scanQ true q s i a = none →
    scanQ true q s i (a ++ b) =
      scanQ true (q ^^ (a.countP isQuote % 2 == 1)) (s || a.any (fun c => !isSpace c))
        (i + a.length) b := by
  induction a with
  | nil => intro q s i _; simp
  | cons c cs ih =>
    intro q s i h
    unfold scanQ at h
    simp only [List.cons_append]
    conv => lhs; unfold scanQ
    split at h
    · simp at h
    · rename_i hc
      rw [if_neg hc, ih _ _ _ h]
      congr 1
      · by_cases hq : c = '"' ∨ c = '\''
        · have : isQuote c = true := by simpa [isQuote] using hq
          rw [toggleQ, if_pos hq, List.countP_cons, if_pos this]
          rcases Nat.mod_two_eq_zero_or_one (cs.countP isQuote) with h0 | h0
          · have : (cs.countP isQuote + 1) % 2 = 1 := by omega
            simp [h0, this]
          · have : (cs.countP isQuote + 1) % 2 = 0 := by omega
            simp [h0, this]
        · have : isQuote c = false := by
            cases hx : isQuote c with
            | true => exact absurd (by simpa [isQuote] using hx) hq
            | false => rfl
          simp [toggleQ, hq, List.countP_cons, this]
      · simp [Bool.or_assoc]
      · simp; omega

theorem scanQ_append_some (a b : Str) : ∀ (q s : Bool) (i p : Nat), scanQ true q s i a = some p →
    scanQ true q s i (a ++ b) = some p := by
  induction a with
  | nil => intro q s i p h; simp [scanQ] at h
  | cons c cs ih =>
    intro q s i p h
    unfold scanQ at h
    simp only [List.cons_append]
    unfold scanQ
    split at h
    · rename_i hc; rw [if_pos hc]; exact h
    · rename_i hc; rw [if_neg hc]; exact ih _ _ _ _ h

/-- The candidate seen by the scanner after the prefix `a`. -/
def hit (a : Str) : Prop := (∃ c ∈ a, isSpace c = false) ∧
  a.countP (fun c => c = '"' || c = '\'') % 2 = 0

theorem scanQ_decomp (s : Str) : ∀ n, s.length = n →
    (scanQ true false false 0 s = none ∧ ∀ a b, s = a ++ '#' :: b → ¬ hit a) ∨
    ∃ a b, s = a ++ '#' :: b ∧ hit a ∧ scanQ true false false 0 a = none ∧
      scanQ true false false 0 s = some a.length ∧ ∀ a' b', a = a' ++ '#' :: b' → ¬ hit a' := by
  intro n
  induction n generalizing s with
  | zero =>
    intro h
    have : s = [] := by simpa using h
    subst this
    left; refine ⟨rfl, ?_⟩; intro a b h; simp at h
  | succ n ih =>
    intro h
    obtain ⟨t, c, rfl⟩ : ∃ t c, s = t ++ [c] := by
      have hne : s ≠ [] := by rintro rfl; simp at h
      exact ⟨s.dropLast, s.getLast hne, (List.dropLast_append_getLast hne).symm⟩
    simp at h
    rcases ih t h with ⟨h1, h2⟩ | ⟨a, b, h1, h2, h3, h4, h5⟩
    · have hstep := scanQ_none_append t [c] false false 0 h1
      by_cases hc : c = '#' ∧ hit t
      · obtain ⟨rfl, hh⟩ := hc
        right
        refine ⟨t, [], rfl, hh, h1, ?_, h2⟩
        rw [hstep]
        obtain ⟨⟨x, hx, hx'⟩, he⟩ := hh
        have : t.any (fun c => !isSpace c) = true := by
          rw [List.any_eq_true]; exact ⟨x, hx, by simp [hx']⟩
        simp [scanQ, toggleQ, he, this]
      · left
        constructor
        · rw [hstep]
          unfold scanQ
          rw [if_neg]
          · rfl
          · rintro ⟨rfl, h6, h7⟩
            apply hc
            refine ⟨rfl, ?_, ?_⟩
            · simp at h7
              obtain ⟨x, hx, hx'⟩ := h7
              exact ⟨x, hx, by simpa using hx'⟩
            · simp [toggleQ] at h6
              omega
        · intro a b hab hh
          rcases List.append_eq_append_iff.1 hab with ⟨u, hu, hv⟩ | ⟨u, hu, hv⟩
          · cases u with
            | nil =>
              simp at hu hv
              exact hc ⟨hv.1, by rw [← hu]; exact hh⟩
            | cons x xs => simp at hv
          · cases u with
            | nil =>
              simp at hu hv
              exact hc ⟨hv.1.symm, by rw [hu]; exact hh⟩
            | cons x xs =>
              simp at hv
              exact h2 a xs (by rw [hu, hv.1]) hh
    · right
      exact ⟨a, b ++ [c], by simp [h1], h2, h3, by rw [scanQ_append_some t [c] _ _ _ _ h4], h5⟩

/-- The end-of-line comment position, characterised. -/
theorem eol_cases (line : Str) :
    (linePythonCommentEolPosition line = none ∧ ∀ a b, line = a ++ '#' :: b → ¬ hit a) ∨
    ∃ a b, line = a ++ '#' :: b ∧ hit a ∧ scanQ true false false 0 a = none ∧
      linePythonCommentEolPosition line = some a.length ∧
      ∀ a' b', a = a' ++ '#' :: b' → ¬ hit a' := by
  unfold linePythonCommentEolPosition
  rw [position_eq_scanQ]
  exact scanQ_decomp line _ rfl

theorem candidate_iff (line : Str) (p : Nat) :
    Spec.EolCandidate line p ↔ ∃ a b, line = a ++ '#' :: b ∧ a.length = p ∧ hit a := by
  constructor
  · rintro ⟨h1, h2, h3⟩
    obtain ⟨hp, he⟩ := List.getElem?_eq_some_iff.1 h1
    refine ⟨line.take p, line.drop (p + 1), ?_, by simp; omega, h2, h3⟩
    rw [← he]
    simp
  · rintro ⟨a, b, rfl, rfl, h⟩
    refine ⟨by simp, ?_, ?_⟩
    · simpa using h.1
    · have := h.2
      simpa using this

theorem spaces_scan (k : Nat) (s : Bool) (q : Bool) (i : Nat) (rest : Str) :
    scanQ true q s i (spaces k ++ rest) = scanQ true q s (i + k) rest := by
  induction k generalizing i with
  | zero => rfl
  | succ k ih =>
    have : spaces (k + 1) = ' ' :: spaces k := rfl
    rw [this, List.cons_append]
    conv => lhs; unfold scanQ
    rw [if_neg (by simp), show toggleQ q ' ' = q by simp [toggleQ]]
    rw [show (s || !isSpace ' ') = s by cases s <;> decide, ih]
    congr 1; omega

theorem eol_after_align (a b : Str) (k : Nat) (h1 : hit a) (h2 : scanQ true false false 0 a = none) :
    linePythonCommentEolPosition (a ++ spaces k ++ '#' :: b) = some (a.length + k) := by
  unfold linePythonCommentEolPosition
  rw [position_eq_scanQ, List.append_assoc, scanQ_none_append _ _ _ _ _ h2, spaces_scan]
  obtain ⟨⟨x, hx, hx'⟩, he⟩ := h1
  have : a.any (fun c => !isSpace c) = true := by
    rw [List.any_eq_true]; exact ⟨x, hx, by simp [hx']⟩
  simp [scanQ, toggleQ, he, this]

theorem foldl_max_ge (ps : List Nat) : ∀ p, p ≤ ps.foldl max p ∧ ∀ x ∈ ps, x ≤ ps.foldl max p := by
  induction ps with
  | nil => intro p; simp
  | cons y ys ih =>
    intro p
    have h := ih (max p y)
    simp only [List.foldl_cons]
    refine ⟨by have := h.1; omega, ?_⟩
    intro x hx
    rcases List.mem_cons.1 hx with rfl | hx
    · have := h.1; omega
    · exact h.2 x hx

theorem foldl_max_mem (ps : List Nat) : ∀ p, ps.foldl max p ∈ p :: ps := by
  induction ps with
  | nil => intro p; simp
  | cons y ys ih =>
    intro p
    simp only [List.foldl_cons]
    have h := ih (max p y)
    rcases List.mem_cons.1 h with h | h
    · rw [h]
      rcases Nat.le_total p y with h' | h'
      · rw [Nat.max_eq_right h']; simp
      · rw [Nat.max_eq_left h']; simp
    · simp [h]

end Verif.Comment
