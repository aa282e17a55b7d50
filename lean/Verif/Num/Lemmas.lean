import Verif.Escape.Lemmas
import Verif.Num.Spec
import Mathlib.Data.List.Perm.Subperm

namespace Verif.Num
open Verif.Py Spec

/-! ### enums -/

theorem members_fillLoop (macros : Str → Option Int) : ∀ (cs : List Child) (last : Option Str),
    (members (fillLoop macros last cs)).map Prod.fst = (members cs).map Prod.fst
  | [], _ => rfl
  | .other _ :: cs, last => members_fillLoop macros cs last
  | .decl n v :: cs, last => by
    show n :: _ = n :: _
    rw [members_fillLoop macros cs]

/-- The same loop on the members only. -/
def fillMembers (macros : Str → Option Int) : Option Str → List (Str × Str) → List (Str × Str)
  | _, [] => []
  | last, (n, v) :: ms => (n, filledValue macros last v) :: fillMembers macros (some (filledValue macros last v)) ms

theorem members_fillLoop_eq (macros : Str → Option Int) : ∀ (cs : List Child) (last : Option Str),
    members (fillLoop macros last cs) = fillMembers macros last (members cs)
  | [], _ => rfl
  | .other _ :: cs, last => members_fillLoop_eq macros cs last
  | .decl n v :: cs, last => by
    show (n, _) :: _ = (n, _) :: _
    rw [members_fillLoop_eq macros cs]

theorem fillMembers_append (macros : Str → Option Int) : ∀ (a b : List (Str × Str)) (last : Option Str),
    ∃ last', fillMembers macros last (a ++ b) = fillMembers macros last a ++ fillMembers macros last' b ∧
      (a = [] → last' = last) ∧ (∀ p, (fillMembers macros last a).getLast? = some p → last' = some p.2)
  | [], b, last => ⟨last, rfl, fun _ => rfl, fun p hp => nomatch hp⟩
  | (n, v) :: a, b, last => by
    obtain ⟨last', h1, h2, h3⟩ := fillMembers_append macros a b (some (filledValue macros last v))
    refine ⟨last', ?_, (fun h => nomatch h), ?_⟩
    · show (n, _) :: fillMembers macros _ (a ++ b) = (n, _) :: (fillMembers macros _ a ++ _)
      rw [h1]
    · intro p hp
      cases a with
      | nil =>
        simp only [fillMembers, List.getLast?_singleton, Option.some.injEq] at hp
        rw [h2 rfl, ← hp]
      | cons x xs =>
        apply h3
        obtain ⟨xn, xv⟩ := x
        simp only [fillMembers, List.getLast?_cons_cons] at hp ⊢
        exact hp

theorem fillMembers_implicit (macros : Str → Option Int) : ∀ (names : List Str) (v : Int) (j : Nat) (n : Str),
    names[j]? = some n →
    (fillMembers macros (some (intStr v)) (names.map (fun n => (n, []))))[j]? = some (n, intStr (v + j + 1))
  | [], _, _, _, h => by simp at h
  | m :: ms, v, j, n, h => by
    have hf : filledValue macros (some (intStr v)) [] = intStr (v + 1) := by
      unfold filledValue
      rw [if_neg (by simp)]
      simp only [pyInt_intStr 10 (Or.inr rfl)]
    rw [List.map_cons]
    unfold fillMembers
    rw [hf]
    cases j with
    | zero => simp at h; simp [h]
    | succ j =>
      rw [List.getElem?_cons_succ, fillMembers_implicit macros ms (v + 1) j n (by simpa using h)]
      congr 3
      push_cast
      omega

theorem fillMembers_length (macros : Str → Option Int) : ∀ (ms : List (Str × Str)) (last : Option Str),
    (fillMembers macros last ms).length = ms.length
  | [], _ => rfl
  | (n, v) :: ms, last => by simp [fillMembers, fillMembers_length macros ms]

/-! ### literals -/

theorem number_aux (base : Nat) (s : Str) : ∀ (acc v : Nat) (last : Bool),
    s.foldl (fun acc c => acc.bind (fun a => (digitVal c).bind (fun d =>
      if d < base then some (a * base + d) else none))) (some acc) = some v →
    (s = [] → last = true) → digitsAux base acc last s = some v := by
  induction s with
  | nil => intro acc v last h hl; simpa [digitsAux, hl rfl] using h
  | cons c s ih =>
    intro acc v last h _
    have hnone : ∀ s : Str, s.foldl (fun acc c => acc.bind (fun a => (digitVal c).bind (fun d =>
      if d < base then some (a * base + d) else none))) none = none := by
      intro s; induction s with
      | nil => rfl
      | cons x s ih => exact ih
    rw [List.foldl_cons] at h
    simp only [Option.bind_some] at h
    unfold digitsAux
    cases hd : digitVal c with
    | none => rw [hd] at h; simp only [Option.bind_none] at h; rw [hnone] at h; cases h
    | some d =>
      rw [hd] at h
      simp only [Option.bind_some] at h
      have hne : c ≠ '_' := by rintro rfl; cases hd
      rw [if_neg hne]
      simp only []
      by_cases hb : d < base
      · rw [if_pos hb] at h ⊢
        exact ih _ v true h (fun _ => rfl)
      · rw [if_neg hb, hnone] at h; cases h

theorem number_digits {base : Nat} {s : Str} {v : Nat} (h : number base s = some v) : digits base s = some v := by
  unfold number at h
  by_cases hs : s = []
  · rw [if_pos hs] at h; cases h
  · rw [if_neg hs] at h
    exact number_aux base s 0 v false h (fun h => absurd h hs)

/-- All the characters of a number are digits of its base. -/
theorem number_chars {base : Nat} : ∀ {s : Str} {v : Nat}, number base s = some v →
    ∀ c ∈ s, ∃ d, digitVal c = some d ∧ d < base := by
  have key : ∀ (s : Str) (acc : Option Nat) (v : Nat), s.foldl (fun acc c => acc.bind (fun a => (digitVal c).bind (fun d =>
      if d < base then some (a * base + d) else none))) acc = some v →
      (∃ a, acc = some a) ∧ ∀ c ∈ s, ∃ d, digitVal c = some d ∧ d < base := by
    intro s
    induction s with
    | nil => intro acc v h; exact ⟨⟨v, h⟩, by simp⟩
    | cons c s ih =>
      intro acc v h
      rw [List.foldl_cons] at h
      obtain ⟨⟨a, ha⟩, h2⟩ := ih _ v h
      cases acc with
      | none => cases ha
      | some x =>
        simp only [Option.bind_some] at ha
        cases hd : digitVal c with
        | none => rw [hd] at ha; cases ha
        | some d =>
          rw [hd] at ha
          simp only [Option.bind_some] at ha
          by_cases hb : d < base
          · refine ⟨⟨x, rfl⟩, ?_⟩
            intro y hy
            rcases List.mem_cons.1 hy with rfl | hy
            · exact ⟨d, hd, hb⟩
            · exact h2 y hy
          · rw [if_neg hb] at ha; cases ha
  intro s v h
  unfold number at h
  by_cases hs : s = []
  · rw [if_pos hs] at h; cases h
  · rw [if_neg hs] at h
    exact (key s _ v h).2

theorem number_ne_nil {base : Nat} {s : Str} {v : Nat} (h : number base s = some v) : s ≠ [] := by
  rintro rfl
  simp [number] at h

theorem number_zero_cons {base : Nat} {r : Str} {v : Nat} (hb : 0 < base) (h : number base r = some v) :
    number base ('0' :: r) = some v := by
  unfold number at h ⊢
  by_cases hs : r = []
  · rw [if_pos hs] at h; cases h
  · rw [if_neg hs] at h
    rw [if_neg (by simp), List.foldl_cons]
    have : (Option.bind (some 0) fun a => (digitVal '0').bind fun d => if d < base then some (a * base + d) else none)
        = some 0 := by
      show (if 0 < base then some (0 * base + 0) else none) = some 0
      rw [if_pos hb]; simp
    rw [this]
    exact h

theorem digitVal_le {c : Char} {d : Nat} (h : digitVal c = some d) :
    isSpace c = false ∧ c ≠ '_' ∧ c ≠ '-' ∧ c ≠ '+' ∧ c ≠ '(' ∧ c ≠ ')' ∧ c ≠ '.' ∧ c ≠ '"' := by
  refine ⟨?_, ?_, ?_, ?_, ?_, ?_, ?_, ?_⟩
  · unfold digitVal at h
    unfold isSpace
    simp only [] at h ⊢
    split at h
    · simp; omega
    · split at h
      · simp; omega
      · split at h
        · simp; omega
        · cases h
  all_goals (rintro rfl; revert h; unfold digitVal; simp)

theorem digit_small {c : Char} {d : Nat} (h : digitVal c = some d) (hd : d < 10) : 48 ≤ c.toNat ∧ c.toNat = 48 + d := by
  unfold digitVal at h
  simp only [] at h
  split at h
  · simp at h; omega
  · split at h
    · simp at h; omega
    · split at h
      · simp at h; omega
      · cases h

theorem digit_prefix {c : Char} {d : Nat} (h : digitVal c = some d) (hd : d < 10) : prefixBase c = none := by
  obtain ⟨h1, h2⟩ := digit_small h hd
  unfold prefixBase
  have hx : ∀ x : Char, 58 ≤ x.toNat → c ≠ x := by
    rintro x hx rfl; omega
  simp [hx 'x' (by decide), hx 'X' (by decide), hx 'o' (by decide), hx 'O' (by decide), hx 'b' (by decide), hx 'B' (by decide)]

/-- The suffix letters are not hexadecimal digits. -/
theorem hex_not_suffix {c : Char} {d : Nat} (h : digitVal c = some d) (hd : d < 16) : "uUlL".toList.contains c = false := by
  have hx : c ≠ 'u' ∧ c ≠ 'U' ∧ c ≠ 'l' ∧ c ≠ 'L' := by
    refine ⟨?_, ?_, ?_, ?_⟩ <;> (rintro rfl; revert h hd; unfold digitVal; simp; try omega)
  simp [hx.1, hx.2.1, hx.2.2.1, hx.2.2.2]

/-- What a C++ literal looks like. -/
theorem cLiteral_cases {s : Str} {v : Nat} (h : cLiteral s = some v) :
    (∃ x r, (x = 'x' ∨ x = 'X') ∧ s = '0' :: x :: r ∧ number 16 r = some v) ∨
    (∃ x r, (x = 'b' ∨ x = 'B') ∧ s = '0' :: x :: r ∧ number 2 r = some v) ∨
    (s = ['0'] ∧ v = 0) ∨
    (∃ r, s = '0' :: r ∧ number 8 r = some v) ∨
    (∃ c r, c ≠ '0' ∧ s = c :: r ∧ number 10 s = some v) := by
  unfold cLiteral at h
  split at h
  · exact Or.inl ⟨'x', _, Or.inl rfl, rfl, h⟩
  · exact Or.inl ⟨'X', _, Or.inr rfl, rfl, h⟩
  · exact Or.inr (Or.inl ⟨'b', _, Or.inl rfl, rfl, h⟩)
  · exact Or.inr (Or.inl ⟨'B', _, Or.inr rfl, rfl, h⟩)
  · simp at h; exact Or.inr (Or.inr (Or.inl ⟨rfl, h.symm⟩))
  · exact Or.inr (Or.inr (Or.inr (Or.inl ⟨_, rfl, h⟩)))
  · rename_i h1 h2 h3 h4 h5 h6
    cases s with
    | nil => simp [number] at h
    | cons c r =>
      refine Or.inr (Or.inr (Or.inr (Or.inr ⟨c, r, ?_, rfl, h⟩)))
      rintro rfl
      exact h6 r rfl

theorem unsigned_hex {x : Char} {r : Str} {v base : Nat} (hx : x = 'x' ∨ x = 'X') (h : number 16 r = some v)
    (hb : base = 0 ∨ base = 16) : unsignedInt base ('0' :: x :: r) = some v := by
  have hp : prefixBase x = some 16 := by rcases hx with rfl | rfl <;> rfl
  unfold unsignedInt
  simp only [hp]
  rw [if_pos hb]
  unfold afterPrefix
  cases r with
  | nil => exact absurd rfl (number_ne_nil h)
  | cons c r =>
    obtain ⟨d, hd, _⟩ := number_chars h c (by simp)
    split
    · rename_i heq
      exact absurd (List.cons.inj heq).1 (digitVal_le hd).2.1
    · exact number_digits h

theorem unsigned_bin {x : Char} {r : Str} {v : Nat} (hx : x = 'b' ∨ x = 'B') (h : number 2 r = some v) :
    unsignedInt 0 ('0' :: x :: r) = some v := by
  have hp : prefixBase x = some 2 := by rcases hx with rfl | rfl <;> rfl
  unfold unsignedInt
  simp only [hp]
  rw [if_pos (by simp)]
  unfold afterPrefix
  cases r with
  | nil => exact absurd rfl (number_ne_nil h)
  | cons c r =>
    obtain ⟨d, hd, _⟩ := number_chars h c (by simp)
    split
    · rename_i heq
      exact absurd (List.cons.inj heq).1 (digitVal_le hd).2.1
    · exact number_digits h

theorem unsigned_oct {r : Str} {v : Nat} (h : number 8 r = some v) : unsignedInt 8 ('0' :: r) = some v := by
  cases r with
  | nil => exact absurd rfl (number_ne_nil h)
  | cons c r =>
    obtain ⟨d, hd, hd8⟩ := number_chars h c (by simp)
    unfold unsignedInt
    simp only [digit_prefix hd (by omega)]
    rw [if_neg (by omega)]
    exact number_digits (number_zero_cons (by omega) h)

/-- The octal literal of Python. -/
theorem unsigned_oct_python {r : Str} {v : Nat} (h : number 8 r = some v) : unsignedInt 0 ('0' :: 'o' :: r) = some v := by
  unfold unsignedInt
  have hp : prefixBase 'o' = some 8 := rfl
  simp only [hp]
  rw [if_pos (by simp)]
  unfold afterPrefix
  cases r with
  | nil => exact absurd rfl (number_ne_nil h)
  | cons c r =>
    obtain ⟨d, hd, _⟩ := number_chars h c (by simp)
    split
    · rename_i heq
      exact absurd (List.cons.inj heq).1 (digitVal_le hd).2.1
    · exact number_digits h

theorem unsigned_dec {c : Char} {r : Str} {v base : Nat} (hc : c ≠ '0') (h : number 10 (c :: r) = some v)
    (hb : base = 0 ∨ base = 10) : unsignedInt base (c :: r) = some v := by
  unfold unsignedInt
  split
  · rename_i heq
    exact absurd (List.cons.inj heq).1 hc
  · have : (if base = 0 then 10 else base) = 10 := by rcases hb with rfl | rfl <;> rfl
    rw [this]
    exact number_digits h

theorem unsigned_zero (base : Nat) (hb : base = 0 ∨ base = 10) : unsignedInt base ['0'] = some 0 := by
  rcases hb with rfl | rfl <;> decide

/-- The first character of a C++ literal is a digit, and no character is a blank. -/
theorem cLiteral_chars {s : Str} {v : Nat} (h : cLiteral s = some v) :
    (∃ c r d, s = c :: r ∧ digitVal c = some d) ∧ (∀ c ∈ s, ∃ d, digitVal c = some d) ∧
    (∀ c, s.getLast? = some c → ∃ d, digitVal c = some d ∧ d < 16) := by
  have hlast : ∀ (p r : Str) (b : Nat), r ≠ [] → b ≤ 16 → (∀ c ∈ r, ∃ d, digitVal c = some d ∧ d < b) →
      ∀ c, (p ++ r).getLast? = some c → ∃ d, digitVal c = some d ∧ d < 16 := by
    intro p r b hr hb hh c hc
    rw [List.getLast?_append, List.getLast?_eq_some_getLast hr] at hc
    simp only [Option.some_or, Option.some.injEq] at hc
    obtain ⟨d, h1, h2⟩ := hh c (by rw [← hc]; exact List.getLast_mem _)
    exact ⟨d, h1, by omega⟩
  have h0 : digitVal '0' = some 0 := by decide
  rcases cLiteral_cases h with ⟨x, r, hx, rfl, hn⟩ | ⟨x, r, hx, rfl, hn⟩ | ⟨rfl, _⟩ | ⟨r, rfl, hn⟩ | ⟨c, r, _, rfl, hn⟩
  · have hv : ∃ d, digitVal x = some d := by rcases hx with rfl | rfl <;> exact ⟨33, by decide⟩
    refine ⟨⟨'0', _, 0, rfl, h0⟩, ?_, hlast ['0', x] r 16 (number_ne_nil hn) (by omega) (number_chars hn)⟩
    intro c hc
    simp only [List.mem_cons] at hc
    rcases hc with rfl | rfl | hc
    · exact ⟨0, h0⟩
    · exact hv
    · obtain ⟨d, hd, _⟩ := number_chars hn c hc; exact ⟨d, hd⟩
  · have hv : ∃ d, digitVal x = some d := by rcases hx with rfl | rfl <;> exact ⟨11, by decide⟩
    refine ⟨⟨'0', _, 0, rfl, h0⟩, ?_, hlast ['0', x] r 2 (number_ne_nil hn) (by omega) (number_chars hn)⟩
    intro c hc
    simp only [List.mem_cons] at hc
    rcases hc with rfl | rfl | hc
    · exact ⟨0, h0⟩
    · exact hv
    · obtain ⟨d, hd, _⟩ := number_chars hn c hc; exact ⟨d, hd⟩
  · refine ⟨⟨'0', _, 0, rfl, h0⟩, ?_, ?_⟩
    · intro c hc; simp at hc; subst hc; exact ⟨0, h0⟩
    · intro c hc; simp at hc; subst hc; exact ⟨0, h0, by omega⟩
  · refine ⟨⟨'0', _, 0, rfl, h0⟩, ?_, hlast ['0'] r 8 (number_ne_nil hn) (by omega) (number_chars hn)⟩
    intro c hc
    simp only [List.mem_cons] at hc
    rcases hc with rfl | hc
    · exact ⟨0, h0⟩
    · obtain ⟨d, hd, _⟩ := number_chars hn c hc; exact ⟨d, hd⟩
  · obtain ⟨d, hd, _⟩ := number_chars hn c (by simp)
    refine ⟨⟨c, r, d, rfl, hd⟩, ?_, hlast [] (c :: r) 10 (by simp) (by omega) (number_chars hn)⟩
    intro c' hc
    obtain ⟨d, hd, _⟩ := number_chars hn c' hc; exact ⟨d, hd⟩

theorem cSigned_cases {v : Str} {k : Int} (h : cSigned v = some k) :
    (∃ r w, v = '-' :: r ∧ cLiteral r = some w ∧ k = -(w : Int)) ∨ (∃ w, cLiteral v = some w ∧ k = (w : Int)) := by
  unfold cSigned at h
  split at h
  · rename_i r
    cases hr : cLiteral r with
    | none => rw [hr] at h; cases h
    | some w => rw [hr] at h; cases h; exact Or.inl ⟨r, w, rfl, hr, rfl⟩
  · cases hr : cLiteral v with
    | none => rw [hr] at h; cases h
    | some w => rw [hr] at h; cases h; exact Or.inr ⟨w, rfl, rfl⟩

/-- `int` on a text with no sign and no blank. -/
theorem pyInt_unsigned {base : Nat} {s : Str} {v : Nat} (hne : s ≠ []) (hs : ∀ c ∈ s, ∃ d, digitVal c = some d)
    (h : unsignedInt base s = some v) : pyInt base s = some (v : Int) := by
  unfold pyInt
  have hst : strip s = s := strip_ends
    (fun c hc => by obtain ⟨d, hd⟩ := hs c (List.mem_of_head? hc); exact (digitVal_le hd).1)
    (fun c hc => by obtain ⟨d, hd⟩ := hs c (List.mem_of_getLast? hc); exact (digitVal_le hd).1)
  rw [hst]
  cases s with
  | nil => exact absurd rfl hne
  | cons c r =>
    obtain ⟨d, hd⟩ := hs c (by simp)
    split
    · rename_i heq; exact absurd (List.cons.inj heq).1 (digitVal_le hd).2.2.1
    · rename_i heq; exact absurd (List.cons.inj heq).1 (digitVal_le hd).2.2.2.1
    · rw [h]; rfl

/-- `int` on the same after a minus sign. -/
theorem pyInt_minus {base : Nat} {s : Str} {v : Nat} (hne : s ≠ []) (hs : ∀ c ∈ s, ∃ d, digitVal c = some d)
    (h : unsignedInt base s = some v) : pyInt base ('-' :: s) = some (-(v : Int)) := by
  unfold pyInt
  have hst : strip ('-' :: s) = '-' :: s := strip_ends
    (fun c hc => by simp at hc; subst hc; decide)
    (fun c hc => by
      have : ('-' :: s).getLast? = s.getLast? := by
        cases s with
        | nil => exact absurd rfl hne
        | cons => rw [List.getLast?_cons_cons]
      rw [this] at hc
      obtain ⟨d, hd⟩ := hs c (List.mem_of_getLast? hc); exact (digitVal_le hd).1)
  rw [hst]
  simp only []
  rw [h]; rfl

theorem rstripSuffix_append {core suf : Str} (hs : ∀ c ∈ suf, c ∈ "uUlL".toList)
    (hc : ∀ c, core.getLast? = some c → "uUlL".toList.contains c = false) : rstripSuffix (core ++ suf) = core := by
  unfold rstripSuffix
  rw [List.reverse_append]
  have : ∀ (a b : Str), (∀ c ∈ a, c ∈ "uUlL".toList) → (∀ c, b.head? = some c → "uUlL".toList.contains c = false) →
      (a ++ b).dropWhile (fun c => "uUlL".toList.contains c) = b := by
    intro a b ha hb
    induction a with
    | nil =>
      cases b with
      | nil => rfl
      | cons x xs =>
        have := hb x rfl
        rw [List.nil_append, List.dropWhile_cons, this]; rfl
    | cons x xs ih =>
      have : "uUlL".toList.contains x = true := List.contains_iff_mem.2 (ha x (by simp))
      rw [List.cons_append, List.dropWhile_cons, this]
      exact ih (fun c hc => ha c (by simp [hc]))
  rw [this _ _ (fun c hc => hs c (by simpa using hc)) (fun c h => hc c (by rw [List.head?_reverse] at h; exact h))]
  simp

theorem isCOctal_of_number {r : Str} {v : Nat} (h : number 8 r = some v) : isCOctal ('0' :: r) = true := by
  cases r with
  | nil => exact absurd rfl (number_ne_nil h)
  | cons c r =>
    show (c :: r).all (fun d => 48 ≤ d.toNat && d.toNat ≤ 55) = true
    rw [List.all_eq_true]
    intro x hx
    obtain ⟨d, hd, h8⟩ := number_chars h x hx
    have := digit_small hd (by omega)
    simp; omega

theorem parse_cLiteral {core : Str} {v : Nat} (h : cLiteral core = some v) :
    (if core.length = 0 then none else if isCOctal core then pyInt 8 core else pyInt 0 core) = some (v : Int) := by
  obtain ⟨⟨c0, r0, d0, he, _⟩, hall, _⟩ := cLiteral_chars h
  have hne : core ≠ [] := by rw [he]; simp
  rw [if_neg (by rw [he]; simp)]
  rcases cLiteral_cases h with ⟨x, r, hx, rfl, hn⟩ | ⟨x, r, hx, rfl, hn⟩ | ⟨rfl, rfl⟩ | ⟨r, rfl, hn⟩ | ⟨c, r, hc, rfl, hn⟩
  · rw [if_neg (by rcases hx with rfl | rfl <;> simp [isCOctal])]
    exact pyInt_unsigned hne hall (unsigned_hex hx hn (Or.inl rfl))
  · rw [if_neg (by rcases hx with rfl | rfl <;> simp [isCOctal])]
    exact pyInt_unsigned hne hall (unsigned_bin hx hn)
  · decide
  · rw [if_pos (isCOctal_of_number hn)]
    exact pyInt_unsigned hne hall (unsigned_oct hn)
  · rw [if_neg]
    · exact pyInt_unsigned hne hall (unsigned_dec hc hn (Or.inl rfl))
    · unfold isCOctal
      split
      · rename_i heq
        exact absurd (List.cons.inj heq).1 hc
      · simp

/-! ### parentheses -/

theorem paren_iff (t : Str) : (t.length ≥ 2 ∧ startsWith t ['('] = true ∧ endsWith t [')'] = true) ↔
    ∃ m, t = '(' :: m ++ [')'] := by
  constructor
  · rintro ⟨h1, h2, h3⟩
    obtain ⟨a, ha⟩ := List.isPrefixOf_iff_prefix.1 h2
    obtain ⟨b, hb⟩ := List.isSuffixOf_iff_suffix.1 h3
    subst ha
    rcases List.eq_nil_or_concat a with rfl | ⟨l, x, rfl⟩
    · simp at h1
    · refine ⟨l, ?_⟩
      rw [List.concat_eq_append] at hb ⊢
      have e : ['('] ++ (l ++ [x]) = ('(' :: l) ++ [x] := rfl
      rw [e] at hb
      have := (List.append_inj' hb rfl).2
      simp only [List.cons.injEq, and_true] at this
      rw [← this]; rfl
  · rintro ⟨m, rfl⟩
    refine ⟨by simp, by simp [startsWith], ?_⟩
    unfold endsWith
    rw [List.isSuffixOf_iff_suffix]
    exact ⟨'(' :: m, rfl⟩

theorem take_drop_paren (m : Str) : (('(' :: m ++ [')']).take (('(' :: m ++ [')']).length - 1)).drop 1 = m := by
  have : ('(' :: m ++ [')']).length - 1 = ('(' :: m).length := by simp
  rw [this, List.take_left]
  rfl

theorem strip_paren (m : Str) : strip ('(' :: m ++ [')']) = '(' :: m ++ [')'] := by
  apply strip_ends
  · intro c hc; simp at hc; subst hc; decide
  · intro c hc
    rw [List.getLast?_append] at hc
    simp at hc; subst hc; decide

theorem peelLoop_paren (n : Nat) (m : Str) : peelLoop (n + 1) ('(' :: m ++ [')']) = peelLoop n (strip m) := by
  conv => lhs; unfold peelLoop
  rw [if_pos ((paren_iff _).2 ⟨m, rfl⟩), take_drop_paren]

theorem peelLoop_atom (n : Nat) {t : Str} (h : ¬ ∃ m, t = '(' :: m ++ [')']) : peelLoop n t = t := by
  cases n with
  | zero => rfl
  | succ n =>
    unfold peelLoop
    rw [if_neg (fun hh => h ((paren_iff t).1 hh))]

theorem wrapped_peel {s t : Str} (h : Wrapped s t) : ∀ n, s.length ≤ n → peelLoop n (strip s) = t := by
  induction h with
  | atom t h =>
    intro n _
    rw [strip_ends h.1 h.2.1]
    exact peelLoop_atom n h.2.2
  | blanks a s b t ha hb _ ih =>
    intro n hn
    rw [Escape.strip_append ha hb]
    apply ih
    simp only [List.length_append] at hn
    omega
  | parens s t _ ih =>
    intro n hn
    rw [strip_paren]
    simp only [List.length_append, List.length_cons, List.length_nil] at hn
    cases n with
    | zero => omega
    | succ n =>
      rw [peelLoop_paren]
      exact ih n (by omega)

theorem strip_decomp (s : Str) : ∃ a b, s = a ++ strip s ++ b ∧ (∀ c ∈ a, isSpace c = true) ∧ (∀ c ∈ b, isSpace c = true) := by
  obtain ⟨a, h1, h2⟩ := lstrip_decomp s
  obtain ⟨b, h3, h4⟩ := rstrip_decomp (lstrip s)
  refine ⟨a, b, ?_, h2, h4⟩
  unfold strip
  rw [List.append_assoc, ← h3]
  exact h1

theorem strip_clean (s : Str) : (∀ c, (strip s).head? = some c → isSpace c = false) ∧
    (∀ c, (strip s).getLast? = some c → isSpace c = false) := by
  constructor
  · intro c hc
    rcases lstrip_head s with h | ⟨d, r, h, hd⟩
    · unfold strip at hc; rw [h] at hc; simp [rstrip] at hc
    · unfold strip at hc
      rw [h] at hc
      obtain ⟨w, hw, hww⟩ := rstrip_decomp (d :: r)
      cases hr : rstrip (d :: r) with
      | nil => rw [hr] at hc; cases hc
      | cons x xs =>
        rw [hr] at hc hw
        simp only [List.head?_cons, Option.some.injEq] at hc
        have := (List.cons.inj hw).1
        rw [← hc, ← this]; exact hd
  · intro c hc
    unfold strip at hc
    rcases rstrip_last (lstrip s) with h | ⟨a, d, h, hd⟩
    · rw [h] at hc; cases hc
    · rw [h] at hc
      simp at hc
      rw [← hc]; exact hd

theorem peel_wrapped : ∀ (n : Nat) (s : Str), s.length ≤ n → Wrapped s (peelLoop n (strip s)) := by
  intro n
  induction n with
  | zero =>
    intro s hs
    have : s = [] := List.eq_nil_of_length_eq_zero (by omega)
    subst this
    exact .atom [] ⟨fun c hc => (by cases hc), fun c hc => (by cases hc), fun ⟨m, hm⟩ => by simp at hm⟩
  | succ n ih =>
    intro s hs
    obtain ⟨a, b, he, ha, hb⟩ := strip_decomp s
    have hlen := congrArg List.length he
    simp only [List.length_append] at hlen
    by_cases hp : ∃ m, strip s = '(' :: m ++ [')']
    · obtain ⟨m, hm⟩ := hp
      rw [hm, peelLoop_paren]
      rw [hm] at he hlen
      simp only [List.length_append, List.length_cons, List.length_nil] at hlen
      have := Wrapped.blanks a _ b _ ha hb (Wrapped.parens m _ (ih m (by omega)))
      rw [← he] at this
      exact this
    · rw [peelLoop_atom _ hp]
      have hc := strip_clean s
      have := Wrapped.blanks a _ b _ ha hb (Wrapped.atom (strip s) ⟨hc.1, hc.2, hp⟩)
      rw [← he] at this
      exact this

theorem wrapped_iff (s t : Str) : Wrapped s t ↔ peel s = t := by
  constructor
  · intro h; exact wrapped_peel h _ (Nat.le_refl _)
  · rintro rfl; exact peel_wrapped _ s (Nat.le_refl _)

theorem wrapped_self {s t : Str} (h : Wrapped s t) : Wrapped t t := by
  induction h with
  | atom t h => exact .atom t h
  | blanks _ _ _ _ _ _ _ ih => exact ih
  | parens _ _ _ ih => exact ih

/-! ### definitions -/

theorem rawValues_get (defines : List Define) (name : Str) :
    dictGet (rawValues defines) name = definition defines name := by
  have key : ∀ (ds : List Define) (raw : List (Str × Str)),
      dictGet (ds.foldl addDefine raw) name =
      (match definition ds name with
       | some v => some v
       | none => dictGet raw name) := by
    intro ds
    induction ds with
    | nil => intro raw; rfl
    | cons d ds ih =>
      intro raw
      rw [List.foldl_cons, ih]
      have hdef : definition (d :: ds) name =
          (match definition ds name with
           | some v => some v
           | none => if d.params = none ∧ d.value.isSome ∧ d.name = name then d.value else none) := by
        unfold definition
        rw [List.filter_cons]
        by_cases hp : d.params = none ∧ d.value.isSome ∧ d.name = name
        · rw [if_pos (by simpa using hp), if_pos hp]
          cases hf : (ds.filter (fun d => d.params = none ∧ d.value.isSome ∧ d.name = name)) with
          | nil => simp
          | cons x xs =>
            rw [List.getLast?_cons_cons]
            cases hl : (x :: xs).getLast? with
            | none => simp at hl
            | some y =>
              have hy : y ∈ ds.filter (fun d => d.params = none ∧ d.value.isSome ∧ d.name = name) := by
                rw [hf]; exact List.mem_of_getLast? hl
              have := (List.mem_filter.1 hy).2
              simp only [decide_eq_true_eq] at this
              obtain ⟨v, hv⟩ := Option.isSome_iff_exists.1 this.2.1
              simp [hv]
        · rw [if_neg (by simpa using hp), if_neg hp]
          cases ((ds.filter (fun d => d.params = none ∧ d.value.isSome ∧ d.name = name)).getLast?).bind Define.value <;> rfl
      rw [hdef]
      cases hds : definition ds name with
      | some v => rfl
      | none =>
        simp only []
        obtain ⟨n, p, v⟩ := d
        cases p with
        | some p => simp [addDefine]
        | none =>
          cases v with
          | none => simp [addDefine]
          | some v =>
            simp only [addDefine, dictGet_set]
            by_cases hn : n = name
            · subst hn; simp
            · simp [hn]
  have := key defines []
  unfold rawValues
  rw [this]
  cases definition defines name <;> rfl

theorem rawValues_nodup (defines : List Define) : ((rawValues defines).map Prod.fst).Nodup := by
  unfold rawValues
  have key : ∀ (ds : List Define) (raw : List (Str × Str)), (raw.map Prod.fst).Nodup →
      ((ds.foldl addDefine raw).map Prod.fst).Nodup := by
    intro ds
    induction ds with
    | nil => intro raw h; exact h
    | cons d ds ih =>
      intro raw h
      rw [List.foldl_cons]
      apply ih
      obtain ⟨n, p, v⟩ := d
      cases p with
      | some p => exact h
      | none =>
        cases v with
        | none => exact h
        | some v => exact dictSet_nodup _ _ _ h
  exact key defines [] (by simp)

/-! ### resolution -/

/-- Enough fuel. -/
theorem resolve_terminates (macros : Str → Option Int) (raw : List (Str × Str)) :
    ∀ (fuel : Nat) (token : Str) (seen : List Str), seen.Nodup → (∀ s ∈ seen, s ∈ raw.map Prod.fst) →
    raw.length < fuel + seen.length → resolve macros raw fuel token seen ≠ none := by
  intro fuel
  induction fuel with
  | zero =>
    intro token seen hn hs hl
    exfalso
    have := List.Subperm.length_le (List.Nodup.subperm hn hs)
    rw [List.length_map] at this
    omega
  | succ fuel ih =>
    intro token seen hn hs hl
    unfold resolve
    split
    · simp
    · split
      · simp
      · split
        · simp
        · rename_i value hv
          split
          · simp
          · rename_i hns
            apply ih
            · exact List.nodup_cons.2 ⟨hns, hn⟩
            · intro s h
              rcases List.mem_cons.1 h with rfl | h
              · exact (dictGet_isSome_iff _ _).1 ⟨_, hv⟩
              · exact hs s h
            · simp only [List.length_cons]; omega

theorem resolve_sound (macros : Str → Option Int) (defines : List Define) :
    ∀ (fuel : Nat) (token : Str) (seen : List Str) (v : Int),
    resolve macros (rawValues defines) fuel token seen = some (some v) → Denotes macros defines token v := by
  intro fuel
  induction fuel with
  | zero => intro token seen v h; cases h
  | succ fuel ih =>
    intro token seen v h
    have hw : Wrapped token (peel token) := (wrapped_iff _ _).2 rfl
    unfold resolve at h
    cases h1 : parseCIntLiteral (peel token) with
    | some w =>
      rw [h1] at h
      simp only [Option.some.injEq] at h
      subst h
      exact .literal _ _ _ hw h1
    | none =>
      rw [h1] at h
      simp only [] at h
      cases h2 : macros (peel token) with
      | some w =>
        rw [h2] at h
        simp only [Option.some.injEq] at h
        subst h
        exact .named _ _ _ hw h1 h2
      | none =>
        rw [h2] at h
        simp only [] at h
        cases h3 : dictGet (rawValues defines) (peel token) with
        | none => rw [h3] at h; simp at h
        | some text =>
          rw [h3] at h
          simp only [] at h
          split at h
          · simp at h
          · exact .macro_ _ _ _ _ hw h1 h2 (by rw [← rawValues_get]; exact h3) (ih _ _ _ h)

/-- With the number of definitions followed. -/
inductive DenotesN (macros : Str → Option Int) (defines : List Define) : Nat → Str → Int → Prop
  | literal (s : Str) (v : Int) (h : parseCIntLiteral (peel s) = some v) : DenotesN macros defines 0 s v
  | named (s : Str) (v : Int) (h1 : parseCIntLiteral (peel s) = none)
      (h2 : macros (peel s) = some v) : DenotesN macros defines 0 s v
  | macro_ (n : Nat) (s text : Str) (v : Int) (h1 : parseCIntLiteral (peel s) = none)
      (h2 : macros (peel s) = none) (h3 : definition defines (peel s) = some text)
      (h : DenotesN macros defines n text v) : DenotesN macros defines (n + 1) s v

theorem denotes_depth {macros : Str → Option Int} {defines : List Define} {s : Str} {v : Int}
    (h : Denotes macros defines s v) : ∃ n, DenotesN macros defines n s v := by
  induction h with
  | literal s t v hw h => rw [wrapped_iff] at hw; subst hw; exact ⟨0, .literal _ _ h⟩
  | named s t v hw h1 h2 => rw [wrapped_iff] at hw; subst hw; exact ⟨0, .named _ _ h1 h2⟩
  | macro_ s t text v hw h1 h2 h3 _ ih =>
    obtain ⟨n, hn⟩ := ih
    rw [wrapped_iff] at hw; subst hw
    exact ⟨n + 1, .macro_ n _ _ _ h1 h2 h3 hn⟩

theorem denotesN_det {macros : Str → Option Int} {defines : List Define} {n m : Nat} {s s' : Str} {v w : Int}
    (h : DenotesN macros defines n s v) (h' : DenotesN macros defines m s' w) (hp : peel s = peel s') : n = m ∧ v = w := by
  induction h generalizing m s' w with
  | literal s v h =>
    rw [hp] at h
    cases h' with
    | literal _ _ g => rw [h] at g; cases g; exact ⟨rfl, rfl⟩
    | named _ _ g1 _ => rw [h] at g1; cases g1
    | macro_ _ _ _ _ g1 _ _ _ => rw [h] at g1; cases g1
  | named s v h1 h2 =>
    rw [hp] at h1 h2
    cases h' with
    | literal _ _ g => rw [h1] at g; cases g
    | named _ _ _ g2 => rw [h2] at g2; cases g2; exact ⟨rfl, rfl⟩
    | macro_ _ _ _ _ _ g2 _ _ => rw [h2] at g2; cases g2
  | macro_ n s text v h1 h2 h3 _ ih =>
    rw [hp] at h1 h2 h3
    cases h' with
    | literal _ _ g => rw [h1] at g; cases g
    | named _ _ _ g2 => rw [h2] at g2; cases g2
    | macro_ k _ text' _ _ _ g3 g =>
      rw [h3] at g3; cases g3
      obtain ⟨e1, e2⟩ := ih g rfl
      exact ⟨by omega, e2⟩

theorem peel_peel (s : Str) : peel (peel s) = peel s :=
  (wrapped_iff _ _).1 (wrapped_self ((wrapped_iff _ _).2 rfl : Wrapped s (peel s)))

theorem resolve_complete (macros : Str → Option Int) (defines : List Define) :
    ∀ (n : Nat) (token : Str) (v : Int) (seen : List Str) (fuel : Nat), DenotesN macros defines n token v →
    (∀ x ∈ seen, ∀ m w, DenotesN macros defines m x w → n < m) →
    resolve macros (rawValues defines) fuel token seen ≠ none →
    resolve macros (rawValues defines) fuel token seen = some (some v) := by
  intro n
  induction n with
  | zero =>
    intro token v seen fuel h hseen hne
    cases fuel with
    | zero => exact absurd rfl hne
    | succ fuel =>
      unfold resolve
      cases h with
      | literal _ _ h => rw [h]
      | named _ _ h1 h2 => rw [h1]; simp only []; rw [h2]
  | succ n ih =>
    intro token v seen fuel h hseen hne
    have hfull := h
    cases fuel with
    | zero => exact absurd rfl hne
    | succ fuel =>
      cases h with
      | macro_ _ _ text _ h1 h2 h3 h =>
        have h3' := h3
        rw [← rawValues_get] at h3'
        have hself : DenotesN macros defines (n + 1) (peel token) v :=
          .macro_ n _ text v (by rw [peel_peel]; exact h1) (by rw [peel_peel]; exact h2) (by rw [peel_peel]; exact h3) h
        have hns : peel token ∉ seen := by
          intro hm
          have := hseen _ hm _ _ hself
          omega
        unfold resolve at hne ⊢
        rw [h1] at hne ⊢
        simp only [] at hne ⊢
        rw [h2] at hne ⊢
        simp only [] at hne ⊢
        rw [h3'] at hne ⊢
        simp only [] at hne ⊢
        rw [if_neg hns] at hne ⊢
        apply ih _ _ _ _ h _ hne
        intro x hx m w hm
        rcases List.mem_cons.1 hx with rfl | hx
        · have := (denotesN_det hself hm rfl).1
          omega
        · have := hseen x hx m w hm
          omega

/-- The cache. -/
theorem fillCache_get (macros : Str → Option Int) (raw : List (Str × Str)) (fuel : Nat) (name : Str)
    (hf : ∀ t, resolve macros raw fuel t [] ≠ none) : ∀ (names : List Str) (cache : List (Str × Int)),
    ∃ out, names.foldlM (fun cache name =>
      (resolve macros raw fuel name []).map (addCache cache name)) cache = some out ∧
      ∀ v, dictGet out name = some v ↔
        (name ∈ names ∧ resolve macros raw fuel name [] = some (some v)) ∨
        ((name ∉ names ∨ resolve macros raw fuel name [] = some none) ∧ dictGet cache name = some v) := by
  intro names
  induction names with
  | nil => intro cache; exact ⟨cache, rfl, by simp⟩
  | cons a names ih =>
    intro cache
    rw [List.foldlM_cons]
    cases hr : resolve macros raw fuel a [] with
    | none => exact absurd hr (hf a)
    | some r =>
      simp only [Option.map_some, Option.bind_eq_bind, Option.bind_some]
      obtain ⟨out, h1, h2⟩ := ih (addCache cache a r)
      refine ⟨out, h1, ?_⟩
      intro v
      rw [h2]
      by_cases ha : a = name
      · subst ha
        rw [hr]
        cases r with
        | none => simp [addCache]
        | some w =>
          simp only [addCache, dictGet_set, if_true, List.mem_cons, true_or, not_true, true_and,
            Option.some.injEq, reduceCtorEq, or_false, false_and]
          by_cases hm : a ∈ names <;> simp [hm]
      · have hg : dictGet (addCache cache a r) name = dictGet cache name := by
          cases r with
          | none => rfl
          | some w => unfold addCache; simp only []; rw [dictGet_set, if_neg ha]
        rw [hg]
        simp [Ne.symm ha]


/-! ### sizes -/

theorem dictSet_length {K V : Type} [DecidableEq K] (d : List (K × V)) (k : K) (v : V) :
    (dictSet d k v).length ≤ d.length + 1 := by
  have := congrArg List.length (dictSet_keys d k v)
  rw [List.length_map] at this
  rw [this]
  split <;> simp

theorem rawValues_length (defines : List Define) : (rawValues defines).length ≤ defines.length := by
  have key : ∀ (ds : List Define) (raw : List (Str × Str)),
      (ds.foldl addDefine raw).length ≤ raw.length + ds.length := by
    intro ds
    induction ds with
    | nil => intro raw; simp
    | cons d ds ih =>
      intro raw
      rw [List.foldl_cons]
      have h1 := ih (addDefine raw d)
      have h2 : (addDefine raw d).length ≤ raw.length + 1 := by
        unfold addDefine
        split
        · exact dictSet_length _ _ _
        · omega
      simp only [List.length_cons]
      omega
  have := key defines []
  simpa [rawValues] using this

/-! ### what `int` accepts -/

theorem digitsAux_head {base acc : Nat} {last : Bool} {c : Char} {r : Str} {n : Nat}
    (h : digitsAux base acc last (c :: r) = some n) (hl : last = false) : ∃ d, digitVal c = some d ∧ d < base := by
  subst hl
  unfold digitsAux at h
  by_cases hc : c = '_'
  · rw [if_pos hc] at h; simp at h
  · rw [if_neg hc] at h
    split at h
    · cases h
    · rename_i d hd
      split at h
      · rename_i hb; exact ⟨d, hd, hb⟩
      · cases h

theorem digits_head {base : Nat} {s : Str} {n : Nat} (h : digits base s = some n) :
    ∃ c r d, s = c :: r ∧ digitVal c = some d ∧ d < base := by
  unfold digits at h
  cases s with
  | nil => simp [digitsAux] at h
  | cons c r =>
    obtain ⟨d, h1, h2⟩ := digitsAux_head h rfl
    exact ⟨c, r, d, rfl, h1, h2⟩

theorem unsigned_head {base : Nat} {s : Str} {n : Nat} (hb : base = 8 ∨ base = 10) (h : unsignedInt base s = some n) :
    ∃ c r d, s = c :: r ∧ digitVal c = some d ∧ d < 10 := by
  unfold unsignedInt at h
  split at h
  · exact ⟨'0', _, 0, rfl, by decide, by omega⟩
  · have hbase : (if base = 0 then 10 else base) ≤ 10 := by rcases hb with rfl | rfl <;> simp
    obtain ⟨c, r, d, h1, h2, h3⟩ := digits_head h
    exact ⟨c, r, d, h1, h2, by omega⟩

/-- A text without its blanks and its sign. -/
def unsignedText (v : Str) : Str := withoutSign (strip v)

theorem pyInt_unsignedText {base : Nat} {v : Str} {n : Int} (h : pyInt base v = some n) :
    ∃ m, unsignedInt base (unsignedText v) = some m := by
  unfold pyInt at h
  unfold unsignedText withoutSign
  split at h
  · rename_i r hr
    rw [hr]
    cases hu : unsignedInt base r with
    | none => rw [hu] at h; cases h
    | some m => exact ⟨m, hu⟩
  · rename_i r hr
    rw [hr]
    cases hu : unsignedInt base r with
    | none => rw [hu] at h; cases h
    | some m => exact ⟨m, hu⟩
  · rename_i r h1 h2
    cases hu : unsignedInt base (strip v) with
    | none => rw [hu] at h; cases h
    | some m =>
      refine ⟨m, ?_⟩
      split
      · rename_i heq; exact absurd heq (h2 _)
      · rename_i heq; exact absurd heq (h1 _)
      · exact hu

theorem strip_cons_head {c : Char} {r : Str} (h : isSpace c = false) : ∃ r', strip (c :: r) = c :: r' := by
  unfold strip
  rw [lstrip_cons_of_not h]
  obtain ⟨w, hw, hww⟩ := rstrip_decomp (c :: r)
  cases hr : rstrip (c :: r) with
  | nil =>
    rw [hr] at hw
    have := hww c (by rw [List.nil_append] at hw; rw [← hw]; simp)
    rw [h] at this; cases this
  | cons x xs =>
    rw [hr] at hw
    exact ⟨xs, by rw [(List.cons.inj hw).1]⟩

end Verif.Num
