import Verif.CArray.Model
import Verif.Num.Props

/-! # The sizes of the C arrays

Property C115. -/

namespace Verif.CArray.Props
open Verif.Py Verif.Num Verif.Num.Spec Verif.CArray

/-! ## Lemmas -/

theorem blank_iff (s : Str) : (strip s).length > 0 ↔ ∃ c ∈ s, isSpace c = false := by
  constructor
  · intro h
    obtain ⟨a, b, he, _, _⟩ := strip_decomp s
    cases hs : strip s with
    | nil => rw [hs] at h; simp at h
    | cons c r =>
      have h1 := (strip_clean s).1 c (by rw [hs]; rfl)
      refine ⟨c, ?_, h1⟩
      rw [he, hs]; simp
  · rintro ⟨c, hc, hn⟩
    obtain ⟨a, b, he, ha, hb⟩ := strip_decomp s
    rw [he] at hc
    rcases List.mem_append.1 hc with hc | hc
    · rcases List.mem_append.1 hc with hc | hc
      · rw [ha c hc] at hn; cases hn
      · exact List.length_pos_of_mem hc
    · rw [hb c hc] at hn; cases hn

theorem pyInt_blank {base : Nat} {s : Str} (h : ¬ (strip s).length > 0) (hb : base = 8 ∨ base = 10) : pyInt base s = none := by
  cases hp : pyInt base s with
  | none => rfl
  | some v =>
    obtain ⟨m, hm⟩ := pyInt_unsignedText hp
    obtain ⟨c, r, d, he, _⟩ := unsigned_head hb hm
    have : strip s = [] := List.eq_nil_of_length_eq_zero (by omega)
    unfold unsignedText withoutSign at he
    rw [this] at he
    cases he

theorem takeWhile_bracket {x r : Str} (hx : '[' ∉ x) : (x ++ '[' :: r).takeWhile (· ≠ '[') = x := by
  induction x with
  | nil => simp
  | cons c x ih =>
    have hc : c ≠ '[' := fun e => hx (by simp [e])
    rw [List.cons_append, List.takeWhile_cons_of_pos (by simpa using hc), ih (fun h => hx (by simp [h]))]

theorem dropWhile_bracket {x r : Str} (hx : '[' ∉ x) : (x ++ '[' :: r).dropWhile (· ≠ '[') = '[' :: r := by
  induction x with
  | nil => simp
  | cons c x ih =>
    have hc : c ≠ '[' := fun e => hx (by simp [e])
    rw [List.cons_append, List.dropWhile_cons_of_pos (by simpa using hc), ih (fun h => hx (by simp [h]))]

theorem endsWith_bracket (r : Str) : endsWith (r ++ [']']) [']'] = true := by
  unfold endsWith
  rw [List.isSuffixOf_iff_suffix]
  exact ⟨r, rfl⟩

theorem sizeStr_code (x s : Str) : sizeStr ⟨x, '[' :: (s ++ [']'])⟩ = some s := by
  unfold sizeStr isArray
  rw [if_neg (by simp)]
  have e : ('[' :: (s ++ [']'])).dropWhile (· ≠ '[') = '[' :: (s ++ [']']) := by
    rw [List.dropWhile_cons_of_neg (by simp)]
  show some ((('[' :: (s ++ [']'])).dropWhile (· ≠ '[')).drop 1).dropLast = some s
  rw [e, List.drop_one, List.tail_cons, List.dropLast_concat]

theorem digitsAux_chars {base : Nat} : ∀ (s : Str) (acc : Nat) (last : Bool) {n : Nat}, digitsAux base acc last s = some n →
    ∀ c ∈ s, c = '_' ∨ ∃ d, digitVal c = some d := by
  intro s
  induction s with
  | nil => intro _ _ _ _ c hc; cases hc
  | cons x r ih =>
    intro acc last n h c hc
    unfold digitsAux at h
    by_cases hx : x = '_'
    · rw [if_pos hx] at h
      cases last with
      | false => simp at h
      | true =>
        rw [if_pos rfl] at h
        rcases List.mem_cons.1 hc with rfl | hc
        · exact Or.inl hx
        · exact ih _ _ h c hc
    · rw [if_neg hx] at h
      split at h
      · cases h
      · rename_i d hd
        split at h
        · rcases List.mem_cons.1 hc with rfl | hc
          · exact Or.inr ⟨d, hd⟩
          · exact ih _ _ h c hc
        · cases h

theorem pyInt_no_bracket {s : Str} {v : Int} (h : pyInt 10 s = some v) : ']' ∉ s := by
  intro hm
  obtain ⟨m, hu⟩ := pyInt_unsignedText h
  have hmem : ']' ∈ unsignedText s := by
    obtain ⟨a, b, he, ha, hb⟩ := strip_decomp s
    rw [he] at hm
    have h1 : ']' ∈ strip s := by
      rcases List.mem_append.1 hm with hm | hm
      · rcases List.mem_append.1 hm with hm | hm
        · exact absurd (ha _ hm) (by decide)
        · exact hm
      · exact absurd (hb _ hm) (by decide)
    unfold unsignedText withoutSign
    split
    · rename_i r hr
      rw [hr] at h1
      exact (List.mem_cons.1 h1).resolve_left (by decide)
    · rename_i r hr
      rw [hr] at h1
      exact (List.mem_cons.1 h1).resolve_left (by decide)
    · exact h1
  have hd : digits 10 (unsignedText s) = some m := by
    unfold unsignedInt at hu
    split at hu
    · split at hu
      · rename_i c r heq b hb
        split at hu
        · rename_i hor
          exfalso
          rcases hor with e | e
          · cases e
          · unfold prefixBase at hb
            split at hb
            · cases hb; cases e
            · split at hb
              · cases hb; cases e
              · split at hb
                · cases hb; cases e
                · cases hb
        · exact hu
      · exact hu
    · exact hu
  rcases digitsAux_chars _ _ _ hd _ hmem with e | ⟨d, e⟩
  · exact absurd e (by decide)
  · have h0 : digitVal ']' = none := by decide
    rw [h0] at e
    cases e

/-- A literal without a leading zero, for `int`. -/
theorem pyInt_cLiteral {s : Str} {w : Nat} (hs : cLiteral s = some w) (hz : ¬ ∃ c r, s = '0' :: c :: r) :
    pyInt 10 s = some (w : Int) := by
  obtain ⟨⟨c0, r0, d0, he, _⟩, hall, _⟩ := cLiteral_chars hs
  refine pyInt_unsigned (by rw [he]; simp) hall ?_
  rcases cLiteral_cases hs with ⟨x, r, hx, rfl, _⟩ | ⟨x, r, hx, rfl, _⟩ | ⟨rfl, rfl⟩ | ⟨r, rfl, hn⟩ | ⟨c, r, hc, rfl, hn⟩
  · exact absurd ⟨_, _, rfl⟩ hz
  · exact absurd ⟨_, _, rfl⟩ hz
  · exact unsigned_zero 10 (Or.inr rfl)
  · cases r with
    | nil => exact absurd rfl (number_ne_nil hn)
    | cons c r => exact absurd ⟨_, _, rfl⟩ hz
  · exact unsigned_dec hc hn (Or.inr rfl)

theorem pyInt_blanks {a s b : Str} (ha : ∀ c ∈ a, isSpace c = true) (hb : ∀ c ∈ b, isSpace c = true) (base : Nat) :
    pyInt base (a ++ s ++ b) = pyInt base s := by
  unfold pyInt
  rw [Escape.strip_append ha hb]

theorem sizeInt_code (macros : Str → Option Int) (around : List Ancestor) (x s : Str) :
    sizeInt macros around ⟨x, '[' :: (s ++ [']'])⟩ =
      match pyInt 10 s with
      | some v => some v
      | none =>
        match macros s with
        | some v => some v
        | none => if (strip s).length > 0 then fromUnit macros around s else none := by
  unfold sizeInt
  rw [sizeStr_code]
  unfold fromStrOrMacros
  simp only []
  cases pyInt 10 s with
  | some v => rfl
  | none =>
    cases macros s with
    | some v => rfl
    | none => rfl

/-! ## C115 -/

/-- A name followed by a text between brackets is the declaration of an array of that size; the text of the name is kept. A name that does
not end with a bracket declares no array. -/
theorem C115_name (x s : Str) (hx : '[' ∉ x) :
    parseName (x ++ '[' :: (s ++ [']'])) = ⟨x, '[' :: (s ++ [']'])⟩ ∧ isArray (parseName (x ++ '[' :: (s ++ [']']))) = true ∧
    sizeStr (parseName (x ++ '[' :: (s ++ [']']))) = some s ∧
    (∀ t : Str, t.getLast? ≠ some ']' → parseName t = ⟨t, []⟩ ∧ isArray (parseName t) = false) ∧
    isArray (parseName x) = false := by
  have e : parseName (x ++ '[' :: (s ++ [']'])) = ⟨x, '[' :: (s ++ [']'])⟩ := by
    unfold parseName
    have h1 : (x ++ '[' :: (s ++ [']'])).contains '[' = true := by
      rw [List.contains_iff_mem]; simp
    have h2 : endsWith (x ++ '[' :: (s ++ [']'])) [']'] = true := by
      have := endsWith_bracket (x ++ '[' :: s)
      rwa [List.append_assoc, List.cons_append] at this
    rw [h1, h2, Bool.and_true, if_pos rfl, takeWhile_bracket hx, dropWhile_bracket hx]
  refine ⟨e, by rw [e]; simp [isArray], by rw [e]; exact sizeStr_code x s, ?_, ?_⟩
  · intro t ht
    have h2 : endsWith t [']'] = false := by
      cases h : endsWith t [']'] with
      | false => rfl
      | true =>
        unfold endsWith at h
        rw [List.isSuffixOf_iff_suffix] at h
        obtain ⟨r, hr⟩ := h
        rw [← hr, List.getLast?_append] at ht
        exact absurd rfl ht
    have e2 : parseName t = ⟨t, []⟩ := by
      unfold parseName
      rw [h2, Bool.and_false]
      rfl
    exact ⟨e2, by rw [e2]; rfl⟩
  · have e2 : parseName x = ⟨x, []⟩ := by
      unfold parseName
      have h1 : x.contains '[' = false := by
        cases h : x.contains '[' with
        | false => rfl
        | true => exact absurd (List.contains_iff_mem.1 h) hx
      rw [h1, Bool.false_and]
      rfl
    rw [e2]; rfl

/-- The text of a declaration is the name followed by the array, whatever the text. -/
theorem C115_nothing_lost (t : Str) : (parseName t).name ++ (parseName t).arrayCode = t := by
  unfold parseName
  split
  · exact List.takeWhile_append_dropWhile
  · simp

/-- An array is exactly one of: of known size, without size, of a size that cannot be read. What is not an array is none of them. -/
theorem C115_one_class (macros : Str → Option Int) (around : List Ancestor)
    (hb : ∀ s, (∀ c ∈ s, isSpace c = true) → macros s = none) (x s : Str) :
    (noSize ⟨x, '[' :: (s ++ [']'])⟩ = true ↔ ∀ c ∈ s, isSpace c = true) ∧
    (noSize ⟨x, '[' :: (s ++ [']'])⟩ = true → known macros around ⟨x, '[' :: (s ++ [']'])⟩ = false) ∧
    (unparsable macros around ⟨x, '[' :: (s ++ [']'])⟩ = true ↔
      noSize ⟨x, '[' :: (s ++ [']'])⟩ = false ∧ known macros around ⟨x, '[' :: (s ++ [']'])⟩ = false) ∧
    known macros around ⟨x, []⟩ = false ∧ noSize ⟨x, []⟩ = false ∧ unparsable macros around ⟨x, []⟩ = false := by
  have hno : noSize ⟨x, '[' :: (s ++ [']'])⟩ = !decide ((strip s).length > 0) := by
    unfold noSize
    rw [sizeStr_code]
    rw [if_neg (by simp [isArray])]
  have hun : unparsable macros around ⟨x, '[' :: (s ++ [']'])⟩ =
      (decide ((strip s).length > 0) && (sizeInt macros around ⟨x, '[' :: (s ++ [']'])⟩).isNone) := by
    unfold unparsable
    rw [sizeStr_code]
    rw [if_neg (by simp [isArray])]
  have hiff : noSize ⟨x, '[' :: (s ++ [']'])⟩ = true ↔ ∀ c ∈ s, isSpace c = true := by
    rw [hno]
    constructor
    · intro h c hc
      cases hsp : isSpace c with
      | true => rfl
      | false =>
        have := (blank_iff s).2 ⟨c, hc, hsp⟩
        rw [decide_eq_true this] at h
        cases h
    · intro h
      have : ¬ (strip s).length > 0 := by
        intro hl
        obtain ⟨c, hc, hn⟩ := (blank_iff s).1 hl
        rw [h c hc] at hn; cases hn
      rw [decide_eq_false this]; rfl
  refine ⟨hiff, ?_, ?_, rfl, rfl, rfl⟩
  · intro h
    have hs := hiff.1 h
    have hl : ¬ (strip s).length > 0 := by
      intro hl
      obtain ⟨c, hc, hn⟩ := (blank_iff s).1 hl
      rw [hs c hc] at hn; cases hn
    unfold known
    rw [sizeInt_code, pyInt_blank hl (Or.inr rfl), hb s hs]
    simp only []
    rw [if_neg hl]
    rfl
  · rw [hno, hun]
    unfold known
    cases sizeInt macros around ⟨x, '[' :: (s ++ [']'])⟩ <;> simp

/-- An array with several dimensions never has a known size: it is never taken for an array of one dimension. (The names of the macros
have no bracket.) -/
theorem C115_dimensions (macros : Str → Option Int) (around : List Ancestor) (hm : ∀ s, ']' ∈ s → macros s = none)
    (hd : ∀ ds, Ancestor.unit ds ∈ around → ∀ d ∈ ds, ']' ∉ d.name) (x s t : Str) :
    known macros around ⟨x, '[' :: (s ++ (']' :: '[' :: t) ++ [']'])⟩ = false ∧
    unparsable macros around ⟨x, '[' :: (s ++ (']' :: '[' :: t) ++ [']'])⟩ = true := by
  have hmem : ']' ∈ s ++ (']' :: '[' :: t) := by simp
  have hlen : (strip (s ++ (']' :: '[' :: t))).length > 0 := (blank_iff _).2 ⟨']', hmem, by decide⟩
  have hu : ∀ as : List Ancestor, (∀ ds, Ancestor.unit ds ∈ as → ∀ d ∈ ds, ']' ∉ d.name) →
      fromUnit macros as (s ++ (']' :: '[' :: t)) = none := by
    intro as
    induction as with
    | nil => intro _; rfl
    | cons a as ih =>
      intro h
      cases a with
      | other => exact ih (fun ds h1 => h ds (by simp [h1]))
      | unit ds =>
        unfold fromUnit
        cases hv : intValueFromDefineName macros (ds.length + 1) ds (s ++ (']' :: '[' :: t)) with
        | none => rfl
        | some r =>
          cases r with
          | none => rfl
          | some v =>
            exfalso
            obtain ⟨⟨text, h1⟩, _⟩ := (Num.Props.C26_value macros ds _ v (ds.length + 1) (by omega)).1 hv
            unfold definition at h1
            cases hl : (ds.filter (fun d => d.params = none ∧ d.value.isSome ∧ d.name = s ++ (']' :: '[' :: t))).getLast? with
            | none => rw [hl] at h1; cases h1
            | some d =>
              have h2 := List.mem_of_getLast? hl
              rw [List.mem_filter] at h2
              have h3 := of_decide_eq_true h2.2
              exact h ds (by simp) d h2.1 (by rw [h3.2.2]; exact hmem)
  have hi : sizeInt macros around ⟨x, '[' :: (s ++ (']' :: '[' :: t) ++ [']'])⟩ = none := by
    rw [sizeInt_code]
    have hp : pyInt 10 (s ++ (']' :: '[' :: t)) = none := by
      cases hp : pyInt 10 (s ++ (']' :: '[' :: t)) with
      | none => rfl
      | some v => exact absurd hmem (pyInt_no_bracket hp)
    rw [hp, hm _ hmem]
    simp only []
    rw [if_pos hlen]
    exact hu around hd
  constructor
  · unfold known; rw [hi]; rfl
  · unfold unparsable
    rw [sizeStr_code, if_neg (by simp [isArray])]
    simp only []
    rw [hi, decide_eq_true hlen]
    rfl

/-- A number with any blanks around it is the size. -/
theorem C115_number (macros : Str → Option Int) (around : List Ancestor) (x a b : Str) (n : Nat)
    (ha : ∀ c ∈ a, isSpace c = true) (hb : ∀ c ∈ b, isSpace c = true) :
    sizeInt macros around ⟨x, '[' :: (a ++ natStr n ++ b ++ [']'])⟩ = some (n : Int) := by
  rw [sizeInt_code, pyInt_blanks ha hb]
  have := pyInt_intStr 10 (Or.inr rfl) (n : Int)
  have e : intStr (n : Int) = natStr n := rfl
  rw [e] at this
  rw [this]

/-- The name of a macro: the number of the options if there is one, else what the definitions of the file say, through any number of
definitions. The file is the nearest one around the declaration. -/
theorem C115_macro (macros : Str → Option Int) (between around : List Ancestor) (ds : List Define) (x m : Str)
    (hbet : ∀ a ∈ between, a = .other) (hm : pyInt 10 m = none) (hne : ∃ c ∈ m, isSpace c = false) :
    (∀ v, macros m = some v → sizeInt macros (between ++ .unit ds :: around) ⟨x, '[' :: (m ++ [']'])⟩ = some v) ∧
    (macros m = none → ∀ v, sizeInt macros (between ++ .unit ds :: around) ⟨x, '[' :: (m ++ [']'])⟩ = some v ↔
      (∃ text, definition ds m = some text) ∧ Denotes macros ds m v) := by
  have hu : fromUnit macros (between ++ .unit ds :: around) m = (intValueFromDefineName macros (ds.length + 1) ds m).getD none := by
    induction between with
    | nil => rfl
    | cons a as ih =>
      have := hbet a (by simp)
      subst this
      exact ih (fun a ha => hbet a (by simp [ha]))
  constructor
  · intro v hv
    rw [sizeInt_code, hm, hv]
  · intro hv v
    rw [sizeInt_code, hm, hv]
    simp only []
    rw [if_pos ((blank_iff m).2 hne), hu, ← Num.Props.C26_value macros ds m v (ds.length + 1) (by omega)]
    cases intValueFromDefineName macros (ds.length + 1) ds m with
    | none => simp
    | some r => simp

/-- Full statement: the size that is read is the one of the literal. -/
def C115_literal_statement : Prop :=
  ∀ (macros : Str → Option Int) (around : List Ancestor) (x s : Str) (v : Nat), cLiteral s = some v →
    ∀ w, sizeInt macros around ⟨x, '[' :: (s ++ [']'])⟩ = some w → w = v

/-- It fails: the array `int a[010]` has 8 items for C++ and 10 for the generator. -/
theorem C115_literal_fails : ¬ C115_literal_statement := by
  intro h
  have h1 : cLiteral ['0', '1', '0'] = some 8 := by decide +kernel
  have h2 : sizeInt (fun _ => none) [] ⟨['a'], '[' :: (['0', '1', '0'] ++ [']'])⟩ = some 10 := by decide +kernel
  exact absurd (h _ _ _ _ _ h1 _ h2) (by decide)

/-- Partial: for a literal without a leading zero, the size is read and is the one of the literal. (Missing: octal literals, which are read
in base 10; hexadecimal and binary ones, and those with a suffix, whose size is not read: see the examples.) -/
theorem C115_literal_partial (macros : Str → Option Int) (around : List Ancestor) (x a s b : Str) (v : Nat) (h : cLiteral s = some v)
    (hz : ¬ ∃ c r, s = '0' :: c :: r) (ha : ∀ c ∈ a, isSpace c = true) (hb : ∀ c ∈ b, isSpace c = true) :
    sizeInt macros around ⟨x, '[' :: (a ++ s ++ b ++ [']'])⟩ = some (v : Int) := by
  rw [sizeInt_code, pyInt_blanks ha hb, pyInt_cLiteral h hz]

/-- Full statement: blanks around the size change nothing. -/
def C115_blanks_statement : Prop :=
  ∀ (macros : Str → Option Int) (around : List Ancestor) (x a s b : Str), (∀ c ∈ a, isSpace c = true) → (∀ c ∈ b, isSpace c = true) →
    sizeInt macros around ⟨x, '[' :: (a ++ s ++ b ++ [']'])⟩ = sizeInt macros around ⟨x, '[' :: (s ++ [']'])⟩

/-- It fails: `int a[ N ]` has no known size, `int a[N]` has one. -/
theorem C115_blanks_fails : ¬ C115_blanks_statement := by
  intro h
  have := h (fun _ => none) [.unit [⟨['N'], none, some ['4']⟩]] ['a'] [' '] ['N'] [' '] (by decide) (by decide)
  exact absurd this (by decide +kernel)

/-- Partial: blanks around a number change nothing, whatever its form, and the other sizes are read without them. (Missing: names of macros
with blanks.) -/
theorem C115_blanks_partial (macros : Str → Option Int) (around : List Ancestor) (x a s b : Str) (ha : ∀ c ∈ a, isSpace c = true)
    (hb : ∀ c ∈ b, isSpace c = true) (v : Int) (h : pyInt 10 s = some v) :
    sizeInt macros around ⟨x, '[' :: (a ++ s ++ b ++ [']'])⟩ = sizeInt macros around ⟨x, '[' :: (s ++ [']'])⟩ := by
  rw [sizeInt_code, sizeInt_code, pyInt_blanks ha hb, h]

/-- `values[ 12 ]`, a macro of the file defined by another one, an array without size, two dimensions, an hexadecimal size. -/
example : let d (n v : String) : Define := ⟨n.toList, none, some v.toList⟩
    let around := [Ancestor.other, .other, .unit [d "A" "(B)", d "B" "0x20u"]]
    let size (t : String) := sizeInt (fun m => if m = "MAX".toList then some 100 else none) around (parseName t.toList)
    size "values[ 12 ]" = some 12 ∧ size "v[A]" = some 32 ∧ size "v[MAX]" = some 100 ∧ size "v[]" = none ∧ size "v[2][3]" = none ∧
    size "v[0x10]" = none ∧ size "v[4u]" = none ∧ size "v[C]" = none ∧ noSize (parseName "v[ ]".toList) = true ∧
    (parseName "v[2][3]".toList).name = "v".toList := by decide +kernel
example : '[' ∉ "values".toList ∧ pyInt 10 "A".toList = none ∧ cLiteral "12".toList = some 12 := by decide +kernel

end Verif.CArray.Props
