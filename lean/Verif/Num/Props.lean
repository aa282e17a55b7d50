import Verif.Num.Lemmas

/-! # Enum values and macros

Properties C25, C26 and C27. -/

namespace Verif.Num.Props
open Verif.Py Verif.Num Verif.Num.Spec

/-! ## C25 -/

/-- All the children are kept in order, with their names. -/
theorem C25_children_kept (macros : Str → Option Int) (children : List Child) :
    (childrenWithFilledValues macros children).map shape = children.map shape := by
  unfold childrenWithFilledValues
  have : ∀ (cs : List Child) (last : Option Str), (fillLoop macros last cs).map shape = cs.map shape := by
    intro cs
    induction cs with
    | nil => intro last; rfl
    | cons c cs ih =>
      intro last
      cases c with
      | decl n v => show Sum.inl n :: _ = Sum.inl n :: _; rw [ih]
      | other i => show Sum.inr i :: _ = Sum.inr i :: _; rw [ih]
  exact this children none

/-- An explicit value is kept (or replaced by the number the options give for it). -/
theorem C25_explicit_kept (macros : Str → Option Int) (children : List Child) (i : Nat) (n v : Str)
    (h : (members children)[i]? = some (n, v)) (hv : v ≠ []) :
    (members (childrenWithFilledValues macros children))[i]? =
      some (n, match macros v with | some k => intStr k | none => v) := by
  unfold childrenWithFilledValues
  rw [members_fillLoop_eq]
  generalize members children = ms at h
  generalize (none : Option Str) = last
  induction ms generalizing i last with
  | nil => simp at h
  | cons m ms ih =>
    obtain ⟨mn, mv⟩ := m
    unfold fillMembers
    cases i with
    | zero =>
      simp only [List.getElem?_cons_zero, Option.some.injEq, Prod.mk.injEq] at h ⊢
      obtain ⟨rfl, rfl⟩ := h
      refine ⟨rfl, ?_⟩
      have hl : mv.length > 0 := List.length_pos_iff.2 hv
      cases hm : macros mv <;> simp [filledValue, hl, hm]
    | succ i =>
      rw [List.getElem?_cons_succ] at h ⊢
      exact ih i h _

/-- The members without value at the start of the enum get 0, 1, 2... whatever comments stand between
them. -/
theorem C25_implicit_from_zero (macros : Str → Option Int) (children : List Child) (names : List Str)
    (rest : List (Str × Str)) (h : members children = names.map (fun n => (n, [])) ++ rest) (j : Nat) (n : Str)
    (hj : names[j]? = some n) :
    (members (childrenWithFilledValues macros children))[j]? = some (n, intStr j) := by
  unfold childrenWithFilledValues
  rw [members_fillLoop_eq, h]
  obtain ⟨last', h1, _, _⟩ := fillMembers_append macros (names.map (fun n => (n, []))) rest none
  rw [h1]
  have hlen : j < names.length := (List.getElem?_eq_some_iff.1 hj).1
  rw [List.getElem?_append_left (by rw [fillMembers_length, List.length_map]; exact hlen)]
  cases names with
  | nil => simp at hj
  | cons m ms =>
    rw [List.map_cons]
    unfold fillMembers
    have hf : filledValue macros none [] = intStr 0 := by
      unfold filledValue; rw [if_neg (by simp)]; decide
    rw [hf]
    cases j with
    | zero => simp at hj; simp [hj]
    | succ j =>
      rw [List.getElem?_cons_succ, fillMembers_implicit macros ms 0 j n (by simpa using hj)]
      congr 3
      push_cast
      omega

/-- The full property: the members without value after a member whose value is `k` get `k + 1`, `k + 2`...,
as in C++. -/
def C25_implicit_after_statement : Prop :=
  ∀ (macros : Str → Option Int) (children : List Child) (before : List (Str × Str)) (n v : Str) (k : Int)
    (names : List Str) (rest : List (Str × Str)),
    members children = before ++ (n, v) :: (names.map (fun n => (n, [])) ++ rest) → v ≠ [] →
    memberValue macros v = some k →
    ∀ (j : Nat) (m : Str), names[j]? = some m →
    (members (childrenWithFilledValues macros children))[before.length + 1 + j]? = some (m, intStr (k + j + 1))

/-- It fails: after `A = 010` (eight), `B` is given the value 11. -/
theorem C25_implicit_after_fails : ¬ C25_implicit_after_statement := by
  intro h
  have := h (fun _ => none) [.decl ['A'] ['0', '1', '0'], .decl ['B'] []] [] ['A'] ['0', '1', '0'] 8 [['B']] []
    rfl (by simp) (by decide +kernel) 0 ['B'] rfl
  revert this
  decide +kernel

/-- It also fails for `A = 0x10, B`, which leaves `B` without a value. -/
theorem C25_hexadecimal_fails :
    members (childrenWithFilledValues (fun _ => none) [.decl ['A'] "0x10".toList, .decl ['B'] []]) =
      [(['A'], "0x10".toList), (['B'], [])] := by decide +kernel

/-- What holds: the same when the value is a macro of the options, or a literal with no leading zero.
Missing: octal literals (wrong value), hexadecimal literals and expressions (no value, and a warning). -/
theorem C25_implicit_after_partial (macros : Str → Option Int) (children : List Child) (before : List (Str × Str))
    (n v : Str) (k : Int) (names : List Str) (rest : List (Str × Str))
    (h : members children = before ++ (n, v) :: (names.map (fun n => (n, [])) ++ rest)) (hv : v ≠ [])
    (hk : memberValue macros v = some k) (hz : macros v ≠ none ∨ ¬ LeadingZero v)
    (j : Nat) (m : Str) (hj : names[j]? = some m) :
    (members (childrenWithFilledValues macros children))[before.length + 1 + j]? = some (m, intStr (k + j + 1)) := by
  unfold childrenWithFilledValues
  rw [members_fillLoop_eq, h]
  obtain ⟨last', h1, _, _⟩ := fillMembers_append macros before ((n, v) :: (names.map (fun n => (n, [])) ++ rest)) none
  rw [h1, List.getElem?_append_right (by rw [fillMembers_length]; omega), fillMembers_length]
  have e : before.length + 1 + j - before.length = j + 1 := by omega
  rw [e]
  unfold fillMembers
  rw [List.getElem?_cons_succ]
  obtain ⟨last2, h2, _, _⟩ := fillMembers_append macros (names.map (fun n => (n, []))) rest
    (some (filledValue macros last' v))
  have hlen : j < names.length := (List.getElem?_eq_some_iff.1 hj).1
  rw [h2, List.getElem?_append_left (by rw [fillMembers_length, List.length_map]; exact hlen)]
  have hval : pyInt 10 (filledValue macros last' v) = some k := by
    unfold filledValue
    rw [if_pos (List.length_pos_iff.2 hv)]
    unfold memberValue at hk
    cases hm : macros v with
    | some w =>
      rw [hm] at hk
      simp only [Option.some.injEq] at hk ⊢
      subst hk
      exact pyInt_intStr 10 (Or.inr rfl) w
    | none =>
      rw [hm] at hk
      simp only [] at hk ⊢
      have hz' : ¬ LeadingZero v := by
        rcases hz with hz | hz
        · exact absurd hm hz
        · exact hz
      have key : ∀ (s : Str) (w : Nat), cLiteral s = some w → (¬ ∃ c r, s = '0' :: c :: r) →
          unsignedInt 10 s = some w := by
        intro s w hs hz
        rcases cLiteral_cases hs with ⟨x, r, hx, rfl, _⟩ | ⟨x, r, hx, rfl, _⟩ | ⟨rfl, rfl⟩ | ⟨r, rfl, hn⟩ | ⟨c, r, hc, rfl, hn⟩
        · exact absurd ⟨_, _, rfl⟩ hz
        · exact absurd ⟨_, _, rfl⟩ hz
        · exact unsigned_zero 10 (Or.inr rfl)
        · cases r with
          | nil => exact absurd rfl (number_ne_nil hn)
          | cons c r => exact absurd ⟨_, _, rfl⟩ hz
        · exact unsigned_dec hc hn (Or.inr rfl)
      rcases cSigned_cases hk with ⟨r, w, rfl, hr, rfl⟩ | ⟨w, hr, rfl⟩
      · obtain ⟨⟨c0, r0, d0, he, _⟩, hall, _⟩ := cLiteral_chars hr
        refine pyInt_minus (by rw [he]; simp) hall (key r w hr ?_)
        rintro ⟨c, r', rfl⟩
        exact hz' ⟨c, r', Or.inr rfl⟩
      · obtain ⟨⟨c0, r0, d0, he, _⟩, hall, _⟩ := cLiteral_chars hr
        refine pyInt_unsigned (by rw [he]; simp) hall (key v w hr ?_)
        rintro ⟨c, r', rfl⟩
        exact hz' ⟨c, r', Or.inl rfl⟩
  -- the first one is computed from the text of the explicit value, the others from `intStr`
  generalize filledValue macros last' v = text at hval
  cases names with
  | nil => simp at hj
  | cons x xs =>
    rw [List.map_cons]
    unfold fillMembers
    have hf : filledValue macros (some text) [] = intStr (k + 1) := by
      unfold filledValue
      rw [if_neg (by simp)]
      simp only [hval]
    rw [hf]
    cases j with
    | zero => simp at hj; simp [hj]
    | succ j =>
      rw [List.getElem?_cons_succ, fillMembers_implicit macros xs (k + 1) j m (by simpa using hj)]
      congr 3
      push_cast
      omega

/-- A comment between the members, an explicit value, a macro of the options. -/
example : members (childrenWithFilledValues (fun s => if s = "MAX".toList then some 100 else none)
    [.decl ['A'] [], .other 7, .decl ['B'] [], .decl ['C'] "-5".toList, .decl ['D'] [], .other 8,
     .decl ['E'] "MAX".toList, .decl ['F'] [], .decl ['G'] []]) =
    [(['A'], "0".toList), (['B'], "1".toList), (['C'], "-5".toList), (['D'], "-4".toList), (['E'], "100".toList),
     (['F'], "101".toList), (['G'], "102".toList)] := by decide +kernel
example : memberValue (fun _ => none) "-5".toList = some (-5) := by decide +kernel
example : ¬ LeadingZero "-5".toList := by
  rintro ⟨c, r, h | h⟩
  · exact absurd (List.cons.inj h).1 (by decide)
  · exact absurd (List.cons.inj (List.cons.inj h).2).1 (by decide)

/-! ## C26 -/

/-- The resolution of the macros always terminates, even when the definitions are cyclic: a recursion
depth of one more than the number of definitions is enough. -/
theorem C26_terminates (macros : Str → Option Int) (defines : List Define) (name : Str) (fuel : Nat)
    (hf : defines.length < fuel) : intValueFromDefineName macros fuel defines name ≠ none := by
  have hterm : ∀ t, resolve macros (rawValues defines) fuel t [] ≠ none := by
    intro t
    apply resolve_terminates macros (rawValues defines) fuel t [] (by simp) (by simp)
    have := rawValues_length defines
    simp; omega
  obtain ⟨out, h1, _⟩ := fillCache_get macros (rawValues defines) fuel name hterm
    ((rawValues defines).map Prod.fst) []
  unfold intValueFromDefineName fillCache
  rw [h1]
  simp

/-- A name resolves to `v` exactly when it has an object-like definition and denotes `v`: through any
number of definitions, parentheses and blanks, down to a literal or a number of the options. -/
theorem C26_value (macros : Str → Option Int) (defines : List Define) (name : Str) (v : Int) (fuel : Nat)
    (hf : defines.length < fuel) :
    intValueFromDefineName macros fuel defines name = some (some v) ↔
      (∃ text, definition defines name = some text) ∧ Denotes macros defines name v := by
  have hterm : ∀ t, resolve macros (rawValues defines) fuel t [] ≠ none := by
    intro t
    apply resolve_terminates macros (rawValues defines) fuel t [] (by simp) (by simp)
    have := rawValues_length defines
    simp; omega
  obtain ⟨out, h1, h2⟩ := fillCache_get macros (rawValues defines) fuel name hterm
    ((rawValues defines).map Prod.fst) []
  have e : intValueFromDefineName macros fuel defines name = some (dictGet out name) := by
    unfold intValueFromDefineName fillCache
    rw [h1]; rfl
  have hmem : name ∈ (rawValues defines).map Prod.fst ↔ ∃ text, definition defines name = some text := by
    rw [← dictGet_isSome_iff]
    simp only [rawValues_get]
  rw [e, Option.some.injEq, h2 v, hmem]
  constructor
  · rintro (⟨ha, hb⟩ | ⟨_, hb⟩)
    · exact ⟨ha, resolve_sound macros defines fuel name [] v hb⟩
    · simp [dictGet] at hb
  · rintro ⟨ha, hb⟩
    refine Or.inl ⟨ha, ?_⟩
    obtain ⟨n, hn⟩ := denotes_depth hb
    exact resolve_complete macros defines n name v [] fuel hn (by simp) (hterm name)

/-- What a name denotes is unique. -/
theorem C26_unique (macros : Str → Option Int) (defines : List Define) (s : Str) (v w : Int)
    (h1 : Denotes macros defines s v) (h2 : Denotes macros defines s w) : v = w := by
  obtain ⟨n, hn⟩ := denotes_depth h1
  obtain ⟨m, hm⟩ := denotes_depth h2
  exact (denotesN_det hn hm rfl).2

/-- Macros defined in a circle, of any length, resolve to nothing. -/
theorem C26_cyclic (macros : Str → Option Int) (defines : List Define) (S : Str → Prop)
    (hS : ∀ x, S x → parseCIntLiteral x = none ∧ macros x = none ∧
      ∃ text y, definition defines x = some text ∧ Wrapped text y ∧ S y)
    (name : Str) (hname : S name) (hatom : Atom name) (fuel : Nat) (hf : defines.length < fuel) :
    intValueFromDefineName macros fuel defines name = some none := by
  cases h : intValueFromDefineName macros fuel defines name with
  | none => exact absurd h (C26_terminates macros defines name fuel hf)
  | some r =>
    cases r with
    | none => rfl
    | some v =>
      exfalso
      have hd := ((C26_value macros defines name v fuel hf).1 h).2
      have key : ∀ s v, Denotes macros defines s v → ∀ t, Wrapped s t → S t → False := by
        intro s v hd
        induction hd with
        | literal s t v hw h =>
          intro t' hw' ht'
          rw [wrapped_iff] at hw hw'
          rw [← hw, hw'] at h
          rw [(hS t' ht').1] at h; cases h
        | named s t v hw _ h =>
          intro t' hw' ht'
          rw [wrapped_iff] at hw hw'
          rw [← hw, hw'] at h
          rw [(hS t' ht').2.1] at h; cases h
        | macro_ s t text v hw _ _ h3 _ ih =>
          intro t' hw' ht'
          rw [wrapped_iff] at hw hw'
          rw [← hw, hw'] at h3
          obtain ⟨_, _, text', y, g1, g2, g3⟩ := hS t' ht'
          rw [h3] at g1
          cases g1
          exact ih y g2 g3
      exact key name v hd name (.atom name hatom) hname

/-- The integer literals of C++ (decimal, hexadecimal, octal, binary, with any suffix) are read with their C++
value. -/
theorem C26_literals (a core suffix b : Str) (v : Nat) (h : cLiteral core = some v)
    (hs : ∀ c ∈ suffix, c ∈ "uUlL".toList)
    (ha : ∀ c ∈ a, isSpace c = true) (hb : ∀ c ∈ b, isSpace c = true) :
    parseCIntLiteral (a ++ (core ++ suffix) ++ b) = some (v : Int) := by
  obtain ⟨⟨c0, r0, d0, he, hd0⟩, hall, hlast⟩ := cLiteral_chars h
  unfold parseCIntLiteral
  have hst : strip (core ++ suffix) = core ++ suffix := by
    apply strip_ends
    · intro c hc
      rw [he] at hc
      simp at hc
      subst hc
      exact (digitVal_le hd0).1
    · intro c hc
      rcases List.mem_append.1 (List.mem_of_getLast? hc) with hm | hm
      · obtain ⟨d, hd⟩ := hall c hm; exact (digitVal_le hd).1
      · have := hs c hm
        simp at this
        rcases this with rfl | rfl | rfl | rfl <;> decide
  rw [Escape.strip_append ha hb, hst, rstripSuffix_append hs
    (fun c hc => by obtain ⟨d, hd, h16⟩ := hlast c hc; exact hex_not_suffix hd h16)]
  exact parse_cLiteral h

example : parseCIntLiteral " 0x1FuL ".toList = some 31 := by decide +kernel
example : cLiteral "0x1F".toList = some 31 ∧ cLiteral "017".toList = some 15 ∧ cLiteral "0b101".toList = some 5 ∧
    cLiteral "120".toList = some 120 ∧ cLiteral "09".toList = none := by decide +kernel
/-- A chain of three macros, with parentheses; a cycle; the last definition wins. -/
example : let d (n v : String) : Define := ⟨n.toList, none, some v.toList⟩
    let ds := [d "A" "(B)", d "B" "( (C) )", d "C" "1", d "C" "0x20u", d "X" "Y", d "Y" "(X)"]
    intValueFromDefineName (fun _ => none) 7 ds "A".toList = some (some 32) ∧
    intValueFromDefineName (fun _ => none) 7 ds "X".toList = some none := by decide +kernel

/-! ## C27 -/

/-- A macro with parameters, or without a value, is not published. -/
theorem C27_object_like (d : Define) (h : isPublishable d = true) : d.params = none ∧ d.value.isSome = true := by
  unfold isPublishable at h
  split at h
  · cases h
  · cases h
  · rename_i hp hv
    rw [hp, hv]; simp

/-- A published macro is a quoted string or starts like a number: no name and no expression on names is ever
published. -/
theorem C27_only_literals (n v : Str) (h : isPublishable ⟨n, none, some v⟩ = true) :
    (∃ m, v = '"' :: m ∧ v.getLast? = some '"') ∨ StartsLikeANumber v := by
  have fin : ∀ c r d, unsignedText v = c :: r → (c = '.' ∨ (digitVal c = some d ∧ d < 10)) → StartsLikeANumber v := by
    intro c r d h1 h2
    obtain ⟨a, b, he, ha, hb⟩ := strip_decomp v
    have h2' : c = '.' ∨ ∃ d, digitVal c = some d ∧ d < 10 := h2.imp id (fun h => ⟨d, h⟩)
    unfold unsignedText withoutSign at h1
    split at h1
    · rename_i r' hr
      rw [hr, h1] at he
      exact ⟨a, ['+'], c, r ++ b, by rw [he]; simp, ha, by simp, h2'⟩
    · rename_i r' hr
      rw [hr, h1] at he
      exact ⟨a, ['-'], c, r ++ b, by rw [he]; simp, ha, by simp, h2'⟩
    · rw [h1] at he
      exact ⟨a, [], c, r ++ b, by rw [he]; simp, ha, by simp, h2'⟩
  unfold isPublishable at h
  simp only [decide_eq_true_eq] at h
  unfold valueType at h
  split at h
  · rename_i hq
    simp only [Bool.and_eq_true] at hq
    obtain ⟨m, hm⟩ := List.isPrefixOf_iff_prefix.1 hq.1
    obtain ⟨k, hk⟩ := List.isSuffixOf_iff_suffix.1 hq.2
    refine Or.inl ⟨m, by rw [← hm]; rfl, ?_⟩
    rw [← hk, List.getLast?_append]; rfl
  · right
    split at h
    · exact absurd rfl h
    · split at h
      · split at h
        · rename_i hf
          unfold isFloat at hf
          change (digitsOrNothing ((unsignedText v).takeWhile (· ≠ '.')) && _ && _ && _) = true at hf
          simp only [Bool.and_eq_true, Bool.not_eq_true'] at hf
          obtain ⟨⟨⟨h1, h2⟩, h3⟩, _⟩ := hf
          cases hu : unsignedText v with
          | nil =>
            exfalso
            have : withoutSign (strip v) = unsignedText v := rfl
            rw [this, hu] at h3
            simp at h3
          | cons c r =>
            by_cases hc : c = '.'
            · exact fin c r 0 hu (Or.inl hc)
            · rw [hu, List.takeWhile_cons, if_pos (by simpa using hc)] at h1
              unfold digitsOrNothing at h1
              simp only [List.isEmpty_cons, Bool.false_or, Option.isSome_iff_exists] at h1
              obtain ⟨w, hw⟩ := h1
              obtain ⟨c', r', d, e1, e2, e3⟩ := digits_head hw
              rw [(List.cons.inj e1).1] at hu
              exact fin c' r d hu (Or.inr ⟨e2, e3⟩)
        · exact absurd rfl h
      · split at h
        · rename_i hx
          have hv : ∃ x r, v = '0' :: x :: r := by
            simp only [Bool.or_eq_true] at hx
            rcases hx with hx | hx
            · obtain ⟨m, hm⟩ := List.isPrefixOf_iff_prefix.1 hx
              exact ⟨'x', m, hm.symm⟩
            · obtain ⟨m, hm⟩ := List.isPrefixOf_iff_prefix.1 hx
              exact ⟨'X', m, hm.symm⟩
          obtain ⟨x, r, rfl⟩ := hv
          exact ⟨[], [], '0', x :: r, rfl, by simp, by simp, Or.inr ⟨0, by decide, by omega⟩⟩
        · split at h
          · split at h
            · rename_i hs
              obtain ⟨k, hk⟩ := Option.isSome_iff_exists.1 hs
              obtain ⟨m, hm⟩ := pyInt_unsignedText hk
              obtain ⟨c, r, d, e1, e2, e3⟩ := unsigned_head (Or.inl rfl) hm
              exact fin c r d e1 (Or.inr ⟨e2, e3⟩)
            · exact absurd rfl h
          · split at h
            · rename_i hs
              obtain ⟨k, hk⟩ := Option.isSome_iff_exists.1 hs
              obtain ⟨m, hm⟩ := pyInt_unsignedText hk
              obtain ⟨c, r, d, e1, e2, e3⟩ := unsigned_head (Or.inr rfl) hm
              exact fin c r d e1 (Or.inr ⟨e2, e3⟩)
            · exact absurd rfl h

theorem no_dot_quote {s : Str} (h : ∀ c ∈ s, ∃ d, digitVal c = some d) :
    s.count '.' = 0 ∧ (startsWith s ['"'] && endsWith s ['"']) = false := by
  constructor
  · rw [List.count_eq_zero]
    intro hm
    obtain ⟨d, hd⟩ := h _ hm
    exact (digitVal_le hd).2.2.2.2.2.2.1 rfl
  · rw [Bool.and_eq_false_iff]
    left
    cases hs : startsWith s ['"'] with
    | false => rfl
    | true =>
      exfalso
      obtain ⟨m, hm⟩ := List.isPrefixOf_iff_prefix.1 hs
      obtain ⟨d, hd⟩ := h '"' (by rw [← hm]; simp)
      exact (digitVal_le hd).2.2.2.2.2.2.2 rfl

/-- Decimal, hexadecimal and octal integer literals are published with the value they have in C++; the text
in the stub is the one Python reads. -/
theorem C27_integer_literals (n v : Str) (k : Nat) (h : cLiteral v = some k)
    (hb : ∀ r, v ≠ '0' :: 'b' :: r ∧ v ≠ '0' :: 'B' :: r) :
    isPublishable ⟨n, none, some v⟩ = true ∧ pyInt 0 (publishedPythonValue v) = some (k : Int) := by
  obtain ⟨⟨c0, r0, d0, he, hd0⟩, hall, hlast⟩ := cLiteral_chars h
  have hne : v ≠ [] := by rw [he]; simp
  obtain ⟨hdot, hq⟩ := no_dot_quote hall
  have ht : valueType v = (if startsWith v ['0', 'x'] || startsWith v ['0', 'X'] then
      (if (pyInt 16 v).isSome then .Hex else .Other)
    else if startsWith v ['0'] && v.length > 1 then
      (if (pyInt 8 v).isSome then .Octal else .Other)
    else (if (pyInt 10 v).isSome then .Int else .Other)) := by
    conv => lhs; unfold valueType
    rw [hq, hdot]
    simp
  unfold isPublishable publishedPythonValue
  simp only [decide_eq_true_eq]
  rcases cLiteral_cases h with ⟨x, r, hx, rfl, hn⟩ | ⟨x, r, hx, rfl, hn⟩ | ⟨rfl, rfl⟩ | ⟨r, rfl, hn⟩ | ⟨c, r, hc, rfl, hn⟩
  · have h16 := pyInt_unsigned hne hall (unsigned_hex hx hn (Or.inr rfl))
    have h0 := pyInt_unsigned hne hall (unsigned_hex hx hn (Or.inl rfl))
    have hp : (startsWith ('0' :: x :: r) ['0', 'x'] || startsWith ('0' :: x :: r) ['0', 'X']) = true := by
      rcases hx with rfl | rfl <;> simp [startsWith]
    rw [ht, hp, h16]
    simpa using h0
  · exfalso
    rcases hx with rfl | rfl
    · exact (hb r).1 rfl
    · exact (hb r).2 rfl
  · decide
  · have h8 := pyInt_unsigned hne hall (unsigned_oct hn)
    obtain ⟨c, r', rfl⟩ : ∃ c r', r = c :: r' := by
      cases r with
      | nil => exact absurd rfl (number_ne_nil hn)
      | cons c r => exact ⟨c, r, rfl⟩
    obtain ⟨d, hd, hd8⟩ := number_chars hn c (by simp)
    have hc := digit_prefix hd (by omega)
    have hcx : c ≠ 'x' ∧ c ≠ 'X' := by
      constructor <;> (rintro rfl; simp [prefixBase] at hc)
    have hp : (startsWith ('0' :: c :: r') ['0', 'x'] || startsWith ('0' :: c :: r') ['0', 'X']) = false := by
      simp [startsWith, List.isPrefixOf, hcx.1.symm, hcx.2.symm]
    have hp2 : (startsWith ('0' :: c :: r') ['0'] && decide (('0' :: c :: r').length > 1)) = true := by
      simp [startsWith]
    rw [ht, hp, hp2, h8]
    refine ⟨by simp, ?_⟩
    rw [if_pos (by simp)]
    show pyInt 0 ('0' :: 'o' :: c :: r') = _
    refine pyInt_unsigned (by simp) ?_ (unsigned_oct_python hn)
    intro y hy
    simp only [List.mem_cons] at hy
    rcases hy with rfl | rfl | rfl | hy
    · exact ⟨0, by decide⟩
    · exact ⟨24, by decide⟩
    · exact ⟨d, hd⟩
    · exact hall y (by simp [hy])
  · have h10 := pyInt_unsigned hne hall (unsigned_dec hc hn (Or.inr rfl))
    have h0 := pyInt_unsigned hne hall (unsigned_dec hc hn (Or.inl rfl))
    have hp : (startsWith (c :: r) ['0', 'x'] || startsWith (c :: r) ['0', 'X']) = false := by
      simp [startsWith, List.isPrefixOf, Ne.symm hc]
    have hp2 : (startsWith (c :: r) ['0'] && decide ((c :: r).length > 1)) = false := by
      simp [startsWith, List.isPrefixOf, Ne.symm hc]
    rw [ht, hp, hp2, h10]
    simpa using h0

/-- The full property: a published macro whose value is a C++ integer literal, possibly negative, has in
Python the value it has in C++. -/
def C27_value_statement : Prop :=
  ∀ (n v : Str) (k : Int), isPublishable ⟨n, none, some v⟩ = true → cSigned v = some k →
    pyInt 0 (publishedPythonValue v) = some k

/-- It fails for negative octal literals: `-010` is published as it is, which Python rejects. -/
theorem C27_value_fails : ¬ C27_value_statement := by
  intro h
  have := h ['A'] "-010".toList (-8) (by decide +kernel) (by decide +kernel)
  revert this
  decide +kernel

/-- What holds: the same when the value is not a negative number with a leading zero. -/
theorem C27_value_partial (n v : Str) (k : Int) (hp : isPublishable ⟨n, none, some v⟩ = true)
    (h : cSigned v = some k) (hz : ∀ c r, v ≠ '-' :: '0' :: c :: r) :
    pyInt 0 (publishedPythonValue v) = some k := by
  rcases cSigned_cases h with ⟨r, w, rfl, hr, rfl⟩ | ⟨w, hr, rfl⟩
  ·   obtain ⟨⟨c0, r0, d0, he, hd0⟩, hall, hlast⟩ := cLiteral_chars hr
      have hoct : valueType ('-' :: r) ≠ .Octal := by
        unfold valueType
        split
        · simp
        · split
          · simp
          · split
            · split <;> simp
            · split
              · split <;> simp
              · rw [if_neg (by simp [startsWith])]
                split <;> simp
      unfold publishedPythonValue
      rw [if_neg hoct]
      refine pyInt_minus (by rw [he]; simp) hall ?_
      rcases cLiteral_cases hr with ⟨x, r, hx, rfl, _⟩ | ⟨x, r, hx, rfl, _⟩ | ⟨rfl, rfl⟩ | ⟨r, rfl, hn⟩ | ⟨c, r, hc, rfl, hn⟩
      · exact absurd rfl (hz _ _)
      · exact absurd rfl (hz _ _)
      · exact unsigned_zero 0 (Or.inl rfl)
      · cases r with
        | nil => exact absurd rfl (number_ne_nil hn)
        | cons c r => exact absurd rfl (hz _ _)
      · exact unsigned_dec hc hn (Or.inl rfl)
  ·   refine (C27_integer_literals n v w hr ?_).2
      intro r
      have key : ∀ x, (x = 'b' ∨ x = 'B') → v ≠ '0' :: x :: r := by
        rintro x hx rfl
        -- a binary literal is not published
        have hall := (cLiteral_chars hr).2.1
        obtain ⟨hdot, hq⟩ := no_dot_quote hall
        unfold isPublishable at hp
        simp only [decide_eq_true_eq] at hp
        apply hp
        unfold valueType
        rw [hq, hdot]
        have h8 : pyInt 8 ('0' :: x :: r) = none := by
          unfold pyInt
          have hst : strip ('0' :: x :: r) = '0' :: x :: r := strip_ends
            (fun c hc => by obtain ⟨d, hd⟩ := hall c (List.mem_of_head? hc); exact (digitVal_le hd).1)
            (fun c hc => by obtain ⟨d, hd⟩ := hall c (List.mem_of_getLast? hc); exact (digitVal_le hd).1)
          rw [hst]
          show (unsignedInt 8 ('0' :: x :: r)).map _ = none
          have : unsignedInt 8 ('0' :: x :: r) = none := by
            unfold unsignedInt
            have hpb : prefixBase x = some 2 := by rcases hx with rfl | rfl <;> rfl
            simp only [hpb]
            rw [if_neg (by omega)]
            rcases hx with rfl | rfl <;> simp [digits, digitsAux, digitVal]
          rw [this]
          rfl
        rw [h8]
        rcases hx with rfl | rfl <;> simp [startsWith, List.isPrefixOf]
      exact ⟨key 'b' (Or.inl rfl), key 'B' (Or.inr rfl)⟩

/-- A string or a float is written in the stub as it is in the header. -/
theorem C27_text_kept (v : Str) (h : startsWith v ['0'] = false ∨ '.' ∈ v ∨ (∃ r, v = '0' :: 'x' :: r)) :
    publishedPythonValue v = v := by
  unfold publishedPythonValue
  rw [if_neg]
  unfold valueType
  split
  · simp
  · split
    · simp
    · split
      · split <;> simp
      · rename_i hc1 hc2
        split
        · split <;> simp
        · rename_i hx
          rcases h with h | h | ⟨r, rfl⟩
          · rw [h]; simp only [Bool.false_and, Bool.false_eq_true, if_false]
            split <;> simp
          · exfalso
            have := List.count_pos_iff.2 h
            omega
          · simp [startsWith] at hx

example : isPublishable ⟨['A'], none, some "017".toList⟩ = true ∧ publishedPythonValue "017".toList = "0o17".toList ∧
    cLiteral "017".toList = some 15 ∧ pyInt 0 "0o17".toList = some 15 := by decide +kernel
example : isPublishable ⟨['A'], none, some "\"a b\"".toList⟩ = true ∧ isPublishable ⟨['A'], none, some "3.5e-2".toList⟩ = true ∧
    isPublishable ⟨['A'], none, some "B + 1".toList⟩ = false ∧ isPublishable ⟨['A'], none, some "10u".toList⟩ = false ∧
    isPublishable ⟨['A'], none, some "1.5f".toList⟩ = false := by decide +kernel
example : cSigned "-12".toList = some (-12) ∧ isPublishable ⟨['A'], none, some "-12".toList⟩ = true := by decide +kernel

end Verif.Num.Props
