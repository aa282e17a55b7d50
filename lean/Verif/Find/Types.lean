import Verif.Find.Plain
import Verif.Type.Props
import Verif.Inst.Spec

/-! C96: the types of buffers. -/

namespace Verif.Find.Props
open Verif.Py Verif.Find Verif.Find.Spec Verif.Type Verif.Type.Spec
open Verif.Scope (isWordChar)
open Verif.Inst.Spec (Ident)

theorem orElse_some (a b : Bool) : orElse (some a) (some b) = some (a || b) := by cases a <;> rfl

theorem dropLast_star (t : Str) : (if endsWith (t ++ ['*']) ['*'] then (t ++ ['*']).dropLast else t ++ ['*']) = t := by
  have h : endsWith (t ++ ['*']) ['*'] = true := by
    unfold endsWith
    simp
  rw [if_pos h, List.dropLast_concat]

/-- One of the types of the option, with a star. -/
theorem pointer_eq (u : Char → Bool) (text : Str) {t : Str} (ht : ∀ c ∈ t, c ∉ special) :
    containsPointerType u text (t ++ ['*']) = some (search u (starRe t) none text || search u (starRe (t ++ [' '])) none text) := by
  have hb : ∀ c ∈ t ++ [' '], c ∉ special := by
    intro c hc
    rcases List.mem_append.1 hc with h | h
    · exact ht c h
    · cases List.mem_singleton.1 h
      decide
  unfold containsPointerType
  rw [dropLast_star]
  have e : t ++ " *".toList = (t ++ [' ']) ++ ['*'] := by rw [List.append_assoc]; rfl
  show orElse (containsWordLeft u text (t ++ ['*'])) (containsWordLeft u text (t ++ " *".toList)) = _
  rw [e, containsWordLeft_eq u text ht, containsWordLeft_eq u text hb, orElse_some]

theorem foldr_orElse {α : Type} (f : α → Option Bool) (g : α → Bool) : ∀ (l : List α), (∀ x ∈ l, f x = some (g x)) →
    l.foldr (fun t r => orElse (f t) r) (some false) = some (l.any g)
  | [], _ => rfl
  | x :: l, h => by
    rw [List.foldr_cons, foldr_orElse f g l (fun y hy => h y (by simp [hy])), h x (by simp), orElse_some, List.any_cons]

/-- The names of types of the option: plain characters, and the first one is a word character. -/
def Plain (u : Char → Bool) (t : Str) : Prop := (∀ c ∈ t, c ∉ special) ∧ ∃ c t', t = c :: t' ∧ isWordChar u c = true

theorem buffer_iff (u : Char → Bool) (types text : Str) (ht : ∀ t ∈ splitPipe types, Plain u t) :
    ∃ b, looksLikeBuffer u types text = some b ∧ (b = true ↔ ∃ t ∈ splitPipe types, PointerIn (isWordChar u) t text) := by
  have hb : ∀ t ∈ splitPipe types, ∀ c ∈ t ++ [' '], c ∉ special := by
    intro t h0 c hc
    rcases List.mem_append.1 hc with h | h
    · exact (ht t h0).1 c h
    · cases List.mem_singleton.1 h
      decide
  let g : Str → Bool := fun x =>
    let t := x.dropLast
    search u (starRe t) none text || search u (starRe (t ++ [' '])) none text
  have hg : ∀ x ∈ pointerTypes types, containsPointerType u text x = some (g x) := by
    intro x hx
    rcases List.mem_append.1 hx with h | h
    · obtain ⟨t, h1, rfl⟩ := List.mem_map.1 h
      show _ = some (search u (starRe (t ++ ['*']).dropLast) none text || search u (starRe ((t ++ ['*']).dropLast ++ [' '])) none text)
      rw [List.dropLast_concat]
      exact pointer_eq u text (ht t h1).1
    · obtain ⟨t, h1, rfl⟩ := List.mem_map.1 h
      have e : t ++ " *".toList = (t ++ [' ']) ++ ['*'] := by rw [List.append_assoc]; rfl
      show _ = some (search u (starRe (t ++ " *".toList).dropLast) none text || search u (starRe ((t ++ " *".toList).dropLast ++ [' '])) none text)
      rw [e, List.dropLast_concat]
      exact pointer_eq u text (hb t h1)
  refine ⟨_, foldr_orElse _ g _ hg, ?_⟩
  have hs : ∀ t ∈ splitPipe types, ∀ n, search u (starRe (t ++ List.replicate n ' ')) none text = true ↔
      ∃ a b, text = a ++ t ++ List.replicate n ' ' ++ '*' :: b ∧ ∀ c, a.getLast? = some c → isWordChar u c = false := by
    intro t h0 n
    obtain ⟨_, c, t', rfl, hc⟩ := ht t h0
    refine (search_star u text (c :: t' ++ List.replicate n ' ') ⟨c, t' ++ List.replicate n ' ', rfl, hc⟩).trans ?_
    rw [iff_iff_eq]
    congr
    funext a
    congr
    funext b
    rw [← List.append_assoc]
  rw [List.any_eq_true]
  constructor
  · rintro ⟨x, hx, h⟩
    rcases List.mem_append.1 hx with h1 | h1
    · obtain ⟨t, h2, rfl⟩ := List.mem_map.1 h1
      have h3 : (search u (starRe (t ++ ['*']).dropLast) none text || search u (starRe ((t ++ ['*']).dropLast ++ [' '])) none text) = true := h
      rw [List.dropLast_concat, Bool.or_eq_true] at h3
      rcases h3 with h3 | h3
      · obtain ⟨a, b, h4, h5⟩ := (hs t h2 0).1 (by rw [List.replicate_zero, List.append_nil]; exact h3)
        exact ⟨t, h2, a, 0, b, by omega, h4, h5⟩
      · obtain ⟨a, b, h4, h5⟩ := (hs t h2 1).1 h3
        exact ⟨t, h2, a, 1, b, by omega, h4, h5⟩
    · obtain ⟨t, h2, rfl⟩ := List.mem_map.1 h1
      have e : t ++ " *".toList = (t ++ [' ']) ++ ['*'] := by rw [List.append_assoc]; rfl
      have h3 : (search u (starRe (t ++ " *".toList).dropLast) none text || search u (starRe ((t ++ " *".toList).dropLast ++ [' '])) none text) = true := h
      rw [e, List.dropLast_concat, Bool.or_eq_true, List.append_assoc] at h3
      rcases h3 with h3 | h3
      · obtain ⟨a, b, h4, h5⟩ := (hs t h2 1).1 h3
        exact ⟨t, h2, a, 1, b, by omega, h4, h5⟩
      · obtain ⟨a, b, h4, h5⟩ := (hs t h2 2).1 h3
        exact ⟨t, h2, a, 2, b, by omega, h4, h5⟩
  · rintro ⟨t, h2, a, n, b, hn, h4, h5⟩
    have h6 := (hs t h2 n).2 ⟨a, b, h4, h5⟩
    have e : t ++ " *".toList = (t ++ [' ']) ++ ['*'] := by rw [List.append_assoc]; rfl
    rcases (by omega : n = 0 ∨ n = 1 ∨ n = 2) with rfl | rfl | rfl
    · refine ⟨t ++ ['*'], List.mem_append_left _ (List.mem_map_of_mem h2), ?_⟩
      show (search u (starRe (t ++ ['*']).dropLast) none text || search u (starRe ((t ++ ['*']).dropLast ++ [' '])) none text) = true
      rw [List.replicate_zero, List.append_nil] at h6
      rw [List.dropLast_concat, h6, Bool.true_or]
    · refine ⟨t ++ ['*'], List.mem_append_left _ (List.mem_map_of_mem h2), ?_⟩
      show (search u (starRe (t ++ ['*']).dropLast) none text || search u (starRe ((t ++ ['*']).dropLast ++ [' '])) none text) = true
      have h7 : search u (starRe (t ++ [' '])) none text = true := h6
      rw [List.dropLast_concat, h7, Bool.or_true]
    · refine ⟨t ++ " *".toList, List.mem_append_right _ (List.mem_map_of_mem h2), ?_⟩
      show (search u (starRe (t ++ " *".toList).dropLast) none text || search u (starRe ((t ++ " *".toList).dropLast ++ [' '])) none text) = true
      have h7 : search u (starRe (t ++ ([' '] ++ [' ']))) none text = true := h6
      rw [e, List.dropLast_concat, List.append_assoc, h7, Bool.or_true]

/-- A text is recognised as the type of a buffer when one of the types of the option is in it before a star, with at most two blanks between them,
and is not the end of a longer name. -/
theorem C96_exact (u : Char → Bool) (types text : Str) (ht : ∀ t ∈ splitPipe types, Plain u t) :
    looksLikeBuffer u types text = some true ↔ ∃ t ∈ splitPipe types, PointerIn (isWordChar u) t text := by
  obtain ⟨b, h1, h2⟩ := buffer_iff u types text ht
  rw [h1, Option.some.injEq, h2]

/-- The types of the options are so. -/
theorem plain_default (u : Char → Bool) (types : Str) (h : types = bufferTypes ∨ types = templateTypes) : ∀ t ∈ splitPipe types, Plain u t := by
  have key : ∀ types, types = bufferTypes ∨ types = templateTypes →
      ∀ t ∈ splitPipe types, (∀ c ∈ t, c ∉ special) ∧ ∃ c ∈ t.head?, isWordChar (fun _ => false) c = true ∧ c.toNat < 128 := by
    rintro types (rfl | rfl) <;> decide +kernel
  intro t ht
  obtain ⟨h1, c, h2, h3, h4⟩ := key types h t ht
  refine ⟨h1, ?_⟩
  cases t with
  | nil => cases h2
  | cons d t =>
    cases h2
    refine ⟨_, t, rfl, ?_⟩
    revert h3
    unfold isWordChar
    rw [if_pos h4, if_pos h4]
    exact id

example : looksLikeBuffer (fun _ => false) bufferTypes "const uint8_t *".toList = some true ∧
    looksLikeBuffer (fun _ => false) bufferTypes "const my_float *".toList = some false ∧
    looksLikeBuffer (fun _ => false) templateTypes "T *".toList = some true := by decide +kernel

/-- A name of a type: identifiers, other than `const`, with one blank between them. -/
def TypeName (u : Char → Bool) (t : Str) : Prop := ∃ l, l ≠ [] ∧ (∀ w ∈ l, Ident u w ∧ w ≠ "const".toList) ∧ t = words l

/-- The full statement: the type of a parameter is recognised when it is a pointer to one of the types of the option. -/
def C96_statement : Prop :=
  ∀ (u : Char → Bool) (types : Str) (t : CppType) (text : Str), (∀ n ∈ splitPipe types, TypeName u n) → Proper t → strCode t = some text →
    (looksLikeBuffer u types text = some true ↔ words t.typenames ∈ splitPipe types ∧ t.modifiers = ["*".toList])

theorem word_plain (u : Char → Bool) {c : Char} (h : isWordChar u c = true) : c ∉ special ∧ c ≠ ' ' := by
  have key : ∀ d ∈ ' ' :: special, d.toNat < 128 ∧ isWordChar (fun _ => false) d = false := by decide +kernel
  have : ∀ d ∈ ' ' :: special, isWordChar u d = false := by
    intro d hd
    obtain ⟨h1, h2⟩ := key d hd
    revert h2
    unfold isWordChar
    rw [if_pos h1, if_pos h1]
    exact id
  constructor
  · intro hm
    rw [this c (by simp [hm])] at h
    cases h
  · rintro rfl
    rw [this ' ' (by simp)] at h
    cases h

theorem blank_word (u : Char → Bool) : isWordChar u ' ' = false := Bool.eq_false_iff.2 (fun h => (word_plain u h).2 rfl)

theorem words_mem {l : List Str} {c : Char} (h : c ∈ words l) : c = ' ' ∨ ∃ w ∈ l, c ∈ w := by
  induction l with
  | nil => cases h
  | cons w l ih =>
    cases l with
    | nil => exact .inr ⟨w, by simp, h⟩
    | cons x l =>
      have e : words (w :: x :: l) = w ++ [' '] ++ words (x :: l) := join_cons_cons _ _ _ _
      rw [e] at h
      rcases List.mem_append.1 h with h | h
      · rcases List.mem_append.1 h with h | h
        · exact .inr ⟨w, by simp, h⟩
        · exact .inl (List.mem_singleton.1 h)
      · rcases ih h with h | ⟨y, hy, hc⟩
        · exact .inl h
        · exact .inr ⟨y, by simp [hy], hc⟩

theorem words_first {u : Char → Bool} {w : Str} {l : List Str} (hw : Ident u w) : ∃ c t', words (w :: l) = c :: t' ∧ isWordChar u c = true := by
  cases w with
  | nil => exact absurd rfl hw.1
  | cons c w =>
    cases l with
    | nil => exact ⟨c, w, rfl, hw.2 c (by simp)⟩
    | cons x l => exact ⟨c, _, join_cons_cons _ _ _ _, hw.2 c (by simp)⟩

theorem words_last {u : Char → Bool} : ∀ {l : List Str}, l ≠ [] → (∀ w ∈ l, Ident u w) → ∃ p c, words l = p ++ [c] ∧ isWordChar u c = true
  | [], h, _ => absurd rfl h
  | [w], _, h => by
    obtain ⟨h1, h2⟩ := h w (by simp)
    refine ⟨w.dropLast, w.getLast h1, (List.dropLast_append_getLast h1).symm, h2 _ (List.getLast_mem h1)⟩
  | w :: x :: l, _, h => by
    obtain ⟨p, c, h1, h2⟩ := words_last (l := x :: l) (by simp) (fun y hy => h y (by simp [hy]))
    refine ⟨w ++ [' '] ++ p, c, ?_, h2⟩
    show join [' '] (w :: x :: l) = _
    rw [join_cons_cons]
    show w ++ [' '] ++ words (x :: l) = _
    rw [h1, List.append_assoc (w ++ [' ']) p [c]]

theorem typeName_plain {u : Char → Bool} {t : Str} (h : TypeName u t) : Plain u t := by
  obtain ⟨l, h1, h2, rfl⟩ := h
  constructor
  · intro c hc
    rcases words_mem hc with rfl | ⟨w, hw, hcw⟩
    · decide
    · exact (word_plain u ((h2 w hw).1.2 c hcw)).1
  · cases l with
    | nil => exact absurd rfl h1
    | cons w l => exact words_first (h2 w (by simp)).1

theorem blank_not_mem {u : Char → Bool} {w : Str} (h : Ident u w) : ' ' ∉ w := fun hm => (word_plain u (h.2 ' ' hm)).2 rfl

/-- Words at the end of words. -/
theorem words_suffix {u : Char → Bool} {l m : List Str} (hl : l ≠ []) (hm : m ≠ []) (h1 : ∀ w ∈ l, Ident u w) (h2 : ∀ w ∈ m, Ident u w) :
    (∃ a, words m = a ++ words l ∧ ∀ c, a.getLast? = some c → isWordChar u c = false) ↔ l <:+ m := by
  have e1 : splitOn ' ' (words l) = l := splitOn_join hl (fun w hw => blank_not_mem (h1 w hw))
  have e2 : splitOn ' ' (words m) = m := splitOn_join hm (fun w hw => blank_not_mem (h2 w hw))
  constructor
  · rintro ⟨a, ha, hc⟩
    rcases List.eq_nil_or_concat a with rfl | ⟨a, c, rfl⟩
    · rw [List.nil_append] at ha
      rw [← e1, ← e2, ha]
      exact List.suffix_refl _
    · rw [List.concat_eq_append] at *
      have h3 := hc c (by simp)
      have h4 : c = ' ' := by
        rcases words_mem (l := m) (c := c) (by rw [ha]; simp) with h | ⟨w, hw, hcw⟩
        · exact h
        · rw [(h2 w hw).2 c hcw] at h3
          cases h3
      subst h4
      obtain ⟨as, x, y, bs, h5, h6, h7⟩ := splitOn_append_of_not_mem (c := ' ') a (' ' :: words l)
      rw [splitOn_cons_eq] at h6
      obtain ⟨rfl, rfl⟩ := List.cons.inj h6
      have h8 : words m = a ++ ' ' :: words l := by rw [ha, List.append_assoc]; rfl
      rw [← h8, e2, e1] at h7
      exact ⟨as ++ [x ++ []], by rw [h7]; simp⟩
  · rintro ⟨p, rfl⟩
    cases p with
    | nil => exact ⟨[], rfl, by simp⟩
    | cons x p =>
      refine ⟨words (x :: p) ++ [' '], ?_, ?_⟩
      · exact Verif.Type.join_append (by simp) hl
      · intro c hc
        rw [List.getLast?_append] at hc
        cases hc
        exact blank_word u

/-- Proved part: for at most one `const`, one identifier as the name of the type, and at most one modifier, `*` or `&`. -/
theorem C96_partial (u : Char → Bool) (types : Str) (t : CppType) (n text : Str) (ht : ∀ n ∈ splitPipe types, TypeName u n)
    (hs : t.specifiers = [] ∨ t.specifiers = ["const".toList]) (hn : t.typenames = [n]) (hi : Ident u n)
    (hm : t.modifiers = [] ∨ t.modifiers = ["*".toList] ∨ t.modifiers = ["&".toList]) (e : strCode t = some text) :
    looksLikeBuffer u types text = some true ↔ words t.typenames ∈ splitPipe types ∧ t.modifiers = ["*".toList] := by
  rw [C96_exact u types text (fun n hn => typeName_plain (ht n hn))]
  have hconst : Ident u "const".toList := by
    refine ⟨by decide, ?_⟩
    have key : ∀ d ∈ "const".toList, d.toNat < 128 ∧ isWordChar (fun _ => false) d = true := by decide +kernel
    intro d hd
    obtain ⟨h1, h2⟩ := key d hd
    revert h2
    unfold isWordChar
    rw [if_pos h1, if_pos h1]
    exact id
  have hsi : ∀ w ∈ t.specifiers ++ [n], Ident u w := by
    intro w hw
    rcases List.mem_append.1 hw with h | h
    · rcases hs with h0 | h0
      · rw [h0] at h
        cases h
      · rw [h0] at h
        rw [List.mem_singleton.1 h]
        exact hconst
    · rw [List.mem_singleton.1 h]
      exact hi
  have hp : Proper t := by
    intro w hw
    rw [hn] at hw
    rcases List.mem_append.1 hw with h | h
    · exact (hsi w h).1
    · rcases hm with h0 | h0 | h0 <;> rw [h0] at h
      · cases h
      · rw [List.mem_singleton.1 h]
        decide
      · rw [List.mem_singleton.1 h]
        decide
  have hcount : t.specifiers.count "const".toList ≤ 1 := by
    rcases hs with h0 | h0 <;> rw [h0] <;> decide
  have htext := (Verif.Type.Props.C29_printed t hp hcount).symm.trans e
  have htext' := (Option.some.inj htext).symm
  rw [hn] at htext'
  have hne : t.specifiers ++ [n] ≠ [] := by simp
  have hstar : '*' ∉ words (t.specifiers ++ [n]) := by
    intro hmem
    rcases words_mem hmem with h | ⟨w, hw, hc⟩
    · exact absurd h (by decide)
    · exact (word_plain u ((hsi w hw).2 '*' hc)).1 (by decide)
  have hwn : words [n] = n := rfl
  rw [hn, hwn]
  rcases hm with h0 | h0 | h0
  · rw [h0, List.append_nil] at htext'
    constructor
    · rintro ⟨x, _, a, k, b, _, h2, _⟩
      exact absurd (by rw [← htext', h2]; simp) hstar
    · rintro ⟨_, h⟩
      rw [h0] at h
      cases h
  · have h1 : text = words (t.specifiers ++ [n]) ++ [' '] ++ ['*'] := by
      rw [htext', h0]
      exact Verif.Type.join_append hne (by simp)
    refine ⟨?_, ?_⟩
    · rintro ⟨x, hx, a, k, b, hk, h2, h3⟩
      refine ⟨?_, h0⟩
      obtain ⟨l, hl, hli, rfl⟩ := ht x hx
      rw [h1] at h2
      have hb : b = [] := by
        rcases List.eq_nil_or_concat b with rfl | ⟨b, c, rfl⟩
        · rfl
        · exfalso
          rw [List.concat_eq_append] at h2
          have e5 : a ++ words l ++ List.replicate k ' ' ++ '*' :: (b ++ [c]) = (a ++ words l ++ List.replicate k ' ' ++ '*' :: b) ++ [c] := by simp
          rw [e5] at h2
          have h6 := (List.append_inj' h2 rfl).1
          have h7 : '*' ∈ words (t.specifiers ++ [n]) ++ [' '] := by rw [h6]; simp
          rcases List.mem_append.1 h7 with h | h
          · exact hstar h
          · exact absurd (List.mem_singleton.1 h) (by decide)
      subst hb
      have h4 := (List.append_inj' h2 rfl).1
      have hlast := words_last hl (fun w hw => (hli w hw).1)
      obtain ⟨p, c, hpc, hcw⟩ := hlast
      obtain ⟨p', c', hpc', hcw'⟩ := words_last hne hsi
      have hk1 : k = 1 := by
        rcases (by omega : k = 0 ∨ k = 1 ∨ k = 2) with rfl | rfl | rfl
        · exfalso
          rw [List.replicate_zero, List.append_nil, hpc, ← List.append_assoc] at h4
          have h9 := (List.append_inj' h4 rfl).2
          have : c = ' ' := by simpa using h9.symm
          exact (word_plain u hcw).2 this
        · rfl
        · exfalso
          have e6 : a ++ words l ++ List.replicate 2 ' ' = (a ++ words l ++ [' ']) ++ [' '] := by simp
          rw [e6] at h4
          have h9 := (List.append_inj' h4 rfl).1
          rw [hpc'] at h9
          have h10 := (List.append_inj' h9 rfl).2
          have : c' = ' ' := by simpa using h10
          exact (word_plain u hcw').2 this
      subst hk1
      have h9 := (List.append_inj' h4 rfl).1
      have h10 := (words_suffix hl hne (fun w hw => (hli w hw).1) hsi).1 ⟨a, h9, h3⟩
      have h11 : l = [n] := by
        rcases hs with h | h <;> rw [h] at h10
        · rcases List.suffix_cons_iff.1 h10 with h | h
          · exact h
          · exact absurd (List.suffix_nil.1 h) hl
        · rcases List.suffix_cons_iff.1 h10 with h | h
          · exact absurd rfl (hli _ (by rw [h]; exact List.mem_cons_self)).2
          · rcases List.suffix_cons_iff.1 h with h | h
            · exact h
            · exact absurd (List.suffix_nil.1 h) hl
      rw [h11] at hx
      exact hx
    · rintro ⟨hx, _⟩
      obtain ⟨a, h2, h3⟩ := (words_suffix (u := u) (l := [n]) (m := t.specifiers ++ [n]) (by simp) hne (by simpa using hi) hsi).2 ⟨_, rfl⟩
      refine ⟨n, hx, a, 1, [], by omega, ?_, h3⟩
      rw [h1, h2]
      rfl
  · have h1 : text = words (t.specifiers ++ [n]) ++ [' '] ++ ['&'] := by
      rw [htext', h0]
      exact Verif.Type.join_append hne (by simp)
    constructor
    · rintro ⟨x, _, a, k, b, _, h2, _⟩
      exfalso
      have : '*' ∈ text := by rw [h2]; simp
      rw [h1] at this
      rcases List.mem_append.1 this with h | h
      · rcases List.mem_append.1 h with h | h
        · exact hstar h
        · exact absurd (List.mem_singleton.1 h) (by decide)
      · exact absurd (List.mem_singleton.1 h) (by decide)
    · rintro ⟨_, h⟩
      rw [h0] at h
      exact absurd h (by decide)

/-- The types of the options are names of types. -/
theorem default_names (u : Char → Bool) : (∀ n ∈ splitPipe bufferTypes, TypeName u n) ∧ ∀ n ∈ splitPipe templateTypes, TypeName u n := by
  have key : ∀ n ∈ splitPipe bufferTypes ++ splitPipe templateTypes, splitOn ' ' n ≠ [] ∧ ∀ w ∈ splitOn ' ' n, w ≠ [] ∧ w ≠ "const".toList ∧
      ∀ c ∈ w, c.toNat < 128 ∧ isWordChar (fun _ => false) c = true := by decide +kernel
  have all : ∀ n ∈ splitPipe bufferTypes ++ splitPipe templateTypes, TypeName u n := by
    intro n hn
    obtain ⟨h1, h2⟩ := key n hn
    refine ⟨splitOn ' ' n, h1, ?_, (join_splitOn ' ' n).symm⟩
    intro w hw
    obtain ⟨h3, h4, h5⟩ := h2 w hw
    refine ⟨⟨h3, ?_⟩, h4⟩
    intro c hc
    obtain ⟨h6, h7⟩ := h5 c hc
    revert h7
    unfold isWordChar
    rw [if_pos h6, if_pos h6]
    exact id
  exact ⟨fun n hn => all n (by simp [hn]), fun n hn => all n (by simp [hn])⟩

example : strCode ⟨["const".toList], ["float".toList], ["*".toList]⟩ = some "const float *".toList ∧
    looksLikeBuffer (fun _ => false) bufferTypes "const float *".toList = some true := by decide +kernel

/-- The full statement fails: a pointer to a pointer, `float * *`, is taken for a buffer of `float`. -/
theorem C96_fails : ¬ C96_statement := by
  intro h
  have h1 := h (fun _ => false) bufferTypes ⟨[], ["float".toList], ["*".toList, "*".toList]⟩ "float * *".toList
    (default_names _).1 (by unfold Proper; decide +kernel) (by decide +kernel)
  have h2 := (h1.1 (by decide +kernel)).2
  exact absurd h2 (by decide)

/-- So are a pointer to a type of a namespace that ends with the same name, and a type with such a pointer as an argument. -/
theorem C96_others : looksLikeBuffer (fun _ => false) bufferTypes "geometry::float *".toList = some true ∧
    looksLikeBuffer (fun _ => false) templateTypes "geometry::T *".toList = some true ∧
    looksLikeBuffer (fun _ => false) bufferTypes "std::vector<float *>".toList = some true := by decide +kernel

/-- C96: without types in the option (the empty text, or bars only), no parameter is a buffer. -/
theorem C96_no_types (u : Char → Bool) (n : Nat) (text : Str) : looksLikeBuffer u (List.replicate n '|') text = some false := by
  have hl : ∀ x ∈ splitOn '|' (List.replicate n '|'), x = [] := by
    induction n with
    | zero => decide
    | succ n ih =>
      rw [List.replicate_succ]
      have e : splitOn '|' ('|' :: List.replicate n '|') = [] :: splitOn '|' (List.replicate n '|') := by
        rw [splitOn]
        rfl
      rw [e]
      intro x hx
      rcases List.mem_cons.1 hx with h | h
      · exact h
      · exact ih x h
  have h : splitPipe (List.replicate n '|') = [] := by
    unfold splitPipe
    exact List.filter_eq_nil_iff.2 (fun x hx => by rw [hl x hx]; decide)
  unfold looksLikeBuffer pointerTypes
  rw [h]
  rfl

end Verif.Find.Props
