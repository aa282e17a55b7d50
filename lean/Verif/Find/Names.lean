import Verif.Find.Lemmas

/-! C95: the names of the sizes of buffers. -/

namespace Verif.Find.Props
open Verif.Py Verif.Find Verif.Find.Spec

/-- With the standard options, the name of a parameter is recognised as a size when it has one of the five forms of one of the words
`nb`, `size`, `count`, `total`, `n`: the word, `word_x`, `x_word`, `wordXx`, or anything that ends with the word and a digit. -/
theorem C95_exact (u : Char → Bool) (name : Str) (hn : '\n' ∉ name) : looksLikeSize u name = some true ↔ ∃ w ∈ sizeWords, Made w name :=
  size_iff u name hn

example : looksLikeSize (fun _ => false) "item_count".toList = some true ∧ looksLikeSize (fun _ => false) "nItems".toList = some true ∧
    looksLikeSize (fun _ => false) "counter".toList = some false := by decide +kernel

/-- The names made of one of the words, in a list that is written apart from the options. -/
theorem C95_list (u : Char → Bool) (name : Str) (hn : '\n' ∉ name) : looksLikeSize u name = some true ↔
    Made "nb".toList name ∨ Made "size".toList name ∨ Made "count".toList name ∨ Made "total".toList name ∨ Made "n".toList name := by
  rw [C95_exact u name hn]
  have h : ∀ P : Str → Prop, (∃ w ∈ sizeWords, P w) ↔ P "nb".toList ∨ P "size".toList ∨ P "count".toList ∨ P "total".toList ∨ P "n".toList := by
    intro P
    constructor
    · rintro ⟨w, hw, hp⟩
      rcases List.mem_cons.1 hw with rfl | hw
      · exact .inl hp
      rcases List.mem_cons.1 hw with rfl | hw
      · exact .inr (.inl hp)
      rcases List.mem_cons.1 hw with rfl | hw
      · exact .inr (.inr (.inl hp))
      rcases List.mem_cons.1 hw with rfl | hw
      · exact .inr (.inr (.inr (.inl hp)))
      obtain rfl := List.mem_singleton.1 hw
      exact .inr (.inr (.inr (.inr hp)))
    · rintro (hp | hp | hp | hp | hp)
      · exact ⟨_, .head _, hp⟩
      · exact ⟨_, .tail _ (.head _), hp⟩
      · exact ⟨_, .tail _ (.tail _ (.head _)), hp⟩
      · exact ⟨_, .tail _ (.tail _ (.tail _ (.head _))), hp⟩
      · exact ⟨_, .tail _ (.tail _ (.tail _ (.tail _ (.head _)))), hp⟩
  exact h (fun w => Made w name)

/-- The full statement: it is recognised when one of these words is a word of the name. -/
def C95_words_statement : Prop := ∀ (u : Char → Bool) (name : Str), '\n' ∉ name → (looksLikeSize u name = some true ↔ ∃ w ∈ sizeWords, w ∈ wordsOf name)

theorem words_lower {a : Str} (ha : ∀ c ∈ a, Lower c) : wordsOf a = [a] := by
  induction a with
  | nil => rfl
  | cons c s ih =>
    have hc : Lower c := ha c (by simp)
    have hu : ¬ Upper c := fun h => by
      have h1 := hc.1
      have h2 := h.2
      simp only [show 'a'.toNat = 97 from rfl, show 'Z'.toNat = 90 from rfl] at h1 h2
      omega
    have h0 : c ≠ '_' := fun e => by subst e; exact absurd hc (by decide)
    have hs : s.head?.any (fun d => decide (Upper d)) = false := by
      cases s with
      | nil => rfl
      | cons d s =>
        have h1 := (ha d (by simp)).1
        refine decide_eq_false (fun h => ?_)
        have h2 := h.2
        simp only [show 'a'.toNat = 97 from rfl, show 'Z'.toNat = 90 from rfl] at h1 h2
        omega
    rw [wordsOf, if_neg h0, ih (fun d hd => ha d (by simp [hd])), hs]
    simp only [Bool.false_and, Bool.false_eq_true, if_false, if_neg hu]
    rfl

theorem words_two {a : Str} (ha : ∀ c ∈ a, Lower c) (b : Str) : wordsOf (a ++ '_' :: b) = a :: wordsOf b := by
  induction a with
  | nil => rfl
  | cons c s ih =>
    have hc : Lower c := ha c (by simp)
    have hu : ¬ Upper c := fun h => by
      have h1 := hc.1
      have h2 := h.2
      simp only [show 'a'.toNat = 97 from rfl, show 'Z'.toNat = 90 from rfl] at h1 h2
      omega
    have h0 : c ≠ '_' := fun e => by subst e; exact absurd hc (by decide)
    have hs : (s ++ '_' :: b).head?.any (fun d => decide (Upper d)) = false := by
      cases s with
      | nil => rfl
      | cons d s =>
        have h1 := (ha d (by simp)).1
        refine decide_eq_false (fun h => ?_)
        have h2 := h.2
        simp only [show 'a'.toNat = 97 from rfl, show 'Z'.toNat = 90 from rfl] at h1 h2
        omega
    rw [List.cons_append, wordsOf, if_neg h0, ih (fun d hd => ha d (by simp [hd])), hs]
    simp only [Bool.false_and, Bool.false_eq_true, if_false, if_neg hu]
    rfl

theorem lower_not {c : Char} (h : Lower c) : c ≠ '_' ∧ ¬ Upper c ∧ ¬ Digit c ∧ c ≠ '\n' := by
  refine ⟨?_, ?_, ?_, ?_⟩
  · rintro rfl; exact absurd h (by decide)
  · intro h2
    have h1 := h.1
    have h2 := h2.2
    simp only [show 'a'.toNat = 97 from rfl, show 'Z'.toNat = 90 from rfl] at h1 h2
    omega
  · intro h2
    have h1 := h.1
    have h2 := h2.2
    simp only [show 'a'.toNat = 97 from rfl, show '9'.toNat = 57 from rfl] at h1 h2
    omega
  · rintro rfl; exact absurd h (by decide)

theorem made_lower {w a : Str} (ha : ∀ c ∈ a, Lower c) : Made w a ↔ w = a := by
  constructor
  · rintro (h | ⟨x, h⟩ | ⟨x, h⟩ | ⟨c, d, x, h, hc, _⟩ | ⟨x, d, h, hd⟩)
    · exact h.symm
    · exact absurd rfl (lower_not (ha '_' (by rw [h]; simp))).1
    · exact absurd rfl (lower_not (ha '_' (by rw [h]; simp))).1
    · exact absurd hc (lower_not (ha c (by rw [h]; simp))).2.1
    · exact absurd hd (lower_not (ha d (by rw [h]; simp))).2.2.1
  · rintro rfl
    exact .inl rfl

theorem split_unique {a b x y : Str} (ha : '_' ∉ a) (hx : '_' ∉ x) (h : a ++ '_' :: b = x ++ '_' :: y) : a = x ∧ b = y := by
  induction a generalizing x with
  | nil =>
    cases x with
    | nil => exact ⟨rfl, (List.cons.inj h).2⟩
    | cons c x => exact absurd (by rw [← (List.cons.inj h).1]; simp) hx
  | cons c a ih =>
    cases x with
    | nil => exact absurd (by rw [(List.cons.inj h).1]; simp) ha
    | cons d x =>
      obtain ⟨rfl, h2⟩ := List.cons.inj h
      obtain ⟨rfl, rfl⟩ := ih (fun hm => ha (by simp [hm])) (fun hm => hx (by simp [hm])) h2
      exact ⟨rfl, rfl⟩

theorem made_two {w a b : Str} (hw : ∀ c ∈ w, Lower c) (ha : ∀ c ∈ a, Lower c) (hb : ∀ c ∈ b, Lower c) (hne : b ≠ []) :
    Made w (a ++ '_' :: b) ↔ w = a ∨ w = b := by
  have h0 : ∀ {l : Str}, (∀ c ∈ l, Lower c) → '_' ∉ l := fun h hm => absurd rfl (lower_not (h _ hm)).1
  constructor
  · rintro (h | ⟨x, h⟩ | ⟨x, h⟩ | ⟨c, d, x, h, hc, _⟩ | ⟨x, d, h, hd⟩)
    · exact absurd (by rw [← h]; simp) (h0 hw)
    · exact .inl (split_unique (h0 ha) (h0 hw) h).1.symm
    · by_cases hx : '_' ∈ x
      · obtain ⟨p, q, rfl⟩ := List.append_of_mem hx
        exfalso
        have h2 := congrArg (List.count '_') h
        have z : ∀ {l : Str}, (∀ c ∈ l, Lower c) → l.count '_' = 0 := fun hl => List.count_eq_zero.2 (h0 hl)
        simp only [List.count_append, List.count_cons, z ha, z hb, z hw, beq_self_eq_true, if_true] at h2
        omega
      · exact .inr (split_unique (h0 ha) hx h).2.symm
    · have hm : c ∈ a ++ '_' :: b := by rw [h]; simp
      rcases List.mem_append.1 hm with hm | hm
      · exact absurd hc (lower_not (ha c hm)).2.1
      · rcases List.mem_cons.1 hm with rfl | hm
        · exact absurd hc (by decide)
        · exact absurd hc (lower_not (hb c hm)).2.1
    · obtain ⟨b', e, rfl⟩ : ∃ b' e, b = b' ++ [e] := ⟨_, _, (List.dropLast_concat_getLast hne).symm⟩
      have h2 : (a ++ '_' :: b') ++ [e] = x ++ w ++ [d] := by simpa using h
      have h3 := (List.cons.inj (List.append_inj' h2 rfl).2).1
      subst h3
      exact absurd hd (lower_not (hb e (by simp))).2.2.1
  · rintro (rfl | rfl)
    · exact .inr (.inl ⟨b, rfl⟩)
    · exact .inr (.inr (.inl ⟨a, rfl⟩))

/-- It holds for names of one or two words in lower case. -/
theorem C95_words_partial (u : Char → Bool) (a b : Str) (ha : ∀ c ∈ a, Lower c) (hb : ∀ c ∈ b, Lower c) :
    (looksLikeSize u a = some true ↔ ∃ w ∈ sizeWords, w ∈ wordsOf a) ∧
    (b ≠ [] → (looksLikeSize u (a ++ '_' :: b) = some true ↔ ∃ w ∈ sizeWords, w ∈ wordsOf (a ++ '_' :: b))) := by
  have hw : ∀ w ∈ sizeWords, ∀ c ∈ w, Lower c := by decide
  have n : ∀ {l : Str}, (∀ c ∈ l, Lower c) → '\n' ∉ l := fun h hm => absurd rfl (lower_not (h _ hm)).2.2.2
  constructor
  · rw [C95_exact u a (n ha), words_lower ha]
    constructor
    · rintro ⟨w, h1, h2⟩
      exact ⟨w, h1, by rw [(made_lower ha).1 h2]; simp⟩
    · rintro ⟨w, h1, h2⟩
      exact ⟨w, h1, (made_lower ha).2 (List.mem_singleton.1 h2)⟩
  · intro hne
    have hn : '\n' ∉ a ++ '_' :: b := by
      intro hm
      rcases List.mem_append.1 hm with hm | hm
      · exact n ha hm
      · rcases List.mem_cons.1 hm with hm | hm
        · cases hm
        · exact n hb hm
    rw [C95_exact u _ hn, words_two ha, words_lower hb]
    constructor
    · rintro ⟨w, h1, h2⟩
      rcases (made_two (hw w h1) ha hb hne).1 h2 with rfl | rfl
      · exact ⟨w, h1, by simp⟩
      · exact ⟨w, h1, by simp⟩
    · rintro ⟨w, h1, h2⟩
      refine ⟨w, h1, (made_two (hw w h1) ha hb hne).2 ?_⟩
      simpa using h2

example : (∀ c ∈ "item".toList, Lower c) ∧ (∀ c ∈ "count".toList, Lower c) ∧ wordsOf "item_count".toList = ["item".toList, "count".toList] := by decide

/-- It fails: `column3` and `rotation2` are taken for sizes (they end with `n` and a digit), while `bufferSize` and `item_count_max` are not. -/
theorem C95_words_fails : ¬ C95_words_statement ∧ (∀ u, looksLikeSize u "column3".toList = some true) ∧
    wordsOf "column3".toList = ["column3".toList] ∧ wordsOf "bufferSize".toList = ["buffer".toList, "size".toList] ∧
    looksLikeSize (fun _ => false) "bufferSize".toList = some false ∧ looksLikeSize (fun _ => false) "item_count_max".toList = some false := by
  have h1 : ∀ u, looksLikeSize u "column3".toList = some true := fun u =>
    (C95_exact u _ (by decide)).2 ⟨"n".toList, by decide, .inr (.inr (.inr (.inr ⟨"colum".toList, '3', rfl, by decide⟩)))⟩
  refine ⟨fun h => ?_, h1, by decide +kernel, by decide +kernel, by decide +kernel, by decide +kernel⟩
  have := (h (fun _ => false) "column3".toList (by decide)).1 (h1 _)
  revert this
  decide +kernel

end Verif.Find.Props
