import Verif.Mut.Lemmas
import Verif.Re.Number

/-! The texts of the patterns of immutable values. -/

namespace Verif.Mut
open Verif.Py Verif.Re Verif.Re.Spec Spec

variable {u : Char → Bool}

theorem lang_digit {m : Str} : Lang u digit m ↔ ∃ c, m = [c] ∧ Digit c := by
  constructor
  · rintro ⟨c, e, i, hi, h⟩
    rw [List.mem_singleton.1 hi] at h
    exact ⟨c, e, by simpa [Item.has, isDigit, Digit, Within] using h⟩
  · rintro ⟨c, e, h⟩
    exact ⟨c, e, _, List.mem_singleton.2 rfl, by simpa [Item.has, isDigit, Digit, Within] using h⟩

theorem has_range {a b c : Char} : Item.has u (.range a b) c = true ↔ Within a b c := by
  simp [Item.has, Within]

theorem lang_range {a b : Char} {m : Str} : Lang u (.set false [.range a b]) m ↔ ∃ c, m = [c] ∧ Within a b c := by
  constructor
  · rintro ⟨c, e, i, hi, h⟩
    rw [List.mem_singleton.1 hi] at h
    exact ⟨c, e, has_range.1 h⟩
  · rintro ⟨c, e, h⟩
    exact ⟨c, e, _, List.mem_singleton.2 rfl, has_range.2 h⟩

theorem lang_hex {m : Str} : Lang u hexDigit m ↔ ∃ c, m = [c] ∧ Hex c := by
  have hd : ∀ c, Item.has u (.digit false) c = true ↔ Digit c := fun c => by simp [Item.has, isDigit, Digit, Within]
  constructor
  · rintro ⟨c, e, i, hi, h⟩
    refine ⟨c, e, ?_⟩
    rcases List.mem_cons.1 hi with rfl | hi
    · exact .inl ((hd c).1 h)
    rcases List.mem_cons.1 hi with rfl | hi
    · exact .inr (.inl (has_range.1 h))
    · rw [List.mem_singleton.1 hi] at h
      exact .inr (.inr (has_range.1 h))
  · rintro ⟨c, e, h | h | h⟩
    · exact ⟨c, e, .digit false, by simp, (hd c).2 h⟩
    · exact ⟨c, e, .range 'a' 'f', by simp, has_range.2 h⟩
    · exact ⟨c, e, .range 'A' 'F', by simp, has_range.2 h⟩

theorem lang_oneOf {s m : Str} : Lang u (oneOf s) m ↔ ∃ c, m = [c] ∧ c ∈ s := by
  constructor
  · rintro ⟨c, e, h⟩
    exact ⟨c, e, inSet_one.1 h⟩
  · rintro ⟨c, e, h⟩
    exact ⟨c, e, inSet_one.2 h⟩

theorem lang_many {r : Re} {p : Char → Prop} (hr : ∀ m, Lang u r m ↔ ∃ c, m = [c] ∧ p c) {m : Str} :
    Lang u (many r) m ↔ ∀ c ∈ m, p c := by
  constructor
  · rintro ⟨l, hl, rfl⟩ c hc
    obtain ⟨x, hx, hc⟩ := List.mem_flatten.1 hc
    obtain ⟨d, rfl, hd⟩ := (hr x).1 (hl x hx).2
    rwa [List.mem_singleton.1 hc]
  · intro h
    refine ⟨m.map (fun c => [c]), ?_, ?_⟩
    · intro x hx
      obtain ⟨c, hc, rfl⟩ := List.mem_map.1 hx
      exact ⟨by simp, (hr _).2 ⟨c, rfl, h c hc⟩⟩
    · induction m with
      | nil => rfl
      | cons c m ih => rw [List.map_cons, List.flatten_cons, ← ih (fun x hx => h x (List.mem_cons_of_mem _ hx))]; rfl

theorem lang_many1 {r : Re} {p : Char → Prop} (hr : ∀ m, Lang u r m ↔ ∃ c, m = [c] ∧ p c) {m : Str} :
    Lang u (many1 r) m ↔ Some1 p m := by
  constructor
  · rintro ⟨x, y, rfl, hx, hy⟩
    obtain ⟨c, rfl, hc⟩ := (hr x).1 hx
    refine ⟨by simp, fun d hd => ?_⟩
    rcases List.mem_cons.1 hd with rfl | hd
    · exact hc
    · exact (lang_many hr).1 hy d hd
  · rintro ⟨hne, h⟩
    cases m with
    | nil => exact absurd rfl hne
    | cons c m => exact ⟨[c], m, rfl, (hr _).2 ⟨c, rfl, h c (by simp)⟩, (lang_many hr).2 (fun x hx => h x (by simp [hx]))⟩

theorem lang_any {m : Str} : Lang u .any m ↔ ∃ c, m = [c] ∧ c ≠ '\n' := Iff.rfl

theorem lang_minus {m : Str} : Lang u (maybe (.chr '-')) m ↔ Minus m := or_comm

/-- Two characters. -/
theorem mem_pair {c a b : Char} : c ∈ [a, b] ↔ c = a ∨ c = b := by simp

theorem lang_body {m : Str} : Lang u reBody m ↔ Mantissa m := by
  have hd := fun m => @lang_digit u m
  constructor
  · rintro (⟨x, y, rfl, hx, z, t, rfl, hz, ht⟩ | ⟨x, y, rfl, hx, hy⟩ | h)
    · rw [show z = ['.'] from hz]
      exact .dot x t ((lang_many1 hd).1 hx) ((lang_many hd).1 ht)
    · rw [show x = ['.'] from hx]
      exact .part y ((lang_many1 hd).1 hy)
    · exact .whole m ((lang_many1 hd).1 h)
  · intro h
    cases h with
    | dot a b ha hb => exact .inl ⟨a, '.' :: b, rfl, (lang_many1 hd).2 ha, ['.'], b, rfl, rfl, (lang_many hd).2 hb⟩
    | part b hb => exact .inr (.inl ⟨['.'], b, rfl, rfl, (lang_many1 hd).2 hb⟩)
    | whole => exact .inr (.inr ((lang_many1 hd).2 ‹_›))

theorem lang_exp {m : Str} : Lang u reExp m ↔ Exponent m := by
  have hd := fun m => @lang_digit u m
  constructor
  · rintro (⟨x, y, rfl, hx, z, t, rfl, hz, ht⟩ | h)
    · obtain ⟨c, rfl, hc⟩ := lang_oneOf.1 hx
      refine .some c z t (mem_pair.1 hc) ?_ ((lang_many1 hd).1 ht)
      rcases hz with hz | hz
      · obtain ⟨d, rfl, hd⟩ := lang_oneOf.1 hz
        rcases mem_pair.1 hd with rfl | rfl
        · exact .inr (.inl rfl)
        · exact .inr (.inr rfl)
      · exact .inl hz
    · rw [show m = [] from h]
      exact .none
  · intro h
    cases h with
    | none => exact .inr rfl
    | some e g d he hg hd' =>
      refine .inl ⟨[e], g ++ d, rfl, lang_oneOf.2 ⟨e, rfl, mem_pair.2 he⟩, g, d, rfl, ?_, (lang_many1 hd).2 hd'⟩
      rcases hg with rfl | rfl | rfl
      · exact .inr rfl
      · exact .inl (lang_oneOf.2 ⟨'+', rfl, mem_pair.2 (.inl rfl)⟩)
      · exact .inl (lang_oneOf.2 ⟨'-', rfl, mem_pair.2 (.inr rfl)⟩)

theorem lang_mark {m : Str} : Lang u (maybe (oneOf "fFdDlL".toList)) m ↔ FloatMark m := by
  constructor
  · rintro (h | h)
    · obtain ⟨c, e, hc⟩ := lang_oneOf.1 h
      exact .inr ⟨c, hc, e⟩
    · exact .inl h
  · rintro (h | ⟨c, hc, e⟩)
    · exact .inr h
    · exact .inl (lang_oneOf.2 ⟨c, e, hc⟩)

theorem lang_based {cs : Str} {a b : Char} (hcs : cs = [a, b]) {r : Re} {p : Char → Prop} (hr : ∀ m, Lang u r m ↔ ∃ c, m = [c] ∧ p c) {m : Str} :
    Lang u (.seq (.chr '0') (.seq (oneOf cs) (many1 r))) m ↔ ∃ x d, (x = a ∨ x = b) ∧ Some1 p d ∧ m = '0' :: x :: d := by
  subst hcs
  constructor
  · rintro ⟨x, y, rfl, hx, z, t, rfl, hz, ht⟩
    obtain ⟨c, rfl, hc⟩ := lang_oneOf.1 hz
    rw [show x = ['0'] from hx]
    exact ⟨c, t, mem_pair.1 hc, (lang_many1 hr).1 ht, rfl⟩
  · rintro ⟨x, d, hx, hd, rfl⟩
    exact ⟨['0'], x :: d, rfl, rfl, [x], d, rfl, lang_oneOf.2 ⟨x, rfl, mem_pair.2 hx⟩, (lang_many1 hr).2 hd⟩

theorem lang_bit {m : Str} : Lang u (oneOf "01".toList) m ↔ ∃ c, m = [c] ∧ (c = '0' ∨ c = '1') := by
  refine lang_oneOf.trans ?_
  constructor
  · rintro ⟨c, e, hc⟩
    exact ⟨c, e, mem_pair.1 hc⟩
  · rintro ⟨c, e, hc⟩
    exact ⟨c, e, mem_pair.2 hc⟩

theorem lang_intBody {m : Str} : Lang u reIntBody m ↔ IntDigits m := by
  have hx := fun m => @lang_hex u m
  have hb := fun m => @lang_bit u m
  have ho := fun m => @lang_range u '0' '7' m
  have hd := fun m => @lang_digit u m
  constructor
  · rintro (h | h | h | ⟨x, y, rfl, h1, h2⟩ | h)
    · obtain ⟨x, d, h1, h2, rfl⟩ := (lang_based (cs := "xX".toList) rfl hx).1 h
      exact .hex x d h1 h2
    · obtain ⟨x, d, h1, h2, rfl⟩ := (lang_based (cs := "bB".toList) rfl hb).1 h
      exact .bin x d h1 h2
    · obtain ⟨x, d, h1, h2, rfl⟩ := (lang_based (cs := "oO".toList) rfl ho).1 h
      exact .oct x d h1 h2
    · obtain ⟨c, rfl, hc⟩ := lang_range.1 h1
      exact .dec c y hc ((lang_many hd).1 h2)
    · rw [show m = ['0'] from h]
      exact .zero
  · intro h
    cases h with
    | hex x d h1 h2 => exact .inl ((lang_based (cs := "xX".toList) rfl hx).2 ⟨x, d, h1, h2, rfl⟩)
    | bin x d h1 h2 => exact .inr (.inl ((lang_based (cs := "bB".toList) rfl hb).2 ⟨x, d, h1, h2, rfl⟩))
    | oct x d h1 h2 => exact .inr (.inr (.inl ((lang_based (cs := "oO".toList) rfl ho).2 ⟨x, d, h1, h2, rfl⟩)))
    | dec c d h1 h2 => exact .inr (.inr (.inr (.inl ⟨[c], d, rfl, lang_range.2 ⟨c, rfl, h1⟩, (lang_many hd).2 h2⟩)))
    | zero => exact .inr (.inr (.inr (.inr rfl)))

theorem starts_float {s : Str} (hs : s.getLast? ≠ some '\n') : matchesStart u reFloat s = true ↔ Decimal s := by
  rw [show reFloat = full [maybe (.chr '-'), reBody, reExp, maybe (oneOf "fFdDlL".toList)] from rfl, full_start (by decide) hs]
  constructor
  · rintro ⟨g, y, rfl, hg, m, y, rfl, hm, e, y, rfl, he, f, y, rfl, hf, rfl⟩
    exact ⟨g, m, e, f, lang_minus.1 hg, lang_body.1 hm, lang_exp.1 he, lang_mark.1 hf, by rw [List.append_nil]⟩
  · rintro ⟨g, m, e, f, hg, hm, he, hf, rfl⟩
    exact ⟨g, _, rfl, lang_minus.2 hg, m, _, rfl, lang_body.2 hm, e, _, rfl, lang_exp.2 he, f, [], (List.append_nil f).symm, lang_mark.2 hf, rfl⟩

theorem starts_int {s : Str} (hs : s.getLast? ≠ some '\n') : matchesStart u reInt s = true ↔ Integer s := by
  have hm : ∀ m, Lang u (many (oneOf "uUlL".toList)) m ↔ ∀ c ∈ m, c ∈ "uUlL".toList := fun m => lang_many (fun m => lang_oneOf)
  rw [show reInt = full [maybe (.chr '-'), reIntBody, many (oneOf "uUlL".toList)] from rfl, full_start (by decide) hs]
  constructor
  · rintro ⟨g, y, rfl, hg, m, y, rfl, h, f, y, rfl, hf, rfl⟩
    exact ⟨g, m, f, lang_minus.1 hg, lang_intBody.1 h, (hm f).1 hf, by rw [List.append_nil]⟩
  · rintro ⟨g, m, f, hg, h, hf, rfl⟩
    exact ⟨g, _, rfl, lang_minus.2 hg, m, _, rfl, lang_intBody.2 h, f, [], (List.append_nil f).symm, (hm f).2 hf, rfl⟩

theorem starts_string {s : Str} (hs : s.getLast? ≠ some '\n') : matchesStart u reString s = true ↔ Quoted s := by
  have hm : ∀ m, Lang u (many .any) m ↔ ∀ c ∈ m, c ≠ '\n' := fun m => lang_many (fun m => lang_any)
  rw [show reString = full [.chr '"', many .any, .chr '"'] from rfl, full_start (by decide) hs]
  constructor
  · rintro ⟨g, y, rfl, hg, m, y, rfl, h, f, y, rfl, hf, rfl⟩
    rw [show g = ['"'] from hg, show f = ['"'] from hf]
    exact ⟨m, fun hc => (hm m).1 h _ hc rfl, rfl⟩
  · rintro ⟨m, h, rfl⟩
    exact ⟨['"'], _, rfl, rfl, m, _, rfl, (hm m).2 (fun c hc e => h (e ▸ hc)), ['"'], [], rfl, rfl, rfl⟩

theorem starts_char {s : Str} (hs : s.getLast? ≠ some '\n') : matchesStart u reChar s = true ↔ Char12 s := by
  rw [show reChar = full [.chr '\'', .any, maybe .any, .chr '\''] from rfl, full_start (by decide) hs]
  constructor
  · rintro ⟨g, y, rfl, hg, a, y, rfl, ha, b, y, rfl, hb, f, y, rfl, hf, rfl⟩
    obtain ⟨c, rfl, hc⟩ := ha
    rw [show g = ['\''] from hg, show f = ['\''] from hf]
    rcases hb with ⟨d, rfl, hd⟩ | hb
    · exact ⟨[c, d], by simp [hc.symm, hd.symm], .inr rfl, rfl⟩
    · rw [show b = [] from hb]
      exact ⟨[c], by simp [hc.symm], .inl rfl, rfl⟩
  · rintro ⟨m, h, hl, rfl⟩
    match m, hl, h with
    | [c], _, h => exact ⟨['\''], _, rfl, rfl, [c], _, rfl, ⟨c, rfl, fun e => h (by simp [e])⟩, [], _, rfl, .inr rfl, ['\''], [], rfl, rfl, rfl⟩
    | [c, d], _, h =>
      exact ⟨['\''], _, rfl, rfl, [c], _, rfl, ⟨c, rfl, fun e => h (by simp [e])⟩, [d], _, rfl, .inl ⟨d, rfl, fun e => h (by simp [e])⟩,
        ['\''], [], rfl, rfl, rfl⟩
    | [], hl, _ => simp at hl
    | _ :: _ :: _ :: _, hl, _ => simp at hl

theorem extract_iff {s t : Str} : extractType s = some t ↔ Constructs s t := by
  have cut : ∀ (c : Char) (s : Str), c ∈ s → ∃ a, c ∉ s.takeWhile (fun x => x != c) ∧ s = s.takeWhile (fun x => x != c) ++ c :: a := by
    intro c s hc
    induction s with
    | nil => cases hc
    | cons d s ih =>
      by_cases e : d = c
      · subst e
        exact ⟨s, by simp, by simp⟩
      · have hc' : c ∈ s := (List.mem_cons.1 hc).resolve_left (fun h => e h.symm)
        obtain ⟨a, h1, h2⟩ := ih hc'
        have et : (d :: s).takeWhile (fun x => x != c) = d :: s.takeWhile (fun x => x != c) := List.takeWhile_cons_of_pos (by simpa using e)
        rw [et]
        exact ⟨a, fun h => (List.mem_cons.1 h).elim (fun h => e h.symm) h1, by rw [List.cons_append, ← h2]⟩
  have cut' : ∀ (c : Char) (t a : Str), c ∉ t → (t ++ c :: a).takeWhile (fun x => x != c) = t := by
    intro c t a ht
    induction t with
    | nil => simp
    | cons d t ih =>
      rw [List.cons_append, List.takeWhile_cons_of_pos (by simpa using fun e => ht (by simp [e])), ih (fun h => ht (List.mem_cons_of_mem _ h))]
  unfold extractType
  constructor
  · intro h
    by_cases hb : '{' ∈ s
    · simp only [hb, if_true] at h
      obtain ⟨a, h1, h2⟩ := cut '{' s hb
      rw [Option.some.inj h] at h1 h2
      rw [h2]
      exact .brace t a h1
    · simp only [hb, if_false] at h
      by_cases hp : '(' ∈ s
      · simp only [hp, if_true] at h
        obtain ⟨a, h1, h2⟩ := cut '(' s hp
        rw [Option.some.inj h] at h1 h2
        rw [h2] at hb ⊢
        exact .paren t a h1 (fun h => hb (by simp [h])) (fun h => hb (by simp [h]))
      · simp [hp] at h
  · intro h
    cases h with
    | paren t a h1 h2 h3 =>
      have e1 : '{' ∉ t ++ '(' :: a := by simp [h2, h3]
      have e2 : '(' ∈ t ++ '(' :: a := by simp
      simp only [e1, e2, if_true, if_false, cut' _ _ _ h1]
    | brace t a h1 =>
      have e2 : '{' ∈ t ++ '{' :: a := by simp
      simp only [e2, if_true, cut' _ _ _ h1]

end Verif.Mut
