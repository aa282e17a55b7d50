import Verif.Ignore.Model
import Verif.Py.StrLemmas

/-! C118: the request for `# type: ignore` and the comment of the function. -/

namespace Verif.Ignore.Props
open Verif.Py Verif.Ignore

/-- The words of the request. -/
def request : Str := "type: ignore".toList

theorem token_eq : token = request := rfl

theorem has_iff (s : Str) : contains s token = true ↔ request <:+: s := by
  rw [token_eq, contains_iff]
  exact ⟨fun ⟨a, b, h⟩ => ⟨a, b, h.symm⟩, fun ⟨a, b, h⟩ => ⟨a, b, h.symm⟩⟩

theorem has_false (s : Str) : contains s token = false ↔ ¬ request <:+: s := by
  rw [← has_iff, Bool.not_eq_true]

/-- C118: the stub of the function is marked exactly when the comment holds the words, anywhere. -/
theorem C118_flag (ty : Option (List Str)) (eol : Str) : (adapt ty eol).1 = true ↔ request <:+: eol := by
  rw [← has_iff]
  simp only [adapt, fillIsTypeIgnore]
  split
  · rename_i h; simp [h]
  · rename_i h; simp [h]

/-- C118: without the words, the comment is kept; a note follows it when the returned type is `auto` alone. -/
theorem C118_kept (ty : Option (List Str)) (eol : Str) (h : ¬ request <:+: eol) :
    (adapt ty eol).2 =
      if ty = some ["auto".toList] then eol ++ "\n(C++ auto return type)".toList else eol := by
  have h' : contains eol token = false := (has_false eol).2 h
  simp only [adapt, fillIsTypeIgnore, h', isInferred]
  by_cases k : ty = some ["auto".toList]
  · rw [if_pos k, k]; rfl
  · rw [if_neg k]
    have : (ty == some [['a', 'u', 't', 'o']]) = false := by
      rw [beq_eq_false_iff_ne]; exact k
    rw [this]; rfl

example : ¬ request <:+: "Returns the value".toList ∧
    (adapt (some ["auto".toList]) "Returns the value".toList).2 =
      "Returns the value\n(C++ auto return type)".toList :=
  ⟨(has_false _).1 (by decide +kernel), by decide +kernel⟩

/-- The words begin with the only `t` in them: two occurrences do not overlap. -/
theorem no_overlap {a c : Str} {x : Char} (hx : request <+: (x :: a) ++ request ++ c) :
    request <+: x :: a := by
  obtain ⟨t, ht⟩ := hx
  rw [List.append_assoc] at ht
  rcases List.append_eq_append_iff.1 ht with ⟨d, h1, _⟩ | ⟨d, h1, h2⟩
  · exact ⟨d, h1.symm⟩
  · cases d with
    | nil => exact ⟨[], by simpa using h1⟩
    | cons y d =>
      exfalso
      have hy : y = 't' := by
        have := congrArg List.head? h2
        simp only [List.cons_append, List.head?_cons] at this
        have k : (request ++ c).head? = some 't' := rfl
        rw [k] at this
        exact (Option.some.inj this).symm
      have h3 : request.tail = a ++ y :: d := by rw [h1]; rfl
      have h4 : 't' ∈ request.tail := by rw [h3, hy]; simp
      revert h4; decide

/-- Taking out the first occurrence. -/
theorem replace_first (a b : Str) (ha : ¬ request <:+: a) :
    replace (a ++ request ++ b) token [] = a ++ replace b token [] := by
  induction a with
  | nil => rw [token_eq]; exact replace_match (by decide)
  | cons x a ih =>
    have hno : ¬ request <+: x :: (a ++ request ++ b) := fun h => ha (no_overlap h).isInfix
    have e : replace (x :: (a ++ request ++ b)) token [] = x :: replace (a ++ request ++ b) token [] :=
      replace_no_match hno
    exact e.trans (congrArg (x :: ·) (ih (fun h => ha (h.trans (List.suffix_cons x a).isInfix))))

theorem lstrip_split (s : Str) : ∃ w, s = w ++ lstrip s ∧ (∀ c ∈ w, isSpace c = true) ∧
    ∀ c r, lstrip s = c :: r → isSpace c = false := by
  induction s with
  | nil => exact ⟨[], rfl, by simp, by simp [lstrip]⟩
  | cons x s ih =>
    by_cases hx : isSpace x = true
    · obtain ⟨w, h1, h2, h3⟩ := ih
      have e : lstrip (x :: s) = lstrip s := by simp [lstrip, List.dropWhile, hx]
      rw [e]
      refine ⟨x :: w, by rw [List.cons_append, ← h1], ?_, h3⟩
      intro c hc
      rcases List.mem_cons.1 hc with h | h
      · subst h; exact hx
      · exact h2 c h
    · have e : lstrip (x :: s) = x :: s := by simp [lstrip, List.dropWhile, hx]
      rw [e]
      refine ⟨[], rfl, by simp, ?_⟩
      intro c r h
      simp only [List.cons.injEq] at h
      rw [← h.1]; simpa using hx

theorem lstrip_idem (s : Str) : lstrip (lstrip s) = lstrip s := by
  obtain ⟨_, _, _, h⟩ := lstrip_split s
  cases e : lstrip s with
  | nil => rfl
  | cons c r => simp [lstrip, List.dropWhile, h c r e]

/-- C118: when the words are there once, the comment that is left is the text around them, without the white
space at its beginning, and without one `//` there. -/
theorem C118_cleaned (a b : Str) (ha : ¬ request <:+: a) (hb : ¬ request <:+: b) :
    ∃ w r, (∀ c ∈ w, isSpace c = true) ∧ (adapt none (a ++ request ++ b)).2 = r ∧
      ((a ++ b = w ++ r ∧ (∀ c t, r = c :: t → isSpace c = false) ∧ ¬ "//".toList <+: r) ∨
        a ++ b = w ++ "//".toList ++ r) := by
  have hin : contains (a ++ request ++ b) token = true := (has_iff _).2 ⟨a, b, rfl⟩
  have e : replace (a ++ request ++ b) token [] = a ++ b := by
    rw [replace_first a b ha, replace_of_not_contains ((has_false b).2 hb)]
  obtain ⟨w, h1, h2, h3⟩ := lstrip_split (a ++ b)
  refine ⟨w, _, h2, rfl, ?_⟩
  simp only [adapt, isInferred, fillIsTypeIgnore, hin, if_true, e, lstrip_idem]
  have hn : ((none : Option (List Str)) == some [['a', 'u', 't', 'o']]) = false := rfl
  rw [hn]
  simp only [Bool.false_eq_true, if_false]
  by_cases hs : startsWith (lstrip (a ++ b)) ['/', '/'] = true
  · right
    rw [if_pos hs]
    obtain ⟨t, ht⟩ := List.isPrefixOf_iff_prefix.1 hs
    have k : "//".toList = ['/', '/'] := rfl
    rw [k]
    conv => lhs; rw [h1]
    rw [← ht]
    simp
  · left
    rw [if_neg hs]
    exact ⟨h1, h3, fun h => hs (List.isPrefixOf_iff_prefix.2 h)⟩

example : ¬ request <:+: " ".toList ∧ ¬ request <:+: " // Computes".toList ∧
    (adapt none (" ".toList ++ request ++ " // Computes".toList)).2 = " Computes".toList :=
  ⟨(has_false _).1 (by decide +kernel), (has_false _).1 (by decide +kernel), by decide +kernel⟩

/-- C118, full statement: the words are not in the comment that is left. -/
def C118_removed_statement : Prop :=
  ∀ (ty : Option (List Str)) (eol : Str), ¬ request <:+: (adapt ty eol).2

/-- False of the code: taking the words out may bring them together. -/
theorem C118_removed_fails : ¬ C118_removed_statement := by
  intro h
  exact h none "type: type: ignoreignore".toList ((has_iff _).1 (by decide +kernel))

/-- C118 (partial): the full statement when the text around the words does not make them up again. Missing:
words inside of the words, see `C118_removed_fails`. -/
theorem C118_removed_partial (a b : Str) (ha : ¬ request <:+: a) (hb : ¬ request <:+: b)
    (hab : ¬ request <:+: a ++ b) : ¬ request <:+: (adapt none (a ++ request ++ b)).2 := by
  obtain ⟨w, r, _, h2, h3⟩ := C118_cleaned a b ha hb
  rw [h2]
  intro hr
  apply hab
  rcases h3 with ⟨h3, _⟩ | h3
  · rw [h3]; exact hr.trans (List.suffix_append w r).isInfix
  · rw [h3]; exact hr.trans (List.suffix_append _ r).isInfix

/-! ### Adapting a function again -/

/-- C118, full statement: adapting the same function again gives the same stub: the same mark and the same
comment. -/
def C118_again_statement : Prop :=
  ∀ (ty : Option (List Str)) (eol : Str), adapt ty (adapt ty eol).2 = adapt ty eol

/-- False of the code: the mark is read once. -/
theorem C118_again_fails : ¬ C118_again_statement := by
  intro h
  have := congrArg Prod.fst (h none "type: ignore".toList)
  revert this
  decide +kernel

/-- C118 (partial): the full statement for comments without the words and returned types that are written.
Missing: the words (`C118_again_fails`) and `auto` (`C118_auto_again`). -/
theorem C118_again_partial (ty : Option (List Str)) (eol : Str) (h : ¬ request <:+: eol)
    (hty : ty ≠ some ["auto".toList]) : adapt ty (adapt ty eol).2 = adapt ty eol := by
  have e : (adapt ty eol).2 = eol := by rw [C118_kept ty eol h, if_neg hty]
  rw [e]

theorem request_not_note {s : Str} (h : ¬ request <:+: s) :
    ¬ request <:+: s ++ "\n(C++ auto return type)".toList := by
  rintro ⟨u, v, huv⟩
  have hnl : '\n' ∉ request := by decide
  have hn : "\n(C++ auto return type)".toList = '\n' :: "(C++ auto return type)".toList := rfl
  rw [hn] at huv
  rcases List.append_eq_append_iff.1 huv with ⟨d, h1, _⟩ | ⟨d, h1, h2⟩
  · exact h ⟨u, d, h1.symm⟩
  · cases d with
    | nil => exact h ⟨u, [], by simpa using h1⟩
    | cons c d =>
      simp only [List.cons_append, List.cons.injEq] at h2
      obtain ⟨h2, h3⟩ := h2
      subst h2
      rcases List.append_eq_append_iff.1 h1 with ⟨e, h4, h5⟩ | ⟨e, h4, h5⟩
      · exact hnl (by rw [h5]; simp)
      · cases e with
        | nil => exact hnl (by rw [← (List.nil_append request), ← h5]; simp)
        | cons y e =>
          simp only [List.cons_append, List.cons.injEq] at h5
          have k : request <:+: "(C++ auto return type)".toList := ⟨e, v, by rw [h3, h5.2]⟩
          exact (has_false _).1 (by decide +kernel) k

/-- C118: the note about `auto` is added at each adaptation: after two, the comment has it twice. -/
theorem C118_auto_again (eol : Str) (h : ¬ request <:+: eol) :
    (adapt (some ["auto".toList]) (adapt (some ["auto".toList]) eol).2).2 =
      eol ++ "\n(C++ auto return type)".toList ++ "\n(C++ auto return type)".toList := by
  rw [C118_kept _ eol h, if_pos rfl, C118_kept _ _ (request_not_note h), if_pos rfl]

example : ¬ request <:+: "Doc".toList := (has_false _).1 (by decide +kernel)

end Verif.Ignore.Props
