import Verif.Py.Str

/-! `s.split()`, without a separator. -/

namespace Verif.Py

/-- `s.split()`; `cur` is the field that is read. -/
def fieldsFrom (cur : Str) : Str → List Str
  | [] => if cur = [] then [] else [cur]
  | c :: s =>
    if isSpace c then (if cur = [] then fieldsFrom [] s else cur :: fieldsFrom [] s)
    else fieldsFrom (cur ++ [c]) s

/-- `s.split()` -/
def fields (s : Str) : List Str := fieldsFrom [] s

theorem fieldsFrom_ne : ∀ (s : Str) {cur : Str}, cur ≠ [] → fieldsFrom cur s ≠ []
  | [], cur, h => by rw [fieldsFrom, if_neg h]; simp
  | c :: s, cur, h => by
    rw [fieldsFrom, if_neg h]
    split
    · simp
    · exact fieldsFrom_ne s (by simp)

theorem dropWhile_nil {p : Char → Bool} : ∀ {s : Str}, s.dropWhile p = [] ↔ ∀ c ∈ s, p c = true
  | [] => by simp
  | c :: s => by
    cases h : p c with
    | true =>
      rw [List.dropWhile_cons_of_pos h, dropWhile_nil]
      simp [h]
    | false =>
      rw [List.dropWhile_cons_of_neg (by rw [h]; decide)]
      simp [h]

theorem rstrip_right {a b : Str} (h : ∃ c ∈ b, isSpace c = false) : rstrip (a ++ b) = a ++ rstrip b := by
  obtain ⟨c, hc, hs⟩ := h
  unfold rstrip
  rw [List.reverse_append, List.dropWhile_append, if_neg, List.reverse_append, List.reverse_reverse]
  rw [List.isEmpty_iff, dropWhile_nil]
  intro e
  rw [e c (List.mem_reverse.2 hc)] at hs
  cases hs

theorem rstrip_blank {a b : Str} (h : ∀ c ∈ b, isSpace c = true) : rstrip (a ++ b) = rstrip a := by
  unfold rstrip
  rw [List.reverse_append, List.dropWhile_append, if_pos]
  rw [List.isEmpty_iff, dropWhile_nil]
  exact fun c hc => h c (List.mem_reverse.1 hc)

theorem rstrip_full {a : Str} (h : ∀ c ∈ a, isSpace c = false) : rstrip a = a := by
  unfold rstrip
  cases e : a.reverse with
  | nil => rw [List.reverse_eq_nil_iff.1 e]; rfl
  | cons c r =>
    rw [List.dropWhile_cons_of_neg, ← e, List.reverse_reverse]
    rw [h c (by rw [← List.mem_reverse, e]; simp)]
    decide

end Verif.Py
