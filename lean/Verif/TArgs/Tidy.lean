import Verif.TArgs.Model
import Verif.Py.Split

/-! White space. -/

namespace Verif.TArgs
open Verif.Py

theorem squeeze_ink {c : Char} (r : Str) (h : isSpace c = false) : squeeze (c :: r) = c :: squeeze r := by
  cases r with
  | nil => simp [squeeze, h]
  | cons d r => rw [squeeze, if_neg (by rw [h]; decide)]

theorem squeeze_blank {c : Char} (h : isSpace c = true) : squeeze [c] = [' '] := by rw [squeeze, if_pos h]

theorem squeeze_blanks {c d : Char} (r : Str) (h : isSpace c = true) (h' : isSpace d = true) : squeeze (c :: d :: r) = squeeze (d :: r) := by
  rw [squeeze, if_pos h, if_pos h']

theorem squeeze_blank_ink {c d : Char} (r : Str) (h : isSpace c = true) (h' : isSpace d = false) : squeeze (c :: d :: r) = ' ' :: squeeze (d :: r) := by
  rw [squeeze, if_pos h, if_neg (by rw [h']; decide)]

theorem rstrip_squeeze : ∀ (n : Nat) (s cur : Str), s.length ≤ n → cur ≠ [] → (∀ c ∈ cur, isSpace c = false) →
    rstrip (cur ++ squeeze s) = join [' '] (fieldsFrom cur s)
  | _, [], cur, _, hc, hs => by
    rw [fieldsFrom, if_neg hc]
    show rstrip (cur ++ []) = cur
    rw [List.append_nil, rstrip_full hs]
  | 0, _ :: _, _, h, _, _ => by simp at h
  | n + 1, c :: r, cur, hn, hc, hs => by
    have hn' : r.length ≤ n := by simpa using hn
    cases hsp : isSpace c with
    | false =>
      rw [squeeze_ink r hsp, fieldsFrom, if_neg (by rw [hsp]; decide), ← rstrip_squeeze n r _ hn' (by simp)]
      · rw [List.append_assoc]; rfl
      · intro d hd
        rcases List.mem_append.1 hd with hd | hd
        · exact hs d hd
        · rw [List.mem_singleton.1 hd]; exact hsp
    | true =>
      rw [fieldsFrom, if_pos hsp, if_neg hc]
      cases r with
      | nil =>
        rw [squeeze_blank hsp, rstrip_blank (by decide), rstrip_full hs]
        rfl
      | cons d r =>
        cases hd : isSpace d with
        | true =>
          rw [squeeze_blanks r hsp hd, rstrip_squeeze n (d :: r) cur hn' hc hs, fieldsFrom, if_pos hd, if_neg hc, fieldsFrom, if_pos hd, if_pos rfl]
        | false =>
          have hr : r.length ≤ n := Nat.le_of_succ_le (by simpa using hn')
          rw [squeeze_blank_ink r hsp hd, squeeze_ink r hd, fieldsFrom, if_neg (by rw [hd]; decide), List.nil_append]
          have ih := rstrip_squeeze n r [d] hr (by simp) (fun x hx => by rw [List.mem_singleton.1 hx]; exact hd)
          rw [show cur ++ ' ' :: d :: squeeze r = (cur ++ [' ']) ++ ([d] ++ squeeze r) by simp, rstrip_right ⟨d, by simp, hd⟩, ih]
          obtain ⟨f, fs, e⟩ := List.exists_cons_of_ne_nil (fieldsFrom_ne r (cur := [d]) (by simp))
          rw [e]
          rfl

/-- White space becomes one blank, and none at the ends: the fields, with one blank between them. -/
theorem strip_squeeze : ∀ (s : Str), strip (squeeze s) = join [' '] (fields s)
  | [] => rfl
  | c :: r => by
    cases hsp : isSpace c with
    | false =>
      unfold strip fields
      rw [squeeze_ink r hsp, fieldsFrom, if_neg (by rw [hsp]; decide), List.nil_append,
        ← rstrip_squeeze r.length r [c] (Nat.le_refl _) (by simp) (fun x hx => by rw [List.mem_singleton.1 hx]; exact hsp)]
      unfold lstrip
      rw [List.dropWhile_cons_of_neg (by rw [hsp]; decide)]
      rfl
    | true =>
      have ih := strip_squeeze r
      have e1 : fields (c :: r) = fields r := by unfold fields; rw [fieldsFrom, if_pos hsp, if_pos rfl]
      rw [e1, ← ih]
      cases r with
      | nil => rw [squeeze_blank hsp]; rfl
      | cons d r =>
        cases hd : isSpace d with
        | true => rw [squeeze_blanks r hsp hd]
        | false => rw [squeeze_blank_ink r hsp hd]; rfl

end Verif.TArgs
