import Verif.Py.StrLemmas
import Verif.Template.Model
import Verif.Template.Spec

namespace Verif.Template
open Verif.Py Spec

variable {K : Char → Bool}

theorem maybeComma_eq : "maybe_comma".toList = maybeComma := rfl

theorem hole_ne_nil (k : Str) : hole k ≠ [] := by simp [hole]

theorem replace_plain (h1 : K '{' = false) (k v t R : Str) (hk : Key K k) (ht : PlainText K t) :
    replace (t ++ R) (hole k) v = t ++ replace R (hole k) v := by
  induction t with
  | nil => rfl
  | cons c cs ih =>
    rw [List.cons_append, replace_no_match, ih ht.2]; rfl
    rintro ⟨s, hs⟩
    obtain ⟨k0, ks, rfl⟩ : ∃ a b, k = a :: b := by
      cases k with
      | nil => exact absurd rfl hk.1
      | cons a b => exact ⟨a, b, rfl⟩
    simp [hole] at hs
    obtain ⟨d, ds, e, hd⟩ := ht.1 hs.1.symm
    rw [e] at hs
    simp at hs
    have := hk.2 k0 (by simp)
    rw [hs.2.1, hd] at this
    cases this

theorem replace_no_open (k v t R : Str) (ht : '{' ∉ t) :
    replace (t ++ R) (hole k) v = t ++ replace R (hole k) v := by
  induction t with
  | nil => rfl
  | cons c cs ih =>
    rw [List.cons_append, replace_no_match, ih (fun h => ht (by simp [h]))]; rfl
    rintro ⟨s, hs⟩
    simp [hole] at hs
    exact ht (by rw [← hs.1]; simp)

/-- Two closed keys with the same beginning are equal. -/
theorem key_prefix {k h s R : Str} (hk : '}' ∉ k) (hh : '}' ∉ h)
    (e : k ++ '}' :: s = h ++ '}' :: R) : k = h := by
  induction k generalizing h with
  | nil =>
    cases h with
    | nil => rfl
    | cons a b =>
      simp at e
      exact absurd (by simp [← e.1]) hh
  | cons a b ih =>
    cases h with
    | nil => simp at e; exact absurd (by simp [e.1]) hk
    | cons c d =>
      simp at e
      rw [e.1, ih (fun h => hk (by simp [h])) (fun h => hh (by simp [h])) e.2]

theorem key_braces (h1 : K '{' = false) (h2 : K '}' = false) {k : Str} (hk : Key K k) :
    '{' ∉ k ∧ '}' ∉ k :=
  ⟨fun h => absurd (hk.2 _ h) (by simp [h1]), fun h => absurd (hk.2 _ h) (by simp [h2])⟩

theorem replace_other (h1 : K '{' = false) (h2 : K '}' = false) (k v h R : Str) (hk : Key K k)
    (hh : Key K h) (hne : h ≠ k) :
    replace (hole h ++ R) (hole k) v = hole h ++ replace R (hole k) v := by
  have bk := key_braces h1 h2 hk
  have bh := key_braces h1 h2 hh
  have e : hole h ++ R = '{' :: ((h ++ ['}']) ++ R) := by simp [hole]
  rw [e, replace_no_match, replace_no_open]
  · simp [hole]
  · simp [bh.1]
  · rintro ⟨s, hs⟩
    simp [hole] at hs
    exact hne (key_prefix bk.2 bh.2 hs).symm

/-- One substitution in the pieces. -/
def substPiece (k v : Str) : Piece → Piece
  | .text t => .text t
  | .hole h => if h = k then .text v else .hole h

theorem source_cons (p : Piece) (ps : List Piece) : source (p :: ps) = p.source ++ source ps := rfl

theorem replace_source (h1 : K '{' = false) (h2 : K '}' = false) (k v : Str) (hk : Key K k)
    (ps : List Piece) (hps : ∀ p ∈ ps, p.WF K) :
    replace (source ps) (hole k) v = source (ps.map (substPiece k v)) := by
  induction ps with
  | nil => rfl
  | cons p ps ih =>
    have ih := ih (fun q hq => hps q (by simp [hq]))
    have hp := hps p (by simp)
    rw [List.map_cons, source_cons, source_cons]
    cases p with
    | text t =>
      show replace (t ++ source ps) _ _ = t ++ _
      rw [replace_plain h1 k v t _ hk hp, ih]
    | hole h =>
      by_cases e : h = k
      · subst e
        show replace (hole h ++ source ps) _ _ = _
        rw [replace_match (hole_ne_nil h), ih]
        simp [substPiece, Piece.source]
      · show replace (hole h ++ source ps) _ _ = _
        rw [replace_other h1 h2 k v h _ hk hp e, ih]
        simp [substPiece, Piece.source, e, hole]

theorem subst_wf (k v : Str) (hv : PlainText K v) (ps : List Piece) (hps : ∀ p ∈ ps, p.WF K) :
    ∀ p ∈ ps.map (substPiece k v), p.WF K := by
  intro p hp
  obtain ⟨q, hq, rfl⟩ := List.mem_map.1 hp
  have := hps q hq
  cases q with
  | text t => exact this
  | hole h =>
    by_cases e : h = k
    · rw [show substPiece k v (.hole h) = .text v by simp [substPiece, e]]; exact hv
    · rw [show substPiece k v (.hole h) = .hole h by simp [substPiece, e]]; exact this

theorem replaceInString_source (h1 : K '{' = false) (h2 : K '}' = false) (items : List (Str × Str))
    (hi : ∀ kv ∈ items, Key K kv.1 ∧ PlainText K kv.2) (ps : List Piece) (hps : ∀ p ∈ ps, p.WF K) :
    replaceInString (source ps) items =
      source (ps.map (fun p => items.foldl (fun p kv => substPiece kv.1 kv.2 p) p)) := by
  induction items generalizing ps with
  | nil => simp [replaceInString]
  | cons kv items ih =>
    have h := hi kv (by simp)
    show replaceInString (replace (source ps) (hole kv.1) kv.2) items = _
    rw [replace_source h1 h2 _ _ h.1 ps hps,
      ih (fun x hx => hi x (by simp [hx])) _ (subst_wf _ _ h.2 ps hps)]
    simp [List.map_map, Function.comp_def]

theorem fold_text (items : List (Str × Str)) (t : Str) :
    items.foldl (fun p kv => substPiece kv.1 kv.2 p) (.text t) = .text t := by
  induction items with
  | nil => rfl
  | cons kv items ih => simpa [substPiece] using ih

theorem fold_hole (items : List (Str × Str)) (k : Str) :
    (items.foldl (fun p kv => substPiece kv.1 kv.2 p) (.hole k)).source =
      (lookup items k).getD ('{' :: k ++ ['}']) := by
  induction items with
  | nil => rfl
  | cons kv items ih =>
    rw [List.foldl_cons]
    by_cases h : k = kv.1
    · rw [show substPiece kv.1 kv.2 (.hole k) = .text kv.2 by simp [substPiece, h], fold_text]
      simp [lookup, h, Piece.source]
    · rw [show substPiece kv.1 kv.2 (.hole k) = .hole k by simp [substPiece, h], ih]
      have : (kv.1 == k) = false := by simpa using fun e => h e.symm
      simp [lookup, List.find?_cons, this]

theorem lookup_none {items : List (Str × Str)} {k : Str} (h : lookup items k = none) :
    k ∉ items.map Prod.fst := by
  intro hm
  obtain ⟨kv, hkv, rfl⟩ := List.mem_map.1 hm
  simp [lookup] at h
  exact h kv.1 kv.2 hkv rfl

/-- `lookup` does not depend on the order of distinct keys. -/
theorem lookup_perm {a b : List (Str × Str)} (h : a.Perm b) (hn : (a.map Prod.fst).Nodup) (k : Str) :
    lookup a k = lookup b k := by
  induction h with
  | nil => rfl
  | cons x _ ih =>
    simp only [List.map_cons, List.nodup_cons] at hn
    by_cases e : x.1 = k
    · simp [lookup, e]
    · have : (x.1 == k) = false := by simpa using e
      have ih := ih hn.2
      simp only [lookup] at ih ⊢
      simp only [List.find?_cons, this]
      exact ih
  | swap x y l =>
    simp only [List.map_cons, List.nodup_cons, List.mem_cons, not_or] at hn
    by_cases e : x.1 = k
    · have e2 : (y.1 == k) = false := by
        rw [← e]
        simpa using hn.1.1
      simp [lookup, e, e2]
    · have e1 : (x.1 == k) = false := by simpa using e
      simp [lookup, List.find?_cons, e1]
  | trans h1 _ ih1 ih2 =>
    rw [ih1 hn, ih2 ((h1.map Prod.fst).nodup_iff.1 hn)]

theorem unlines_filter (s : Str) (p q : Str → Bool) (hempty : q [] = true) :
    unlines ((lines (unlines ((lines s).filter p))).filter q) =
      unlines ((lines s).filter (fun l => p l && q l)) := by
  have e : (lines s).filter (fun l => p l && q l) = ((lines s).filter p).filter q := by
    rw [List.filter_filter]
    congr 1
    funext l
    exact Bool.and_comm _ _
  rw [e]
  by_cases h : (lines s).filter p = []
  · rw [h]
    have : lines (unlines []) = [[]] := rfl
    rw [this]
    simp [hempty]
    rfl
  · rw [lines_unlines h (fun l hl => not_mem_of_mem_lines (List.mem_filter.1 hl).1)]

end Verif.Template
