import Verif.Template.Lemmas

/-! Filling a template whose values may contain any text, as long as no placeholder can begin in them. -/

namespace Verif.Template.Spec
open Verif.Py

/-- No occurrence of `{k}` begins in `v`, whatever follows `v`. -/
def Inert (k v : Str) : Prop := ∀ a b, v = a ++ '{' :: b → ¬ (k ++ ['}']) <+: b ∧ ¬ b <+: (k ++ ['}'])

/-- One step of the filling of a template, given by its lines: a hole gets its value, or the lines with this hole are removed. -/
def step (ls : List (List Piece)) (kv : Str × Option Str) : List (List Piece) :=
  match kv.2 with
  | some v => ls.map (fun l => l.map (fun p => match p with
      | .text t => .text t
      | .hole h => if h = kv.1 then .text v else .hole h))
  | none => ls.filter (fun l => !l.any (fun p => match p with
      | .text _ => false
      | .hole h => h = kv.1))

/-- The text of a template given by its lines. -/
def textOf (ls : List (List Piece)) : Str := unlines (ls.map source)

end Verif.Template.Spec

namespace Verif.Template
open Verif.Py Spec

/-- Decides `Inert`. -/
def inertB (k : Str) : Str → Bool
  | [] => true
  | c :: cs => (c != '{' || (!(k ++ ['}']).isPrefixOf cs && !cs.isPrefixOf (k ++ ['}']))) && inertB k cs

theorem inert_iff (k v : Str) : inertB k v = true ↔ Inert k v := by
  induction v with
  | nil => simp [inertB, Inert]
  | cons c cs ih =>
    rw [inertB, Bool.and_eq_true, ih]
    constructor
    · rintro ⟨h1, h2⟩ a b e
      cases a with
      | nil =>
        simp at e
        obtain ⟨rfl, rfl⟩ := e
        simp [Bool.eq_false_iff] at h1
        exact h1
      | cons x xs =>
        simp at e
        exact h2 xs b e.2
    · intro h
      refine ⟨?_, fun a b e => h (c :: a) b (by simp [e])⟩
      by_cases hc : c = '{'
      · subst hc
        have := h [] cs rfl
        simp [Bool.eq_false_iff]
        exact this
      · simp [hc]

instance (k v : Str) : Decidable (Inert k v) := decidable_of_iff _ (inert_iff k v)

theorem inert_of_no_open {k v : Str} (h : '{' ∉ v) : Inert k v := by
  intro a b e
  exact absurd (by rw [e]; simp) h

theorem inert_append {k a b : Str} (ha : Inert k a) (hb : Inert k b) : Inert k (a ++ b) := by
  intro x y e
  rcases List.append_eq_append_iff.1 e with ⟨s, h1, h2⟩ | ⟨s, h1, h2⟩
  · exact hb s y h2
  · cases s with
    | nil => simp at h2; exact hb [] y (by simp [h2])
    | cons c cs =>
      simp at h2
      obtain ⟨rfl, rfl⟩ := h2
      have := ha x cs h1
      constructor
      · rintro h
        rcases List.prefix_append_right_inj (l := []) |>.1 (by simpa using h) with ⟨t, ht⟩
        rcases List.append_eq_append_iff.1 ht with ⟨u, h3, h4⟩ | ⟨u, h3, h4⟩
        · exact this.1 ⟨u, h3.symm⟩
        · exact this.2 ⟨u, h3.symm⟩
      · rintro h
        exact this.2 ((List.prefix_append cs b).trans h)

theorem replace_inert {k t : Str} (v R : Str) (h : Inert k t) :
    replace (t ++ R) (hole k) v = t ++ replace R (hole k) v := by
  induction t with
  | nil => rfl
  | cons c cs ih =>
    have ih := ih (fun a b e => h (c :: a) b (by simp [e]))
    rw [List.cons_append, replace_no_match, ih]; rfl
    rintro ⟨s, hs⟩
    simp [hole] at hs
    obtain ⟨rfl, hs⟩ := hs
    have := h [] cs rfl
    have e : (k ++ ['}']) ++ s = cs ++ R := by simpa using hs
    rcases List.append_eq_append_iff.1 e with ⟨u, h3, h4⟩ | ⟨u, h3, h4⟩
    · exact this.1 ⟨u, h3.symm⟩
    · exact this.2 ⟨u, h3.symm⟩

theorem contains_inert {k t : Str} (R : Str) (h : Inert k t) : contains (t ++ R) (hole k) = contains R (hole k) := by
  induction t with
  | nil => rfl
  | cons c cs ih =>
    have ih := ih (fun a b e => h (c :: a) b (by simp [e]))
    rw [List.cons_append, contains, ih]
    simp only [Bool.or_eq_right_iff_imp]
    intro hp
    rw [List.isPrefixOf_iff_prefix] at hp
    obtain ⟨s, hs⟩ := hp
    simp [hole] at hs
    obtain ⟨rfl, hs⟩ := hs
    have := h [] cs rfl
    have e : (k ++ ['}']) ++ s = cs ++ R := by simpa using hs
    rcases List.append_eq_append_iff.1 e with ⟨u, h3, h4⟩ | ⟨u, h3, h4⟩
    · exact absurd ⟨u, h3.symm⟩ this.1
    · exact absurd ⟨u, h3.symm⟩ this.2

/-- A hole with another key is inert. -/
theorem inert_hole {k h : Str} (hk : '}' ∉ k) (hh : '{' ∉ h ∧ '}' ∉ h) (hne : h ≠ k) : Inert k (hole h) := by
  intro a b e
  cases a with
  | nil =>
    simp [hole] at e
    subst e
    constructor
    · rintro ⟨s, hs⟩
      exact hne (key_prefix (s := s) (R := []) hk hh.2 (by simpa using hs)).symm
    · rintro ⟨s, hs⟩
      exact hne (key_prefix (s := s) (R := []) hh.2 hk (by simpa using hs))
  | cons x xs =>
    simp [hole] at e
    have : '{' ∈ h ++ ['}'] := by rw [e.2]; simp
    simp [hh.1] at this

theorem inert_nl {k t : Str} (h : Inert k t) : Inert k (t ++ ['\n']) := inert_append h (inert_of_no_open (by decide))

theorem not_contains_of_inert {k t s : Str} (h : Inert k (t ++ s)) : contains t (hole k) = false := by
  rw [Bool.eq_false_iff]
  intro hc
  obtain ⟨a, b, e⟩ := (contains_iff t (hole k)).1 hc
  exact (h a (k ++ ['}'] ++ (b ++ s)) (by rw [e]; simp [hole])).1 ⟨b ++ s, by simp⟩

/-- The texts of a line cannot begin a placeholder of the list (the last one is followed by a line break), and its holes have
no braces in their names. -/
def CleanLine (keys : List Str) : List Piece → Prop
  | [] => True
  | .text t :: ps => (∀ k ∈ keys, Inert k (if ps = [] then t ++ ['\n'] else t)) ∧ CleanLine keys ps
  | .hole h :: ps => ('{' ∉ h ∧ '}' ∉ h) ∧ CleanLine keys ps

def Clean (keys : List Str) (ls : List (List Piece)) : Prop := ∀ l ∈ ls, CleanLine keys l

/-- One substitution in the pieces, as in `step`. -/
def subst (k v : Str) (p : Piece) : Piece :=
  match p with
  | .text t => .text t
  | .hole h => if h = k then .text v else .hole h

theorem step_some (ls : List (List Piece)) (k v : Str) : step ls (k, some v) = ls.map (fun l => l.map (subst k v)) := rfl

theorem subst_text (k v t : Str) : subst k v (.text t) = .text t := rfl

theorem subst_hole (k v h : Str) : subst k v (.hole h) = if h = k then .text v else .hole h := rfl

/-- whether the piece is the hole, as in `step` -/
def isHole (k : Str) (p : Piece) : Bool :=
  match p with
  | .text _ => false
  | .hole h => h = k

theorem step_none (ls : List (List Piece)) (k : Str) : step ls (k, none) = ls.filter (fun l => !l.any (isHole k)) := rfl

theorem isHole_text (k t : Str) : isHole k (.text t) = false := rfl

theorem isHole_hole (k h : Str) : isHole k (.hole h) = decide (h = k) := rfl

theorem cleanLine_subst {keys : List Str} (k v : Str) (hv : ∀ k ∈ keys, Inert k v) (l : List Piece) (h : CleanLine keys l) :
    CleanLine keys (l.map (subst k v)) := by
  induction l with
  | nil => exact h
  | cons p ps ih =>
    cases p with
    | text t =>
      refine ⟨?_, ih h.2⟩
      intro k' hk'
      have := h.1 k' hk'
      simpa using this
    | hole x =>
      by_cases e : x = k
      · simp only [List.map_cons, subst, e, if_true]
        refine ⟨?_, ih h.2⟩
        intro k' hk'
        split
        · exact inert_nl (hv k' hk')
        · exact hv k' hk'
      · simp only [List.map_cons, subst, e, if_false]
        exact ⟨h.1, ih h.2⟩

theorem replace_pieces {keys : List Str} {k : Str} (v : Str) (hk : '}' ∉ k) (hmem : k ∈ keys) (ps : List Piece) (R : Str)
    (hR : R = [] ∨ ∃ R', R = '\n' :: R') (hps : CleanLine keys ps) :
    replace (source ps ++ R) (hole k) v = source (ps.map (subst k v)) ++ replace R (hole k) v := by
  induction ps with
  | nil => rfl
  | cons p ps ih =>
    rw [List.map_cons, source_cons, source_cons, List.append_assoc]
    cases p with
    | text t =>
      have ih := ih hps.2
      have hp := hps.1 k hmem
      show replace (t ++ (source ps ++ R)) _ _ = t ++ _ ++ _
      by_cases hn : ps = []
      · rw [if_pos hn] at hp
        subst hn
        rcases hR with rfl | ⟨R', rfl⟩
        · simp only [source, List.flatMap_nil, List.append_nil, List.map_nil, replace_nil]
          exact replace_of_not_contains (not_contains_of_inert hp)
        · have h1 := replace_inert v R' hp
          have h2 := replace_inert (k := k) (t := ['\n']) v R' (inert_of_no_open (by decide))
          simp only [List.append_assoc, List.cons_append, List.nil_append] at h1 h2
          simp only [source, List.flatMap_nil, List.append_nil, List.nil_append, List.map_nil]
          rw [h1, h2]
      · rw [if_neg hn] at hp
        rw [replace_inert v _ hp, ih, List.append_assoc]
    | hole h =>
      have ih := ih hps.2
      have hp := hps.1
      by_cases e : h = k
      · subst e
        show replace (hole h ++ (source ps ++ R)) _ _ = _
        rw [replace_match (hole_ne_nil h), ih]
        simp [subst, Piece.source]
      · show replace (hole h ++ (source ps ++ R)) _ _ = _
        rw [replace_inert v _ (inert_hole hk hp e), ih]
        simp [subst, Piece.source, e, hole]

theorem textOf_cons (l : List Piece) (ls : List (List Piece)) (h : ls ≠ []) : textOf (l :: ls) = source l ++ '\n' :: textOf ls := by
  unfold textOf unlines
  rw [List.map_cons, join_cons_of_ne_nil _ _ (by simpa using h)]
  simp

theorem replace_textOf {keys : List Str} {k : Str} (v : Str) (hk : '}' ∉ k) (hmem : k ∈ keys) (ls : List (List Piece))
    (hc : Clean keys ls) : replace (textOf ls) (hole k) v = textOf (step ls (k, some v)) := by
  have hs : ∀ ls, step ls (k, some v) = ls.map (fun l => l.map (subst k v)) := fun ls => rfl
  induction ls with
  | nil => rfl
  | cons l ls ih =>
    have hl := hc l (by simp)
    have ih := ih (fun x hx => hc x (by simp [hx]))
    by_cases h : ls = []
    · subst h
      have := replace_pieces v hk hmem l [] (.inl rfl) hl
      simpa [hs, textOf, unlines] using this
    · rw [textOf_cons l ls h, replace_pieces v hk hmem l _ (.inr ⟨_, rfl⟩) hl, hs, List.map_cons,
        textOf_cons _ _ (by simpa using h)]
      rw [show '\n' :: textOf ls = ['\n'] ++ textOf ls from rfl, replace_no_open k v ['\n'] _ (by decide), ih]
      rfl

/-- A line without the hole does not contain the placeholder. -/
theorem not_contains_line {keys : List Str} {k : Str} (hk : '}' ∉ k) (hmem : k ∈ keys) (l : List Piece)
    (hl : CleanLine keys l) (hn : ∀ p ∈ l, p ≠ .hole k) : contains (source l) (hole k) = false := by
  induction l with
  | nil => simp [source, contains, hole]
  | cons p ps ih =>
    have hnp := hn p (by simp)
    rw [source_cons]
    cases p with
    | text t =>
      have ih := ih hl.2 (fun q hq => hn q (by simp [hq]))
      have hp := hl.1 k hmem
      by_cases e : ps = []
      · rw [if_pos e] at hp
        subst e
        simpa [source, Piece.source] using not_contains_of_inert hp
      · rw [if_neg e] at hp
        rw [show Piece.source (.text t) = t from rfl, contains_inert _ hp, ih]
    | hole h =>
      have ih := ih hl.2 (fun q hq => hn q (by simp [hq]))
      have : h ≠ k := fun e => hnp (by rw [e])
      rw [show Piece.source (.hole h) = hole h from rfl, contains_inert _ (inert_hole hk hl.1 this), ih]

theorem contains_line {k : Str} (l : List Piece) (h : Piece.hole k ∈ l) : contains (source l) (hole k) = true := by
  obtain ⟨a, b, rfl⟩ := List.append_of_mem h
  rw [contains_iff]
  exact ⟨source a, source b, by simp [source, Piece.source, hole]⟩

theorem contains_of_mem_lines {s l p : Str} (h : l ∈ lines s) (hc : contains l p = true) : contains s p = true := by
  rw [contains_iff] at hc ⊢
  obtain ⟨a, b, e⟩ := hc
  obtain ⟨A, B, hAB⟩ := List.append_of_mem h
  have : s = unlines (A ++ l :: B) := by rw [← hAB]; exact (unlines_lines s).symm
  have key : ∀ A : List Str, ∃ x y, unlines (A ++ l :: B) = x ++ l ++ y := by
    intro A
    induction A with
    | nil =>
      cases B with
      | nil => exact ⟨[], [], by simp [unlines]⟩
      | cons m B => exact ⟨[], '\n' :: unlines (m :: B), by simp [unlines, join_cons_cons]⟩
    | cons m A ih =>
      obtain ⟨x, y, h⟩ := ih
      refine ⟨m ++ '\n' :: x, y, ?_⟩
      rw [List.cons_append, unlines, join_cons_of_ne_nil _ _ (by simp)]
      change m ++ ['\n'] ++ unlines (A ++ l :: B) = _
      rw [h]
      simp
  obtain ⟨x, y, h⟩ := key A
  exact ⟨x ++ a, b ++ y, by rw [this, h, e]; simp⟩

theorem lines_append_nl (a b : Str) : lines (a ++ '\n' :: b) = lines a ++ lines b := by
  induction a with
  | nil => simp [lines, splitOn]
  | cons c cs ih =>
    by_cases h : c = '\n'
    · subst h
      show lines ('\n' :: (cs ++ '\n' :: b)) = lines ('\n' :: cs) ++ lines b
      rw [lines, splitOn_cons_eq, lines, splitOn_cons_eq]
      change [] :: lines (cs ++ '\n' :: b) = ([] :: lines cs) ++ lines b
      rw [ih]; rfl
    · obtain ⟨x, xs, e⟩ : ∃ x xs, lines cs = x :: xs := by
        cases e : lines cs with
        | nil => exact absurd e (lines_ne_nil cs)
        | cons x xs => exact ⟨x, xs, rfl⟩
      rw [e] at ih
      have e1 : splitOn '\n' cs = x :: xs := e
      have e2 : splitOn '\n' (cs ++ '\n' :: b) = (x :: xs) ++ lines b := ih
      simp [lines, splitOn, h, e1, e2]

theorem lines_textOf (ls : List (List Piece)) (h : ls ≠ []) : lines (textOf ls) = ls.flatMap (fun l => lines (source l)) := by
  induction ls with
  | nil => exact absurd rfl h
  | cons l ls ih =>
    by_cases h' : ls = []
    · subst h'; simp [textOf, unlines]
    · rw [textOf_cons l ls h', lines_append_nl, ih h']; rfl

theorem unlines_flatMap_lines (xs : List Str) : unlines (xs.flatMap lines) = unlines xs := by
  have app : ∀ a b : List Str, a ≠ [] → b ≠ [] → unlines (a ++ b) = unlines a ++ '\n' :: unlines b := by
    intro a b ha hb
    induction a with
    | nil => exact absurd rfl ha
    | cons x xs ih =>
      by_cases hx : xs = []
      · subst hx
        rw [List.cons_append, List.nil_append, unlines, join_cons_of_ne_nil _ _ hb]
        simp [unlines]
      · rw [List.cons_append, unlines, join_cons_of_ne_nil _ _ (by simp [hx])]
        change x ++ ['\n'] ++ unlines (xs ++ b) = _
        rw [ih hx]
        conv => rhs; rw [unlines, join_cons_of_ne_nil _ _ hx]
        simp [unlines]
  induction xs with
  | nil => rfl
  | cons x xs ih =>
    by_cases hx : xs = []
    · subst hx; simpa [unlines] using unlines_lines x
    · have hne : xs.flatMap lines ≠ [] := by
        cases xs with
        | nil => exact absurd rfl hx
        | cons y ys => simp [lines_ne_nil]
      rw [List.flatMap_cons, app _ _ (lines_ne_nil x) hne, unlines_lines, ih]
      conv => rhs; rw [unlines, join_cons_of_ne_nil _ _ hx]
      simp [unlines]

/-- The lines to be removed have no line break in their values. -/
def Removable (k : Str) (ls : List (List Piece)) : Prop := ∀ l ∈ ls, Piece.hole k ∈ l → '\n' ∉ source l

theorem remove_textOf {keys : List Str} {k : Str} (hk : '}' ∉ k) (hmem : k ∈ keys) (ls : List (List Piece))
    (hc : Clean keys ls) (hr : Removable k ls) :
    unlines ((lines (textOf ls)).filter (fun line => !contains line (hole k))) = textOf (step ls (k, none)) := by
  by_cases h : ls = []
  · subst h
    simp [textOf, unlines, lines, splitOn, contains, hole, step]
  · rw [lines_textOf ls h, List.filter_flatMap]
    have key : ls.flatMap (fun l => (lines (source l)).filter (fun line => !contains line (hole k))) =
        ((step ls (k, none)).map source).flatMap lines := by
      clear h
      induction ls with
      | nil => rfl
      | cons l ls ih =>
        have ih := ih (fun x hx => hc x (by simp [hx])) (fun x hx => hr x (by simp [hx]))
        rw [List.flatMap_cons, ih]
        by_cases hl : Piece.hole k ∈ l
        · have e1 : lines (source l) = [source l] := splitOn_of_not_mem (hr l (by simp) hl)
          have e2 : step (l :: ls) (k, none) = step ls (k, none) := by
            simp only [step]
            rw [List.filter_cons_of_neg]
            simp only [Bool.not_eq_true', Bool.not_eq_false]
            rw [List.any_eq_true]
            exact ⟨_, hl, by simp⟩
          rw [e1, e2]
          simp [contains_line l hl]
        · have hn : contains (source l) (hole k) = false :=
            not_contains_line hk hmem l (hc l (by simp)) (fun p hp e => hl (e ▸ hp))
          have e2 : step (l :: ls) (k, none) = l :: step ls (k, none) := by
            simp only [step]
            rw [List.filter_cons_of_pos]
            simp only [Bool.not_eq_true', List.any_eq_false]
            intro p hp
            cases p with
            | text t => simp
            | hole h => simp; rintro rfl; exact hl hp
          rw [e2, List.map_cons, List.flatMap_cons]
          congr 1
          rw [List.filter_eq_self]
          intro x hx
          rw [Bool.not_eq_true', Bool.eq_false_iff]
          intro hx'
          rw [contains_of_mem_lines hx hx'] at hn
          cases hn
    rw [key, unlines_flatMap_lines]
    rfl

theorem cleanLine_mono {ks ks' : List Str} (h : ∀ k ∈ ks', k ∈ ks) (l : List Piece) (hl : CleanLine ks l) : CleanLine ks' l := by
  induction l with
  | nil => exact hl
  | cons p ps ih =>
    cases p with
    | text t => exact ⟨fun k hk => hl.1 k (h k hk), ih hl.2⟩
    | hole x => exact ⟨hl.1, ih hl.2⟩

theorem clean_step {keys keys' : List Str} {ls : List (List Piece)} (hc : Clean keys ls) (hsub : ∀ k ∈ keys', k ∈ keys) (k : Str)
    (v : Option Str) (hv : ∀ x, v = some x → ∀ k ∈ keys', Inert k x) : Clean keys' (step ls (k, v)) := by
  cases v with
  | none =>
    intro l hl
    exact cleanLine_mono hsub l (hc l (List.mem_filter.1 hl).1)
  | some v =>
    intro l hl
    obtain ⟨l', hl', rfl⟩ := List.mem_map.1 hl
    exact cleanLine_subst k v (hv v rfl) l' (cleanLine_mono hsub l' (hc l' hl'))

/-- The conditions for the filling of a template: a value must not begin a placeholder that is replaced after it, and the lines that
are removed must not contain a line break. -/
def Fillable : List (Str × Option Str) → List (List Piece) → Prop
  | [], _ => True
  | (k, v) :: r, ls =>
    '}' ∉ k ∧ (∀ x, v = some x → ∀ kv ∈ r, Inert kv.1 x) ∧ (v = none → Removable k ls) ∧ Fillable r (step ls (k, v))

/-- The filling of a template, given by its lines. -/
theorem fill_textOf (items : List (Str × Option Str)) (ls : List (List Piece))
    (hc : Clean (items.map (·.1)) ls) (h : Fillable items ls) :
    items.foldl replaceOrRemove (textOf ls) = textOf (items.foldl step ls) := by
  induction items generalizing ls with
  | nil => rfl
  | cons kv items ih =>
    obtain ⟨k, v⟩ := kv
    obtain ⟨h1, h2, h3, h4⟩ := h
    have hstep : replaceOrRemove (textOf ls) (k, v) = textOf (step ls (k, v)) := by
      cases v with
      | none => exact remove_textOf h1 (by simp) ls hc (h3 rfl)
      | some v => exact replace_textOf v h1 (by simp) ls hc
    rw [List.foldl_cons, List.foldl_cons, hstep]
    refine ih (step ls (k, v)) (clean_step hc (by simp +contextual) k v ?_) h4
    intro x hx k' hk'
    obtain ⟨kv, hkv, rfl⟩ := List.mem_map.1 hk'
    exact h2 x hx kv hkv

theorem processCodeTemplate_eq (s : Str) (tokens : List (Str × Str)) (removal : List (Str × Option Str)) :
    processCodeTemplate s tokens removal =
      dropFinalComma ((tokens.map (fun kv => (kv.1, some kv.2)) ++ removal ++ [(maybeComma, some [',', ' '])]).foldl replaceOrRemove s) := by
  have : replaceInString s tokens = (tokens.map (fun kv => (kv.1, some kv.2))).foldl replaceOrRemove s := by
    rw [List.foldl_map]; rfl
  simp only [processCodeTemplate, if_true, List.foldl_append, this]
  rfl

end Verif.Template
