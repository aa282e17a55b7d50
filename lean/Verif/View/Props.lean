import Verif.View.Spec

/-! C124: the overview of the elements. -/

namespace Verif.View.Props
open Verif.Py Verif.View Verif.View.Spec

theorem blanks (d : Nat) : (List.replicate d [' ', ' ']).flatten = List.replicate (2 * d) ' ' := by
  induction d with
  | zero => rfl
  | succ n ih =>
    rw [List.replicate_succ, List.flatten_cons, ih]
    rw [show 2 * (n + 1) = 2 * n + 1 + 1 by omega, List.replicate_succ, List.replicate_succ]
    rfl

theorem shortInfo_eq (e : Element) : shortInfo true e = e.cls ++ ((e.name.map (fun n => " name=".toList ++ n)).getD [] ++
    if e.scope = [] then [] else " scope=".toList ++ e.scope) := by
  unfold shortInfo
  generalize " name=".toList = a
  generalize " scope=".toList = b
  rcases e with ⟨cls, name, scope⟩
  cases name <;> cases scope <;> simp

/-- C124: the overview has one line for each element, in the order of the elements, each before its children, with two blanks for each ancestor. -/
theorem C124_lines (f : Forest) : ∀ depth, overview depth f = (preorder depth f).flatMap (fun p => line p ++ ['\n']) := by
  induction f with
  | none => intro _; rfl
  | more e c o ihc iho =>
    intro depth
    rw [overview, preorder, List.flatMap_cons, List.flatMap_append, ihc, iho, blanks, shortInfo_eq]
    unfold line
    simp only [List.append_assoc]

/-- The list ends, or goes on with an element that is less deep. -/
def Stop (d : Nat) (l : List (Nat × Element)) : Prop := ∀ p r, l = p :: r → p.1 < d

theorem stop_more (d : Nat) (f : Forest) (x : List (Nat × Element)) (hx : Stop d x) : Stop (d + 1) (preorder d f ++ x) := by
  intro p r e
  cases f with
  | none => exact Nat.lt_succ_of_lt (hx p r e)
  | more a c o =>
    rw [preorder] at e
    rw [← (List.cons.inj e).1]
    exact Nat.lt_succ_self d

theorem preorder_unique (f : Forest) : ∀ (g : Forest) (d : Nat) (x y : List (Nat × Element)), Stop d x → Stop d y →
    preorder d f ++ x = preorder d g ++ y → f = g ∧ x = y := by
  induction f with
  | none =>
    intro g d x y hx _ e
    cases g with
    | none => exact ⟨rfl, e⟩
    | more a c o => exact absurd (hx _ _ e) (Nat.lt_irrefl d)
  | more a c o ihc iho =>
    intro g d x y hx hy e
    cases g with
    | none => exact absurd (hy _ _ e.symm) (Nat.lt_irrefl d)
    | more b c' o' =>
      rw [preorder, preorder, List.cons_append, List.cons_append] at e
      obtain ⟨h1, h2⟩ := List.cons.inj e
      rw [List.append_assoc, List.append_assoc] at h2
      obtain ⟨rfl, h3⟩ := ihc c' (d + 1) _ _ (stop_more d o x hx) (stop_more d o' y hy) h2
      obtain ⟨rfl, rfl⟩ := iho o' d x y hx hy h3
      exact ⟨by rw [(Prod.mk.inj h1).2], rfl⟩

theorem until_unique (c : Char) : ∀ (a b x y : Str), c ∉ a → c ∉ b → a ++ c :: x = b ++ c :: y → a = b ∧ x = y
  | [], [], _, _, _, _, e => ⟨rfl, (List.cons.inj e).2⟩
  | [], k :: b, _, _, _, hb, e => absurd (List.mem_cons.2 (.inl (List.cons.inj e).1)) hb
  | k :: a, [], _, _, ha, _, e => absurd (List.mem_cons.2 (.inl (List.cons.inj e).1.symm)) ha
  | k :: a, k' :: b, x, y, ha, hb, e => by
    obtain ⟨rfl, e'⟩ := List.cons.inj e
    obtain ⟨rfl, rfl⟩ := until_unique c a b x y (fun h => ha (List.mem_cons_of_mem _ h)) (fun h => hb (List.mem_cons_of_mem _ h)) e'
    exact ⟨rfl, rfl⟩

/-- Texts that end at the first blank, or at the end. -/
theorem word_unique : ∀ (a b x y : Str), ' ' ∉ a → ' ' ∉ b → (∀ c r, x = c :: r → c = ' ') → (∀ c r, y = c :: r → c = ' ') →
    a ++ x = b ++ y → a = b ∧ x = y
  | [], [], _, _, _, _, _, _, e => ⟨rfl, e⟩
  | [], k :: b, x, y, _, hb, hx, _, e => absurd (List.mem_cons.2 (.inl (hx k _ e).symm)) hb
  | k :: a, [], x, y, ha, _, _, hy, e => absurd (List.mem_cons.2 (.inl (hy k _ e.symm).symm)) ha
  | k :: a, k' :: b, x, y, ha, hb, hx, hy, e => by
    obtain ⟨rfl, e'⟩ := List.cons.inj e
    obtain ⟨rfl, rfl⟩ := word_unique a b x y (fun h => ha (List.mem_cons_of_mem _ h)) (fun h => hb (List.mem_cons_of_mem _ h)) hx hy e'
    exact ⟨rfl, rfl⟩

theorem indent_unique : ∀ (n m : Nat) (a b : Str), (∀ r, a ≠ ' ' :: r) → (∀ r, b ≠ ' ' :: r) →
    List.replicate n ' ' ++ a = List.replicate m ' ' ++ b → n = m ∧ a = b
  | 0, 0, _, _, _, _, e => ⟨rfl, e⟩
  | 0, m + 1, a, b, ha, _, e => absurd e (ha _)
  | n + 1, 0, a, b, _, hb, e => absurd e.symm (hb _)
  | n + 1, m + 1, a, b, ha, hb, e => by
    obtain ⟨rfl, rfl⟩ := indent_unique n m a b ha hb (List.cons.inj e).2
    exact ⟨rfl, rfl⟩

/-- `" name="` -/
def nameWord : Str := [' ', 'n', 'a', 'm', 'e', '=']

/-- `" scope="` -/
def scopeWord : Str := [' ', 's', 'c', 'o', 'p', 'e', '=']

theorem nameWord_eq : " name=".toList = nameWord := String.toList_ofList
theorem scopeWord_eq : " scope=".toList = scopeWord := String.toList_ofList

def scopeText (s : Str) : Str := if s = [] then [] else scopeWord ++ s
def nameText (n : Option Str) : Str := (n.map (fun n => nameWord ++ n)).getD []

theorem scopeText_blank (s : Str) : ∀ c r, scopeText s = c :: r → c = ' ' := by
  intro c r h
  unfold scopeText at h
  split at h
  · cases h
  · exact (List.cons.inj h).1.symm

theorem info_blank (n : Option Str) (s : Str) : ∀ c r, nameText n ++ scopeText s = c :: r → c = ' ' := by
  intro c r h
  cases n with
  | none => exact scopeText_blank s c r h
  | some n => exact (List.cons.inj h).1.symm

theorem scopeText_unique (s t : Str) (h : scopeText s = scopeText t) : s = t := by
  unfold scopeText at h
  split at h <;> split at h
  · rename_i h1 h2; rw [h1, h2]
  · cases h
  · cases h
  · exact List.append_cancel_left h

theorem name_scope (n : Str) (s t : Str) : nameText (some n) ++ scopeText s ≠ scopeText t := by
  intro h
  unfold scopeText at h
  by_cases ht : t = []
  · rw [if_pos ht] at h
    cases h
  · rw [if_neg ht] at h
    have h1 := (List.cons.inj (List.cons.inj h).2).1
    revert h1
    decide

theorem line_eq (p : Nat × Element) : line p = List.replicate (2 * p.1) ' ' ++ (p.2.cls ++ (nameText p.2.name ++ scopeText p.2.scope)) := by
  unfold line nameText scopeText
  rw [nameWord_eq, scopeWord_eq]

theorem line_unique (p q : Nat × Element) (hp : Plain p.2) (hq : Plain q.2) (h : line p = line q) : p = q := by
  rw [line_eq, line_eq] at h
  rcases p with ⟨d, ⟨c, n, s⟩⟩
  rcases q with ⟨d', ⟨c', n', s'⟩⟩
  have start : ∀ (a x : Str), a ≠ [] → ' ' ∉ a → ∀ r, a ++ x ≠ ' ' :: r := by
    intro a x ha hb r e
    cases a with
    | nil => exact ha rfl
    | cons k a => exact hb (List.mem_cons.2 (.inl (List.cons.inj e).1.symm))
  obtain ⟨hd, h1⟩ := indent_unique _ _ _ _ (start c _ hp.1 hp.2.1.1) (start c' _ hq.1 hq.2.1.1) h
  have hd' : d = d' := by
    have : 2 * d = 2 * d' := hd
    omega
  obtain ⟨hc, h2⟩ := word_unique _ _ _ _ hp.2.1.1 hq.2.1.1 (info_blank n s) (info_blank n' s') h1
  have hc' : c = c' := hc
  subst hd' hc'
  cases n with
  | none =>
    cases n' with
    | none => rw [scopeText_unique s s' h2]
    | some n' => exact absurd h2.symm (name_scope n' s' s)
  | some n =>
    cases n' with
    | none => exact absurd h2 (name_scope n s s')
    | some n' =>
      have h2' : nameWord ++ n ++ scopeText s = nameWord ++ n' ++ scopeText s' := h2
      rw [List.append_assoc, List.append_assoc] at h2'
      obtain ⟨hn, hs⟩ := word_unique n n' _ _ (hp.2.2.1 n rfl).1 (hq.2.2.1 n' rfl).1 (scopeText_blank s) (scopeText_blank s')
        (List.append_cancel_left h2')
      rw [hn, scopeText_unique s s' hs]

theorem line_no_end (p : Nat × Element) (hp : Plain p.2) : '\n' ∉ line p := by
  rw [line_eq]
  intro h
  rcases List.mem_append.1 h with h | h
  · exact absurd (List.eq_of_mem_replicate h) (by decide)
  · rcases List.mem_append.1 h with h | h
    · exact hp.2.1.2 h
    · rcases List.mem_append.1 h with h | h
      · rcases p with ⟨d, ⟨c, n, s⟩⟩
        cases n with
        | none => cases h
        | some n =>
          rcases List.mem_append.1 h with h | h
          · exact absurd h (by decide)
          · exact (hp.2.2.1 n rfl).2 h
      · unfold scopeText at h
        split at h
        · cases h
        · rcases List.mem_append.1 h with h | h
          · exact absurd h (by decide)
          · exact hp.2.2.2.2 h

theorem lines_unique : ∀ (l m : List (Nat × Element)), (∀ p ∈ l, Plain p.2) → (∀ p ∈ m, Plain p.2) →
    l.flatMap (fun p => line p ++ ['\n']) = m.flatMap (fun p => line p ++ ['\n']) → l = m
  | [], [], _, _, _ => rfl
  | [], q :: m, _, _, e => by
    rw [List.flatMap_cons, List.append_assoc] at e
    exact absurd (List.append_eq_nil_iff.1 e.symm).2 (fun h => (by cases h))
  | p :: l, [], _, _, e => by
    rw [List.flatMap_cons, List.append_assoc] at e
    exact absurd (List.append_eq_nil_iff.1 e).2 (fun h => (by cases h))
  | p :: l, q :: m, hl, hm, e => by
    rw [List.flatMap_cons, List.flatMap_cons, List.append_assoc, List.append_assoc] at e
    have h1 := hl p (List.mem_cons_self ..)
    have h2 := hm q (List.mem_cons_self ..)
    obtain ⟨e1, e2⟩ := until_unique '\n' _ _ _ _ (line_no_end p h1) (line_no_end q h2) e
    rw [line_unique p q h1 h2 e1, lines_unique l m (fun x hx => hl x (List.mem_cons_of_mem _ hx)) (fun x hx => hm x (List.mem_cons_of_mem _ hx)) e2]

/-- C124: two lists of elements with the same overview are the same. -/
def C124_tree_statement : Prop := ∀ f g : Forest, overview 0 f = overview 0 g → f = g

/-- A name with a line end reads like a child. -/
theorem C124_tree_fails : ¬ C124_tree_statement := by
  intro h
  have := h (.more ⟨['X'], some ['A', '\n', ' ', ' ', 'Y'], []⟩ .none .none)
    (.more ⟨['X'], some ['A'], []⟩ (.more ⟨['Y'], none, []⟩ .none .none) .none)
    (by decide +kernel)
  exact absurd this (by decide)

/-- C124 for classes, names and scopes without blanks and line ends. Missing: names with blanks, such as `operator new`. -/
theorem C124_tree_partial (f g : Forest) (hf : ∀ p ∈ preorder 0 f, Plain p.2) (hg : ∀ p ∈ preorder 0 g, Plain p.2)
    (h : overview 0 f = overview 0 g) : f = g := by
  rw [C124_lines, C124_lines] at h
  have e := lines_unique _ _ hf hg h
  exact (preorder_unique f g 0 [] [] (fun _ _ e => (by cases e)) (fun _ _ e => (by cases e)) (by rw [List.append_nil, List.append_nil, e])).1

example : ∀ p ∈ preorder 0 (.more ⟨['N'], some ['a'], []⟩ (.more ⟨['F'], some ['f'], ['a']⟩ .none .none) .none), Plain p.2 := by
  simp [preorder, Plain, Word]

end Verif.View.Props
