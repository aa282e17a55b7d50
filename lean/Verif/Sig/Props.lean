import Verif.Sig.Model
import Verif.Sig.Spec
import Verif.Py.StrLemmas

/-! C123: the text that identifies an overload in the stub. -/

namespace Verif.Sig.Props
open Verif.Py Verif.Sig Verif.Sig.Spec

/-- The end of a text, or a comma. -/
def Stop (s : Str) : Prop := s = [] ∨ ∃ r, s = ',' :: r

theorem comma_open {d : Nat} {c : Char} {s : Str} (hc : c = ',') (h : closedFrom d (c :: s)) : 0 < d := by
  subst hc
  rw [closedFrom, if_neg (by decide), if_neg (by decide)] at h
  exact h.1 rfl

theorem closed_tail {d : Nat} {c : Char} {s t : Str} (hs : closedFrom d (c :: s)) (ht : closedFrom d (c :: t)) :
    ∃ d', closedFrom d' s ∧ closedFrom d' t := by
  rw [closedFrom] at hs ht
  split at hs
  · rw [if_pos (by assumption)] at ht
    exact ⟨_, hs, ht⟩
  · rw [if_neg (by assumption)] at ht
    split at hs
    · rw [if_pos (by assumption)] at ht
      exact ⟨_, hs.2, ht.2⟩
    · rw [if_neg (by assumption)] at ht
      exact ⟨_, hs.2, ht.2⟩

/-- Two closed texts that are followed by the end or by a comma are the same. -/
theorem closed_unique : ∀ (a b x y : Str) (d : Nat), closedFrom d a → closedFrom d b → Stop x → Stop y → a ++ x = b ++ y → a = b ∧ x = y
  | [], [], _, _, _, _, _, _, _, e => ⟨rfl, e⟩
  | [], c :: b, x, y, d, ha, hb, hx, _, e => by
    rcases hx with rfl | ⟨r, rfl⟩
    · cases e
    · have hc : c = ',' := (List.cons.inj e).1.symm
      have := comma_open hc hb
      have h0 : d = 0 := ha
      omega
  | c :: a, [], x, y, d, ha, hb, _, hy, e => by
    rcases hy with rfl | ⟨r, rfl⟩
    · cases e
    · have hc : c = ',' := (List.cons.inj e).1
      have := comma_open hc ha
      have h0 : d = 0 := hb
      omega
  | c :: a, c' :: b, x, y, d, ha, hb, hx, hy, e => by
    obtain ⟨rfl, e'⟩ := List.cons.inj e
    obtain ⟨d', h1, h2⟩ := closed_tail ha hb
    obtain ⟨rfl, rfl⟩ := closed_unique a b x y d' h1 h2 hx hy e'
    exact ⟨rfl, rfl⟩

/-- What follows the first parameter. -/
def rest : List Str → Str
  | [] => []
  | p :: ps => ',' :: ' ' :: join [',', ' '] (p :: ps)

theorem join_rest (p : Str) (ps : List Str) : join [',', ' '] (p :: ps) = p ++ rest ps := by
  cases ps with
  | nil => simp [join, rest]
  | cons q qs => rw [join_cons_cons, rest, List.append_assoc]; rfl

theorem rest_stop (ps : List Str) : Stop (rest ps) := by
  cases ps with
  | nil => exact .inl rfl
  | cons q qs => exact .inr ⟨_, rfl⟩

theorem join_ne_nil {p : Str} (h : p ≠ []) (ps : List Str) : join [',', ' '] (p :: ps) ≠ [] := by
  rw [join_rest]
  intro e
  exact h (List.append_eq_nil_iff.1 e).1

theorem join_injective : ∀ (ps qs : List Str), (∀ p ∈ ps, Closed p) → (∀ q ∈ qs, Closed q) →
    join [',', ' '] ps = join [',', ' '] qs → ps = qs
  | [], [], _, _, _ => rfl
  | [], q :: qs, _, hq, e => absurd e.symm (join_ne_nil (hq q (List.mem_cons_self ..)).1 qs)
  | p :: ps, [], hp, _, e => absurd e (join_ne_nil (hp p (List.mem_cons_self ..)).1 ps)
  | p :: ps, q :: qs, hp, hq, e => by
    rw [join_rest, join_rest] at e
    obtain ⟨rfl, e'⟩ := closed_unique p q _ _ 0 (hp p (List.mem_cons_self ..)).2 (hq q (List.mem_cons_self ..)).2 (rest_stop ps) (rest_stop qs) e
    congr 1
    cases ps with
    | nil =>
      cases qs with
      | nil => rfl
      | cons q qs => cases e'
    | cons p' ps =>
      cases qs with
      | nil => cases e'
      | cons q' qs =>
        refine join_injective (p' :: ps) (q' :: qs) (fun x hx => hp x (List.mem_cons_of_mem _ hx)) (fun x hx => hq x (List.mem_cons_of_mem _ hx)) ?_
        exact (List.cons.inj (List.cons.inj e').2).2

theorem name_unique : ∀ (a b x y : Str), '(' ∉ a → '(' ∉ b → a ++ '(' :: x = b ++ '(' :: y → a = b ∧ x = y
  | [], [], _, _, _, _, e => ⟨rfl, (List.cons.inj e).2⟩
  | [], c :: b, _, _, _, hb, e => absurd (List.mem_cons.2 (.inl (List.cons.inj e).1)) hb
  | c :: a, [], _, _, ha, _, e => absurd (List.mem_cons.2 (.inl (List.cons.inj e).1.symm)) ha
  | c :: a, c' :: b, x, y, ha, hb, e => by
    obtain ⟨rfl, e'⟩ := List.cons.inj e
    obtain ⟨rfl, rfl⟩ := name_unique a b x y (fun h => ha (List.mem_cons_of_mem _ h)) (fun h => hb (List.mem_cons_of_mem _ h)) e'
    exact ⟨rfl, rfl⟩

/-- C123: functions with the same text have the same Python name and the same parameters. -/
def C123_signature_statement : Prop := ∀ (o : Options) (f g : Fn) (s : Str), signature o f = some s → signature o g = some s →
  pythonName o f = pythonName o g ∧ f.params = g.params

/-- A parameter with a comma outside of brackets is taken for two parameters. -/
theorem C123_signature_fails : ¬ C123_signature_statement := by
  intro h
  have := (h ⟨fun _ _ => none, id⟩ ⟨true, none, [], [], [['a', ',', ' ', 'b']]⟩ ⟨true, none, [], [], [['a'], ['b']]⟩ _ rfl rfl).2
  revert this
  decide

/-- C123 for names without `(` and parameters whose commas are all inside brackets. Missing: default values with brackets or commas in strings. -/
theorem C123_signature_partial (o : Options) (f g : Fn) (s n m : Str) (hf : signature o f = some s) (hg : signature o g = some s)
    (hn : pythonName o f = some n) (hm : pythonName o g = some m) (h1 : '(' ∉ n) (h2 : '(' ∉ m)
    (hp : ∀ p ∈ f.params, Closed p) (hq : ∀ q ∈ g.params, Closed q) : n = m ∧ f.params = g.params := by
  unfold signature at hf hg
  rw [hn, Option.map_some] at hf
  rw [hm, Option.map_some] at hg
  have e := (Option.some.inj hf).trans (Option.some.inj hg).symm
  rw [List.append_assoc, List.append_assoc, List.append_assoc, List.append_assoc] at e
  obtain ⟨rfl, e'⟩ := name_unique n m _ _ h1 h2 e
  exact ⟨rfl, join_injective _ _ hp hq (List.append_cancel_right e')⟩

example : Closed "f: Callable[[int, float], None]".toList ∧ '(' ∉ "__init__".toList := by
  refine ⟨⟨by decide +kernel, ?_⟩, by decide +kernel⟩
  rw [String.toList_ofList]
  simp [closedFrom]

/-- C123: conversely, the text is made of the Python name and of the parameters only. -/
theorem C123_same (o : Options) (f g : Fn) (hn : pythonName o f = pythonName o g) (hp : f.params = g.params) : signature o f = signature o g := by
  unfold signature
  rw [hn, hp]

/-- C123: the Python name of a function. A constructor is `__init__`; a template with one type has its own name, under the same rules as the other
functions. -/
theorem C123_name (o : Options) (f : Fn) :
    (f.constructor = true → pythonName o f = some "__init__".toList) ∧
    (f.constructor = false → ∀ n, f.operator = some n → pythonName o f = some n) ∧
    (f.constructor = false → f.operator = none → ∀ t, f.specialized = [t] → pythonName o f = (o.specializedName f.name t).map o.toPython) ∧
    (f.constructor = false → f.operator = none → f.specialized.length ≠ 1 → pythonName o f = some (o.toPython f.name)) := by
  unfold pythonName
  refine ⟨fun h => by rw [if_pos h], fun h n hn => ?_, fun h hn t ht => ?_, fun h hn hl => ?_⟩
  · rw [if_neg (by rw [h]; exact Bool.false_ne_true), hn]
  · rw [if_neg (by rw [h]; exact Bool.false_ne_true), hn, ht]
  · rw [if_neg (by rw [h]; exact Bool.false_ne_true), hn]
    generalize f.specialized = l at hl
    rcases l with _ | ⟨t, _ | ⟨u, r⟩⟩
    · rfl
    · exact absurd rfl hl
    · rfl

/-- The specialisations of a template with two types have the same name. -/
example : pythonName ⟨fun _ _ => none, id⟩ ⟨false, none, ['f'], [['a'], ['b']], []⟩ =
    pythonName ⟨fun _ _ => none, id⟩ ⟨false, none, ['f'], [['c'], ['d']], []⟩ := by decide +kernel

end Verif.Sig.Props
