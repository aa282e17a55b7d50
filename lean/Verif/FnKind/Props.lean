import Verif.FnKind.Model
import Verif.Num.Lemmas

/-! # What a function is, what it returns, whether it throws

Property C116. -/

namespace Verif.FnKind.Props
open Verif.Py Verif.FnKind

/-! ## Specification -/

/-- A text made of blanks. -/
def Blanks (s : Str) : Prop := ∀ c ∈ s, isSpace c = true

/-- The words for true, in any case. -/
def Yes (l : Str) : Prop := Name.lower l = true_ ∨ Name.lower l = ['1']

/-- The conditions of `noexcept` that are made of constants. -/
inductive Cond
  | lit (b : Bool)
  | paren (e : Cond)
  | not (e : Cond)

/-- The text of a condition. -/
def Cond.text : Cond → Str
  | .lit true => true_
  | .lit false => false_
  | .paren e => '(' :: e.text ++ [')']
  | .not e => '!' :: e.text

/-- Its value. -/
def Cond.value : Cond → Bool
  | .lit b => b
  | .paren e => e.value
  | .not e => !e.value

/-- A parameter that takes no argument when the function is called without any: it has a default value, or it is `void`, or `...`. -/
def Optional (p : Param) : Prop := p.default ≠ [] ∨ p.type = ⟨[], [['v', 'o', 'i', 'd']], []⟩ ∨ ['.', '.', '.'] ∈ p.type.modifiers

/-! ## Lemmas -/

theorem lowC_space {c : Char} (h : isSpace (Name.lowC c) = false) : isSpace c = false := by
  cases hs : isSpace c with
  | false => rfl
  | true =>
    have hu : Name.isUp c = false := by
      cases hu : Name.isUp c with
      | false => rfl
      | true =>
        exfalso
        unfold Name.isUp at hu
        unfold isSpace at hs
        simp only [Bool.and_eq_true, Bool.or_eq_true, decide_eq_true_eq, beq_iff_eq] at hu hs
        omega
    have : Name.lowC c = c := by unfold Name.lowC; rw [hu]; rfl
    rw [this, hs] at h
    cases h

theorem lower_ends {l w : Str} (h : Name.lower l = w) (hw : ∀ c ∈ w, isSpace c = false) : strip l = l := by
  have hl : ∀ c ∈ l, isSpace c = false := by
    intro c hc
    apply lowC_space
    apply hw
    rw [← h]
    exact List.mem_map_of_mem hc
  exact strip_ends (fun c hc => hl c (List.mem_of_head? hc)) (fun c hc => hl c (List.mem_of_getLast? hc))

theorem lowC_paren : Name.lowC '(' = '(' ∧ Name.lowC '!' = '!' := by
  constructor <;> (unfold Name.lowC; decide)

theorem yes_strip {l : Str} (h : Yes l) : strip l = l := by
  rcases h with h | h
  · exact lower_ends h (by decide)
  · exact lower_ends h (by decide)

theorem yes_paren {l : Str} (h : Yes l) : startsWith l ['('] = false := by
  cases hs : startsWith l ['('] with
  | false => rfl
  | true =>
    exfalso
    obtain ⟨r, hr⟩ := List.isPrefixOf_iff_prefix.1 hs
    subst hr
    have e : Name.lower (['('] ++ r) = '(' :: Name.lower r := by
      show Name.lowC '(' :: _ = _
      rw [lowC_paren.1]; rfl
    rcases h with h | h
    · rw [e] at h
      exact absurd (List.cons.inj h).1 (by decide)
    · rw [e] at h
      exact absurd (List.cons.inj h).1 (by decide)

theorem yes_unwrap {l : Str} (h : Yes l) : unwrap l = l := by
  unfold unwrap
  rw [yes_paren h]
  rfl

theorem unwrap_paren (m : Str) : unwrap ('(' :: m ++ [')']) = strip m := by
  unfold unwrap
  have h := (Num.paren_iff ('(' :: m ++ [')'])).2 ⟨m, rfl⟩
  rw [h.2.1, h.2.2, Bool.and_true, if_pos rfl]
  rw [List.cons_append, List.drop_one, List.tail_cons, List.dropLast_concat]

theorem unwrap_cases (s : Str) : (unwrap s = s) ∨ ∃ m, s = '(' :: m ++ [')'] ∧ unwrap s = strip m := by
  by_cases h : startsWith s ['('] = true ∧ endsWith s [')'] = true
  · right
    have hlen : s.length ≥ 2 := by
      obtain ⟨a, ha⟩ := List.isPrefixOf_iff_prefix.1 h.1
      obtain ⟨b, hb⟩ := List.isSuffixOf_iff_suffix.1 h.2
      cases a with
      | cons x a => rw [← ha]; simp
      | nil =>
        exfalso
        rw [List.append_nil] at ha
        rw [← ha] at hb
        have := congrArg List.getLast? hb
        rw [List.getLast?_append] at this
        simp at this
    obtain ⟨m, hm⟩ := (Num.paren_iff s).1 ⟨hlen, h.1, h.2⟩
    exact ⟨m, hm, by rw [hm]; exact unwrap_paren m⟩
  · left
    unfold unwrap
    rw [if_neg]
    intro hc
    rw [Bool.and_eq_true] at hc
    exact h hc

theorem no_yes {w : Str} (h : w = true_ ∨ w = ['1']) : w ∉ [false_, ['0']] ∧ w ∈ [true_, ['1']] := by
  rcases h with rfl | rfl <;> decide

/-- `is_noexcept` in terms of the words. -/
theorem isNoexcept_iff (f : Fn) (t : Str) (hf : f.noexcept = some t) (ht : t ≠ []) :
    isNoexcept f = true ↔ Yes (unwrap (strip t)) := by
  unfold isNoexcept
  rw [hf]
  cases t with
  | nil => exact absurd rfl ht
  | cons c r =>
    simp only []
    constructor
    · intro h
      split at h
      · cases h
      · split at h
        · rename_i h2
          rcases List.mem_cons.1 h2 with h2 | h2
          · exact Or.inl h2
          · exact Or.inr (List.mem_singleton.1 h2)
        · cases h
    · intro h
      obtain ⟨h1, h2⟩ := no_yes h
      rw [if_neg h1, if_pos h2]

theorem countNoDefault_ge (ps : List Param) : ∀ n, n ≤ countNoDefault n ps := by
  induction ps with
  | nil => intro n; exact Nat.le_refl n
  | cons p ps ih =>
    intro n
    unfold countNoDefault
    split
    · exact Nat.le_trans (by omega) (ih (n + 1))
    · exact ih n

theorem countNoDefault_zero (ps : List Param) : countNoDefault 0 ps = 0 ↔ ∀ p ∈ ps, p.default ≠ [] := by
  induction ps with
  | nil => simp [countNoDefault]
  | cons p ps ih =>
    unfold countNoDefault
    split
    · rename_i h
      constructor
      · intro h0
        have := countNoDefault_ge ps (0 + 1)
        omega
      · intro h0
        exact absurd (List.eq_nil_of_length_eq_zero h) (h0 p (by simp))
    · rename_i h
      rw [ih]
      constructor
      · intro h0 q hq
        rcases List.mem_cons.1 hq with rfl | hq
        · intro e; rw [e] at h; exact h rfl
        · exact h0 q hq
      · intro h0 q hq
        exact h0 q (by simp [hq])

/-! ## C116 -/

/-- A function does not throw exactly when its declaration has `noexcept` alone, or with a word for true, with or without parentheses and
with any blanks. -/
theorem C116_noexcept (f : Fn) :
    isNoexcept f = true ↔ ∃ t, f.noexcept = some t ∧
      (t = [] ∨ ∃ l, Yes l ∧ ((∃ a b, Blanks a ∧ Blanks b ∧ t = a ++ l ++ b) ∨
        (∃ a b c d, Blanks a ∧ Blanks b ∧ Blanks c ∧ Blanks d ∧ t = a ++ ('(' :: (b ++ l ++ c) ++ [')']) ++ d))) := by
  cases hf : f.noexcept with
  | none =>
    constructor
    · intro h; unfold isNoexcept at h; rw [hf] at h; cases h
    · rintro ⟨t, ht, _⟩; cases ht
  | some t =>
    by_cases ht : t = []
    · subst ht
      constructor
      · intro _; exact ⟨[], rfl, Or.inl rfl⟩
      · intro _; unfold isNoexcept; rw [hf]
    · rw [isNoexcept_iff f t hf ht]
      constructor
      · intro h
        refine ⟨t, rfl, Or.inr ⟨unwrap (strip t), h, ?_⟩⟩
        obtain ⟨a, d, he, ha, hd⟩ := Num.strip_decomp t
        rcases unwrap_cases (strip t) with hu | ⟨m, hm, hu⟩
        · left
          exact ⟨a, d, ha, hd, by rw [hu]; exact he⟩
        · right
          obtain ⟨b, c, hm2, hb, hc⟩ := Num.strip_decomp m
          refine ⟨a, b, c, d, ha, hb, hc, hd, ?_⟩
          rw [hu, ← hm2, ← hm]
          exact he
      · rintro ⟨t', e, h⟩
        cases e
        rcases h with h | ⟨l, hl, ⟨a, b, ha, hb, rfl⟩ | ⟨a, b, c, d, ha, hb, hc, hd, rfl⟩⟩
        · exact absurd h ht
        · rw [Escape.strip_append ha hb, yes_strip hl, yes_unwrap hl]
          exact hl
        · rw [Escape.strip_append ha hd, Num.strip_paren, unwrap_paren, Escape.strip_append hb hc, yes_strip hl]
          exact hl

/-- Full statement: the answer is the value of the condition. -/
def C116_condition_statement : Prop :=
  ∀ (f : Fn) (e : Cond), f.noexcept = some ('(' :: e.text ++ [')']) → isNoexcept f = e.value

/-- It fails: `noexcept(!false)` is not understood. -/
theorem C116_condition_fails : ¬ C116_condition_statement := by
  intro h
  have := h ⟨['f'], [], none, [], some ('(' :: (Cond.not (.lit false)).text ++ [')']), none⟩ (.not (.lit false)) rfl
  exact absurd this (by decide +kernel)

/-- Partial: the answer is the value of the condition when it is a constant, and a function which is said not to throw does not, whatever
the condition. (Missing: the answer for the other conditions that are true.) -/
theorem C116_condition_partial (f : Fn) (e : Cond) (h : f.noexcept = some ('(' :: e.text ++ [')'])) :
    (isNoexcept f = true → e.value = true) ∧ (∀ b, e = .lit b → isNoexcept f = b) := by
  have key := isNoexcept_iff f _ h (by simp)
  rw [Num.strip_paren, unwrap_paren] at key
  cases e with
  | lit b =>
    have hb : isNoexcept f = b := by
      cases b with
      | true => exact key.2 (by unfold Yes; decide +kernel)
      | false =>
        cases hn : isNoexcept f with
        | false => rfl
        | true => exact absurd (key.1 hn) (by unfold Yes; decide +kernel)
    refine ⟨fun hn => ?_, fun b' e => ?_⟩
    · rw [hb] at hn; exact hn
    · cases e; exact hb
  | paren e =>
    refine ⟨fun hn => ?_, fun b' e => by cases e⟩
    have hy := key.1 hn
    unfold Cond.text at hy
    rw [Num.strip_paren] at hy
    have := yes_paren hy
    rw [List.cons_append] at this
    exact absurd this (by simp [startsWith])
  | not e =>
    refine ⟨fun hn => ?_, fun b' e => by cases e⟩
    have hy := key.1 hn
    unfold Cond.text at hy
    obtain ⟨r, hr⟩ := Num.strip_cons_head (c := '!') (r := e.text) (by decide)
    rw [hr] at hy
    have e' : Name.lower ('!' :: r) = '!' :: Name.lower r := by
      show Name.lowC '!' :: _ = _
      rw [lowC_paren.2]; rfl
    rcases hy with hy | hy
    · rw [e'] at hy; exact absurd (List.cons.inj hy).1 (by decide)
    · rw [e'] at hy; exact absurd (List.cons.inj hy).1 (by decide)

/-- A constructor is a method with the name of its class; a destructor is a method whose name begins with `~`: no function is both (no class
has a name that begins with `~`). The two ways to ask for the access of a method give the same answer, and a free function has none. -/
theorem C116_kinds (f : Fn) (hn : ∀ a c, f.parent = some (a, c) → startsWith c ['~'] = false) :
    (isConstructor f = true ↔ ∃ a, f.parent = some (a, f.name)) ∧
    (isDestructor f = some true ↔ isMethod f = true ∧ startsWith f.name ['~'] = true) ∧
    ¬ (isConstructor f = true ∧ isDestructor f = some true) ∧
    accessIfMethod f = methodAccess f ∧
    (isMethod f = false → isConstructor f = false ∧ accessIfMethod f = none ∧ isVirtual f = false ∧ isStaticMethod f = false) ∧
    (isMethod f = true → isDestructor f ≠ none) := by
  have hc : isConstructor f = true ↔ ∃ a, f.parent = some (a, f.name) := by
    unfold isConstructor structName
    cases hp : f.parent with
    | none => simp
    | some p =>
      obtain ⟨a, c⟩ := p
      simp only [Option.map_some, decide_eq_true_eq, Option.some.injEq, Prod.mk.injEq]
      constructor
      · intro e; exact ⟨a, rfl, e.symm⟩
      · rintro ⟨_, _, e⟩; exact e.symm
  have hd : isDestructor f = some true ↔ isMethod f = true ∧ startsWith f.name ['~'] = true := by
    unfold isDestructor
    cases hs : startsWith f.name ['~'] with
    | false => simp
    | true => cases hm : isMethod f <;> simp
  refine ⟨hc, hd, ?_, ?_, ?_, ?_⟩
  · rintro ⟨h1, h2⟩
    obtain ⟨a, ha⟩ := hc.1 h1
    rw [hn a f.name ha] at hd
    exact absurd (hd.1 h2).2 (by simp)
  · unfold accessIfMethod methodAccess isMethod
    cases f.parent <;> rfl
  · intro hm
    have hp : f.parent = none := by
      unfold isMethod at hm
      cases hp : f.parent with
      | none => rfl
      | some p => rw [hp] at hm; cases hm
    refine ⟨?_, ?_, ?_, ?_⟩
    · unfold isConstructor structName; rw [hp]; rfl
    · unfold accessIfMethod; rw [hm]; rfl
    · unfold isVirtual; rw [hm]; rfl
    · unfold isStaticMethod; rw [hm]; rfl
  · intro hm
    unfold isDestructor
    rw [hm]
    split <;> simp

/-- Full statement: a default constructor is one that can be called without arguments. -/
def C116_default_statement : Prop :=
  ∀ f : Fn, isDefault f = true ↔ isConstructor f = true ∧ ∀ p ∈ f.params, Optional p

/-- It fails for `A(void)`. -/
theorem C116_default_fails : ¬ C116_default_statement := by
  intro h
  have := (h ⟨['A'], [], none, [⟨⟨[], [['v', 'o', 'i', 'd']], []⟩, []⟩], none, some (.public_, ['A'])⟩).2
    ⟨by decide, fun p hp => by
      rw [List.mem_singleton.1 hp]
      exact Or.inr (Or.inl rfl)⟩
  exact absurd this (by decide)

/-- Partial: when no parameter is `void` or `...`; and a constructor which is said to be a default one always is. (Missing: constructors
with such parameters, which are not seen.) -/
theorem C116_default_partial (f : Fn) :
    (isDefault f = true ↔ isConstructor f = true ∧ ∀ p ∈ f.params, p.default ≠ []) ∧
    (isDefault f = true → ∀ p ∈ f.params, Optional p) ∧
    ((∀ p ∈ f.params, p.type.typenames ≠ [['v', 'o', 'i', 'd']] ∧ ['.', '.', '.'] ∉ p.type.modifiers) →
      (isDefault f = true ↔ isConstructor f = true ∧ ∀ p ∈ f.params, Optional p)) ∧
    (isDefaultZero f = true ↔ isConstructor f = true ∧ f.params = []) ∧
    (isDefaultZero f = true → isDefault f = true) := by
  have hd : isDefault f = true ↔ isConstructor f = true ∧ ∀ p ∈ f.params, p.default ≠ [] := by
    unfold isDefault
    cases isConstructor f with
    | false => simp
    | true =>
      rw [← countNoDefault_zero]
      simp
  have hz : isDefaultZero f = true ↔ isConstructor f = true ∧ f.params = [] := by
    unfold isDefaultZero
    cases isConstructor f with
    | false => simp
    | true => simp
  refine ⟨hd, fun h p hp => Or.inl ((hd.1 h).2 p hp), ?_, hz, ?_⟩
  · intro hp
    rw [hd]
    constructor
    · rintro ⟨h1, h2⟩; exact ⟨h1, fun p hq => Or.inl (h2 p hq)⟩
    · rintro ⟨h1, h2⟩
      refine ⟨h1, fun p hq => ?_⟩
      rcases h2 p hq with h | h | h
      · exact h
      · exact absurd (by rw [h]) (hp p hq).1
      · exact absurd h (hp p hq).2
  · intro h
    obtain ⟨h1, h2⟩ := hz.1 h
    exact hd.2 ⟨h1, by rw [h2]; simp⟩

/-- A function returns at most one of: a pointer, a pointer to a pointer, a reference; it returns one of them only if it has a return type.
The answers only depend on the stars and references of the type, not on its specifiers. -/
theorem C116_returns (f : Fn) :
    (returnsPointer f = true ↔ ∃ t, f.ret = some t ∧ t.modifiers = [['*']]) ∧
    (returnsReference f = true ↔ ∃ t, f.ret = some t ∧ t.modifiers = [['&']]) ∧
    (∀ t, f.ret = some t → t.modifiers = [['*'], ['*']] → returnsPointer2 f = true) ∧
    ¬ (returnsPointer f = true ∧ returnsReference f = true) ∧ ¬ (returnsPointer f = true ∧ returnsPointer2 f = true) ∧
    ¬ (returnsReference f = true ∧ returnsPointer2 f = true) ∧
    (f.ret = none → returnsPointer f = false ∧ returnsReference f = false ∧ returnsPointer2 f = false ∧ isStatic f = false) := by
  have hp : returnsPointer f = true ↔ ∃ t, f.ret = some t ∧ t.modifiers = [['*']] := by
    unfold returnsPointer
    cases f.ret with
    | none => simp
    | some t => simp
  have hr : returnsReference f = true ↔ ∃ t, f.ret = some t ∧ t.modifiers = [['&']] := by
    unfold returnsReference
    cases f.ret with
    | none => simp
    | some t => simp
  have h2 : returnsPointer2 f = true → ∃ t, f.ret = some t ∧ t.modifiers.count ['*'] = 2 := by
    unfold returnsPointer2
    cases f.ret with
    | none => intro h; cases h
    | some t => intro h; exact ⟨t, rfl, of_decide_eq_true h⟩
  refine ⟨hp, hr, ?_, ?_, ?_, ?_, ?_⟩
  · intro t ht hm
    unfold returnsPointer2
    rw [ht]
    simp only [hm]
    decide
  · rintro ⟨h3, h4⟩
    obtain ⟨t, e1, e2⟩ := hp.1 h3
    obtain ⟨t', e3, e4⟩ := hr.1 h4
    rw [e1] at e3; cases e3
    rw [e2] at e4
    exact absurd e4 (by decide)
  · rintro ⟨h3, h4⟩
    obtain ⟨t, e1, e2⟩ := hp.1 h3
    obtain ⟨t', e3, e4⟩ := h2 h4
    rw [e1] at e3; cases e3
    rw [e2] at e4
    exact absurd e4 (by decide)
  · rintro ⟨h3, h4⟩
    obtain ⟨t, e1, e2⟩ := hr.1 h3
    obtain ⟨t', e3, e4⟩ := h2 h4
    rw [e1] at e3; cases e3
    rw [e2] at e4
    exact absurd e4 (by decide)
  · intro h
    unfold returnsPointer returnsReference returnsPointer2 isStatic
    rw [h]
    exact ⟨rfl, rfl, rfl, rfl⟩

/-- Full statement: a method that is declared as virtual is seen as such. -/
def C116_virtual_statement : Prop :=
  ∀ f : Fn, isMethod f = true → "final".toList ∈ f.specifiers ∨ "override".toList ∈ f.specifiers ∨
    (∃ t, f.ret = some t ∧ "virtual".toList ∈ t.specifiers) → isVirtual f = true

/-- It fails: `void f() final;` must be virtual, and is not seen as such. -/
theorem C116_virtual_fails : ¬ C116_virtual_statement := by
  intro h
  have := h ⟨['f'], ["final".toList], some ⟨[], [['v', 'o', 'i', 'd']], []⟩, [], none, some (.public_, ['A'])⟩ rfl
    (Or.inl (by decide))
  exact absurd this (by decide +kernel)

/-- Partial: with `virtual` or `override`, exactly; a destructor (which has no return type) never is. (Missing: `final` alone.) -/
theorem C116_virtual_partial (f : Fn) (a : Access) (c : Str) (h : f.parent = some (a, c)) :
    (∀ t, f.ret = some t → (isVirtual f = true ↔ "virtual".toList ∈ t.specifiers ∨ "override".toList ∈ f.specifiers)) ∧
    (f.ret = none → isVirtual f = false) ∧
    (isStaticMethod f = true ↔ ∃ t, f.ret = some t ∧ "static".toList ∈ t.specifiers) := by
  have hm : isMethod f = true := by unfold isMethod; rw [h]; rfl
  refine ⟨?_, ?_, ?_⟩
  · intro t ht
    unfold isVirtual
    rw [hm, ht]
    simp only [Bool.not_true, Bool.false_eq_true, if_false, Bool.or_eq_true, decide_eq_true_eq]
  · intro ht
    unfold isVirtual
    rw [hm, ht]
    rfl
  · unfold isStaticMethod isStatic
    rw [hm, Bool.true_and]
    cases f.ret with
    | none => exact ⟨fun e => (by cases e), fun ⟨t, e, _⟩ => (by cases e)⟩
    | some t =>
      constructor
      · intro e; exact ⟨t, rfl, of_decide_eq_true e⟩
      · rintro ⟨t', e, h'⟩; cases e; exact decide_eq_true h'

/-- `A(int x = 1) noexcept( True )`: a default constructor that does not throw; `noexcept(noexcept(g()))` may throw; `~A()`. -/
example :
    let int_ : Ty := ⟨[], ["int".toList], []⟩
    let f : Fn := ⟨['A'], [], none, [⟨int_, ['1']⟩], some "( True )".toList, some (.public_, ['A'])⟩
    isNoexcept f = true ∧ isNoexcept { f with noexcept := some "(noexcept(g()))".toList } = false ∧
    isNoexcept { f with noexcept := some [] } = true ∧ isNoexcept { f with noexcept := none } = false ∧
    isConstructor f = true ∧ isDefault f = true ∧ isDefaultZero f = false ∧
    isDefault { f with params := [⟨int_, ['1']⟩, ⟨int_, []⟩] } = false ∧
    isDestructor { f with name := "~A".toList } = some true ∧ isDestructor { f with name := "~A".toList, parent := none } = none ∧
    returnsPointer { f with name := ['g'], ret := some ⟨["const".toList], ["int".toList], [['*']]⟩ } = true := by decide +kernel
example : startsWith "A".toList ['~'] = false ∧ Name.lower "True".toList = true_ := by decide +kernel

end Verif.FnKind.Props
