import Verif.Base.Lemmas

/-! # Class lookup and inherited virtual methods

Property C28. -/

namespace Verif.Base.Props
open Verif.Py Verif.Scope Verif.Base Verif.Base.Spec

/-- The class found has the requested name: the part of the request after the last `::`. -/
theorem C28_name (structs : List Struct) (qualifiers : List Str) (name : Str) (current : List Str) (i : Nat)
    (hq : ∀ x ∈ qualifiers, ':' ∉ x) (hn : ':' ∉ name)
    (h : findStruct structs (join colons (qualifiers ++ [name])) current = some i) :
    ∃ s, structs[i]? = some s ∧ s.name = name := by
  obtain ⟨hlt, hp, _⟩ := List.findIdx?_eq_some_iff_getElem.1 h
  refine ⟨structs[i], List.getElem?_eq_getElem hlt, ?_⟩
  unfold isFound at hp
  simp only [Bool.and_eq_true, decide_eq_true_eq] at hp
  rw [hp.1]
  have hall : ∀ x ∈ qualifiers ++ [name], ':' ∉ x := by
    intro x hx
    rcases List.mem_append.1 hx with hx | hx
    · exact hq x hx
    · simp at hx; subst hx; exact hn
  unfold requested
  by_cases hc : contains (join colons (qualifiers ++ [name])) colons = true
  · rw [if_pos hc, split_join_colons (by simp) hall]
    simp
  · rw [if_neg hc]
    cases qualifiers with
    | nil => rfl
    | cons q qs =>
      exfalso
      apply hc
      rw [Scope.join_append (by simp) (by simp), contains_iff]
      exact ⟨join colons (q :: qs), join colons [name], rfl⟩

/-- The full property: the class found is declared in a scope from which the requested name is visible, that is
the qualifiers of the request inside a scope around the current one. -/
def C28_visible_statement : Prop :=
  ∀ (structs : List Struct) (qualifiers : List Str) (name : Str) (current : List Str) (i : Nat) (s : Struct),
    (∀ x ∈ qualifiers, Ident x) → Ident name → (∀ x ∈ current, Ident x) →
    findStruct structs (join colons (qualifiers ++ [name])) current = some i → structs[i]? = some s →
    ∃ outer, outer <+: current ∧ s.scope = outer ++ qualifiers

/-- It fails: from the scope `AB`, the name `C` finds the class `A::C`. -/
theorem C28_visible_fails : ¬ C28_visible_statement := by
  intro h
  obtain ⟨outer, h1, h2⟩ := h [⟨['C'], [['A']], [], []⟩] [] ['C'] [['A', 'B']] 0 _ (by simp) (by simp [Ident])
    (by simp [Ident]) (by decide +kernel) rfl
  simp at h2
  subst h2
  obtain ⟨r, hr⟩ := h1
  simp at hr

/-- It also fails with qualifiers: `A::C` finds the global class `C` declared before the class `A::C`. -/
theorem C28_qualified_fails :
    findStruct [⟨['C'], [], [], []⟩, ⟨['C'], [['A']], [], []⟩] "A::C".toList [] = some 0 := by decide +kernel

/-- What holds: for a name without qualifiers, the class found is global, or its scope is an enclosing scope of
the current one, up to its last part, of which it is only a prefix. Missing: the last part is compared as a
prefix of a text, and qualifiers are not followed. -/
theorem C28_visible_partial (structs : List Struct) (name : Str) (current : List Str) (i : Nat) (s : Struct)
    (hn : Ident name) (hcur : ∀ x ∈ current, Ident x) (hs : ∀ x ∈ s.scope, Ident x)
    (h : findStruct structs name current = some i) (hi : structs[i]? = some s) :
    s.name = name ∧ (s.scope = [] ∨
      ∃ outer last last', s.scope = outer ++ [last] ∧ outer ++ [last'] <+: current ∧ last <+: last') := by
  have hname := C28_name structs [] name current i (by simp) hn.2 h
  obtain ⟨s', hs', hnm⟩ := hname
  rw [hi] at hs'
  cases hs'
  refine ⟨hnm, ?_⟩
  obtain ⟨hlt, hp, _⟩ := List.findIdx?_eq_some_iff_getElem.1 h
  have hse : structs[i] = s := by rw [List.getElem?_eq_getElem hlt] at hi; exact Option.some.inj hi
  unfold isFound at hp
  rw [hse] at hp
  simp only [Bool.and_eq_true, decide_eq_true_eq] at hp
  have hreq : requested name = (name, []) := by
    unfold requested
    rw [if_neg (by rw [not_contains_colons hn.2]; simp)]
  rw [hreq] at hp
  obtain ⟨t, ht, hpre⟩ := List.any_eq_true.1 hp.2
  rcases List.eq_nil_or_concat s.scope with he | ⟨outer, last, he⟩
  · exact Or.inl he
  · right
    rw [List.concat_eq_append] at he
    rw [he] at hs
    have hnil : ¬ join colons (outer ++ [last]) <+: [] := by
      intro hb
      have hb := List.prefix_nil.1 hb
      cases outer with
      | nil => exact (hs last (by simp)).1 hb
      | cons o os => rw [Scope.join_append (by simp) (by simp)] at hb; simp [colons] at hb
    have hpre := List.isPrefixOf_iff_prefix.1 hpre
    rw [he] at hpre
    unfold searchedScopes at ht
    have hfin : join colons (outer ++ [last]) <+: join colons current ++ colons → current ≠ [] →
        ∃ outer_1 last_1 last', s.scope = outer_1 ++ [last_1] ∧ outer_1 ++ [last'] <+: current ∧ last_1 <+: last' := by
      intro hpre hne
      obtain ⟨l', g1, g2⟩ := scope_prefix outer last current hs hcur hne hpre
      exact ⟨outer, last, l', he, g1, g2⟩
    by_cases hc : (join colons current).length > 0
    · rw [if_pos hc] at ht
      simp only [List.mem_cons, List.not_mem_nil, or_false] at ht
      rcases ht with rfl | rfl
      · exact absurd hpre hnil
      · rw [List.append_nil] at hpre
        apply hfin hpre
        rintro rfl
        simp [join] at hc
    · rw [if_neg hc] at ht
      simp only [List.mem_singleton] at ht
      subst ht
      exact absurd hpre hnil

/-- A class of the requested name declared in an enclosing scope is always found, unless another one was found
before. -/
theorem C28_found (structs : List Struct) (name : Str) (current : List Str) (j : Nat) (s : Struct)
    (hn : Ident name) (hcur : ∀ x ∈ current, Ident x) (hj : structs[j]? = some s) (hname : s.name = name)
    (hscope : s.scope <+: current) : ∃ i, findStruct structs name current = some i ∧ i ≤ j := by
  have hf : isFound name current s = true := by
    unfold isFound
    have hreq : requested name = (name, []) := by
      unfold requested
      rw [if_neg (by rw [not_contains_colons hn.2]; simp)]
    rw [hreq, Bool.and_eq_true, decide_eq_true_eq, List.any_eq_true]
    refine ⟨hname, ?_⟩
    cases current with
    | nil =>
      have : s.scope = [] := List.prefix_nil.1 hscope
      rw [this]
      exact ⟨[], by simp [searchedScopes, join], by decide⟩
    | cons c cs =>
      refine ⟨join colons (c :: cs) ++ colons ++ [], ?_, ?_⟩
      · unfold searchedScopes
        rw [if_pos]
        · simp
        · have := (hcur c (by simp)).1
          cases cs with
          | nil => exact List.length_pos_iff.2 this
          | cons d ds =>
            rw [join_cons_cons]
            have := List.length_pos_iff.2 this
            simp only [List.length_append]; omega
      · rw [List.append_nil]
        exact List.isPrefixOf_iff_prefix.2 (join_prefix _ _ hscope (by simp))
  obtain ⟨hlt, hse⟩ := List.getElem?_eq_some_iff.1 hj
  cases h : findStruct structs name current with
  | none =>
    unfold findStruct at h
    rw [List.findIdx?_eq_none_iff] at h
    have := h s (by rw [← hse]; exact List.getElem_mem hlt)
    rw [hf] at this; cases this
  | some i =>
    refine ⟨i, rfl, ?_⟩
    obtain ⟨_, _, hlast⟩ := List.findIdx?_eq_some_iff_getElem.1 h
    by_cases hij : i ≤ j
    · exact hij
    · have := hlast j (by omega)
      rw [hse, hf] at this
      simp at this

/-- The full property: a class is never reported as one of its own bases. -/
def C28_own_base_statement : Prop :=
  ∀ (structs : List Struct) (i : Nat) (s : Struct), structs[i]? = some s → i ∉ baseClasses structs s

/-- It fails for `struct B::Foo : public A::Foo` when the header does not contain `A::Foo`... -/
theorem C28_own_base_fails : ¬ C28_own_base_statement := by
  intro h
  exact h [⟨"Foo".toList, [], ["A::Foo".toList], []⟩] 0 _ rfl (by decide +kernel)

/-- ... and then collecting the virtual methods never ends, whatever the recursion depth allowed. -/
theorem C28_terminates_fails :
    ∀ fuel, virtualMethods [⟨"Foo".toList, [], ["A::Foo".toList], []⟩] true fuel 0 = none := by
  intro fuel
  induction fuel with
  | zero => rfl
  | succ fuel ih =>
    have hb : baseClasses [⟨"Foo".toList, [], ["A::Foo".toList], []⟩] ⟨"Foo".toList, [], ["A::Foo".toList], []⟩ = [0] := by
      decide +kernel
    unfold virtualMethods
    simp only [List.getElem?_cons_zero]
    rw [hb]
    exact addBases_none _ _ _ ⟨0, by simp, ih⟩

/-- What holds: a class is not its own base if it does not have the name of one of its bases. -/
theorem C28_own_base_partial (structs : List Struct) (i : Nat) (s : Struct) (hi : structs[i]? = some s)
    (hs : ∀ super ∈ s.supers, ∃ qualifiers name, super = join colons (qualifiers ++ [name]) ∧
      (∀ x ∈ qualifiers, ':' ∉ x) ∧ ':' ∉ name ∧ name ≠ s.name) : i ∉ baseClasses structs s := by
  intro hm
  obtain ⟨super, h1, h2⟩ := List.mem_filterMap.1 hm
  obtain ⟨q, n, rfl, hq, hn, hne⟩ := hs super h1
  obtain ⟨s', hs', hnm⟩ := C28_name structs q n s.scope i hq hn h2
  rw [hi] at hs'
  cases hs'
  exact hne hnm.symm

/-- Collecting the virtual methods terminates when every class comes after its bases, for any number of
classes. Missing: the lookup may give a base that comes later, or the class itself (see above). -/
theorem C28_terminates_partial (structs : List Struct) (flag : Bool)
    (hord : ∀ i s, structs[i]? = some s → ∀ b ∈ baseClasses structs s, b < i) :
    ∀ i fuel, i < fuel → virtualMethods structs flag fuel i ≠ none := by
  intro i
  induction i using Nat.strongRecOn with
  | ind i ih =>
    intro fuel hf
    cases fuel with
    | zero => omega
    | succ fuel =>
      unfold virtualMethods
      split
      · simp
      · rename_i s hs
        apply addBases_some
        intro b hb
        have := hord i s hs b hb
        exact ih b this fuel (by omega)

/-- What is collected: only virtual methods of the class and of its ancestors. -/
theorem C28_virtual_sound (structs : List Struct) (flag : Bool) : ∀ (fuel i : Nat) (ms : List Method),
    virtualMethods structs flag fuel i = some ms →
    ∀ m ∈ ms, m.virtual = true ∧ ∃ j s, Ancestor structs i j ∧ structs[j]? = some s ∧ m ∈ s.methods := by
  intro fuel
  induction fuel with
  | zero => intro i ms h; cases h
  | succ fuel ih =>
    intro i ms h m hm
    unfold virtualMethods at h
    split at h
    · cases h; simp at hm
    · rename_i s hs
      have key : ∀ (bs : List Nat) (cur out : List Method), addBases (virtualMethods structs flag fuel) cur bs = some out →
          (∀ b ∈ bs, b ∈ baseClasses structs s) → (∀ m ∈ cur, allMethods structs i m) → ∀ m ∈ out, allMethods structs i m := by
        intro bs
        induction bs with
        | nil => intro cur out h _ hc; simp only [addBases, Option.some.injEq] at h; subst h; exact hc
        | cons b bs ihb =>
          intro cur out h hb hc
          unfold addBases at h
          cases hr : virtualMethods structs flag fuel b with
          | none => rw [hr] at h; cases h
          | some bms =>
            rw [hr] at h
            simp only [] at h
            apply ihb _ out h (fun b' hb' => hb b' (by simp [hb']))
            have hbms : ∀ m ∈ bms, allMethods structs i m := by
              intro m hm
              obtain ⟨hv, j, s', ha, hj, hmem⟩ := ih b bms hr m hm
              exact ⟨hv, j, s', .base i b j s hs (hb b (by simp)) ha, hj, hmem⟩
            have hfold : ∀ (l cur : List Method), (∀ m ∈ l, allMethods structs i m) → (∀ m ∈ cur, allMethods structs i m) →
                ∀ m ∈ l.foldl addMethod cur, allMethods structs i m := by
              intro l
              induction l with
              | nil => intro cur _ hc; exact hc
              | cons x l ihl =>
                intro cur hl hc
                rw [List.foldl_cons]
                apply ihl _ (fun m hm => hl m (by simp [hm]))
                intro m hm
                unfold addMethod at hm
                split at hm
                · exact hc m hm
                · rcases List.mem_append.1 hm with hm | hm
                  · exact hc m hm
                  · simp at hm; subst hm; exact hl _ (by simp)
            exact hfold bms cur hbms hc
      refine key _ _ _ h (fun b hb => hb) ?_ m hm
      intro m hm
      obtain ⟨h1, h2⟩ := List.mem_filter.1 hm
      exact ⟨h2, i, s, .self i, hs, h1⟩

/-- Nothing is forgotten: every virtual method of an ancestor is there, or one that overrides it. -/
theorem C28_virtual_complete (structs : List Struct) (flag : Bool) : ∀ (fuel i : Nat) (ms : List Method),
    virtualMethods structs flag fuel i = some ms →
    ∀ j s m, Ancestor structs i j → structs[j]? = some s → m ∈ s.methods → m.virtual = true →
    ∃ p ∈ ms, SameSignature p m := by
  intro fuel
  induction fuel with
  | zero => intro i ms h; cases h
  | succ fuel ih =>
    intro i ms h j s m ha hj hm hv
    unfold virtualMethods at h
    cases hi : structs[i]? with
    | none =>
      cases ha with
      | self => rw [hi] at hj; cases hj
      | base _ b _ s' hs => rw [hi] at hs; cases hs
    | some si =>
      rw [hi] at h
      simp only [] at h
      have hsrc : ∀ b ∈ baseClasses structs si, ∀ bms, virtualMethods structs flag fuel b = some bms → ∀ m ∈ bms,
          m ∈ (baseClasses structs si).flatMap (fun b => (virtualMethods structs flag fuel b).getD []) := by
        intro b hb bms hbms m hm
        refine List.mem_flatMap.2 ⟨b, hb, ?_⟩
        rw [hbms]; exact hm
      obtain ⟨_, h2, h3⟩ := addBases_spec (virtualMethods structs flag fuel)
        (own := si.methods.filter Method.virtual) (src := _) (baseClasses structs si) _ ms h
        ⟨[], by simp, by simp, by simp, List.Pairwise.nil⟩ hsrc
      cases ha with
      | self =>
        rw [hi] at hj
        cases hj
        exact ⟨m, h2 m (List.mem_filter.2 ⟨hm, hv⟩), rfl, rfl⟩
      | base _ b _ s' hs hb ha =>
        rw [hi] at hs
        cases hs
        obtain ⟨bms, hbms, hcov⟩ := h3 b hb
        obtain ⟨p, hp, hps⟩ := ih b bms hbms j s m ha hj hm hv
        obtain ⟨p', hp', hps'⟩ := hcov p hp
        exact ⟨p', hp', hps'.1.trans hps.1, hps'.2.trans hps.2⟩

/-- The own methods of the class come first, and hide the inherited ones: no inherited method has the signature
of another method of the list. -/
theorem C28_virtual_override (structs : List Struct) (flag : Bool) (fuel i : Nat) (s : Struct) (ms : List Method)
    (hs : structs[i]? = some s) (h : virtualMethods structs flag fuel i = some ms) :
    ∃ inherited, ms = s.methods.filter Method.virtual ++ inherited ∧
      (∀ m ∈ inherited, ∀ p ∈ s.methods, p.virtual = true → ¬ SameSignature p m) ∧
      inherited.Pairwise (fun a b => ¬ SameSignature a b) := by
  cases fuel with
  | zero => cases h
  | succ fuel =>
    unfold virtualMethods at h
    rw [hs] at h
    simp only [] at h
    have hsrc : ∀ b ∈ baseClasses structs s, ∀ bms, virtualMethods structs flag fuel b = some bms → ∀ m ∈ bms,
        m ∈ (baseClasses structs s).flatMap (fun b => (virtualMethods structs flag fuel b).getD []) := by
      intro b hb bms hbms m hm
      refine List.mem_flatMap.2 ⟨b, hb, ?_⟩
      rw [hbms]; exact hm
    obtain ⟨⟨rest, h1, _, h2, h3⟩, _⟩ := addBases_spec (virtualMethods structs flag fuel)
      (own := s.methods.filter Method.virtual) (src := _) (baseClasses structs s) _ ms h
      ⟨[], by simp, by simp, by simp, List.Pairwise.nil⟩ hsrc
    exact ⟨rest, h1, fun m hm p hp hv => h2 m hm p (List.mem_filter.2 ⟨hp, hv⟩), h3⟩

/-- The argument that asks for the inherited methods changes nothing. -/
def C28_own_methods_only_statement : Prop :=
  ∀ (structs : List Struct) (fuel i : Nat) (s : Struct) (ms : List Method), structs[i]? = some s →
    virtualMethods structs false fuel i = some ms → ms = s.methods.filter Method.virtual

theorem C28_own_methods_only_fails : ¬ C28_own_methods_only_statement := by
  intro h
  have := h [⟨"A".toList, [], [], [⟨"f".toList, [], true⟩]⟩, ⟨"B".toList, [], ["A".toList], []⟩] 2 1 _
    [⟨"f".toList, [], true⟩] rfl (by decide +kernel)
  revert this
  decide +kernel

/-- Three classes in namespaces; the overridden method of the base is left out. -/
def sample : List Struct :=
  [⟨"A".toList, ["N".toList], [], [⟨"f".toList, "int".toList, true⟩, ⟨"g".toList, [], true⟩, ⟨"h".toList, [], false⟩]⟩,
   ⟨"B".toList, ["N".toList], ["A".toList], [⟨"f".toList, "int".toList, true⟩]⟩,
   ⟨"C".toList, ["N".toList, "M".toList], ["B".toList], [⟨"k".toList, [], true⟩]⟩]

example : virtualMethods sample true 3 2 =
    some [⟨"k".toList, [], true⟩, ⟨"f".toList, "int".toList, true⟩, ⟨"g".toList, [], true⟩] := by decide +kernel
example : findStruct sample "B".toList ["N".toList, "M".toList] = some 1 := by decide +kernel
example : ∀ i s, sample[i]? = some s → ∀ b ∈ baseClasses sample s, b < i := by
  intro i s hs b hb
  match i with
  | 0 => cases hs; revert b; decide +kernel
  | 1 => cases hs; revert b; decide +kernel
  | 2 => cases hs; revert b; decide +kernel
  | n + 3 => simp [sample] at hs

end Verif.Base.Props
