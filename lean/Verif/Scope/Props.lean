import Verif.Scope.Lemmas

/-! C21 scopes, C22 qualified code, C23 name lookup, C24 terse names. -/

namespace Verif.Scope
open Verif.Py Spec

/-! ## C21 -/

/-- The hierarchy of a scope is the list of its ancestors, from itself to the global scope. -/
theorem C21_hierarchy (s : CppScope) : scopeHierarchyList s = ancestors s :=
  hierarchyLoop_some _ _ (by omega)

/-- A scope can access exactly itself and its ancestors. -/
theorem C21_can_access (s other : CppScope) (hs : Path s) (ho : Path other) :
    canAccessScope s other = true ↔ other <+: s := by
  unfold canAccessScope
  rw [accessLoop_eq, hierarchyLoop_some _ _ (by omega), List.any_eq_true]
  constructor
  · rintro ⟨q, hq, he⟩
    rw [mem_ancestors] at hq
    unfold scopeEq at he
    rw [beq_iff_eq, strCpp_eq, strCpp_eq] at he
    rw [← text_inj (path_of_prefix hs hq) ho he]
    exact hq
  · intro h
    exact ⟨other, (mem_ancestors _ _).2 h, by simp [scopeEq]⟩

/-- Printing what was parsed gives the string back, for every string. -/
theorem C21_parse_print (s : Str) : strCpp (fromString s) = s := by
  rw [strCpp_eq]
  unfold fromString split
  show join colons _ = s
  rw [join_splitAux colons (by decide) s 0 [] (Nat.zero_le _)]
  simp

/-- Parsing what was printed gives the scope back, for every scope but the global one. -/
theorem C21_print_parse_partial (s : CppScope) (hs : Path s) (hne : s ≠ []) : fromString (strCpp s) = s := by
  rw [strCpp_eq]
  exact split_join_colons hne (fun l hl => (hs l hl).2)

/-- The full statement: a scope printed and parsed qualifies names as before. -/
def C21_print_parse_statement : Prop :=
  ∀ (s : CppScope) (name : Str), Path s → Name name →
    qualifiedName (fromString (strCpp s)) name = qualifiedName s name

/-- It is false of the global scope: `x` becomes `::x`. -/
theorem C21_print_parse_fails : ¬ C21_print_parse_statement := by
  intro h
  have := h [] "x".toList (fun _ h => nomatch h) ⟨by decide, by decide⟩
  revert this
  decide +kernel

/-- The names of a child scope are qualified by its own qualified name. -/
theorem C21_child_scope (s : CppScope) (child name : Str) :
    qualifiedName (makeChildScope s child) name = qualifiedName s child ++ "::".toList ++ name := by
  unfold qualifiedName makeChildScope
  rw [strCppPrefix_ne (by simp), text_eq]
  cases s with
  | nil => rfl
  | cons a as =>
    rw [join_append (by simp) (by simp), strCppPrefix_ne (by simp)]
    rfl

example : Path ["A".toList, "B".toList, "C".toList] ∧
    canAccessScope ["A".toList, "B".toList, "C".toList] ["A".toList, "B".toList] = true ∧
    canAccessScope ["A".toList, "BC".toList] ["A".toList, "B".toList] = false := by
  refine ⟨?_, by decide +kernel, by decide +kernel⟩
  intro n hn
  simp at hn
  rcases hn with rfl | rfl | rfl <;> exact ⟨by decide, by decide⟩

/-! ## C22 -/

/-- The ASCII characters of words: letters, digits and the underscore. -/
theorem C22_word_characters (u : Char → Bool) (c : Char) (h : c.toNat < 128) :
    isWordChar u c = true ↔
      c ∈ "abcdefghijklmnopqrstuvwxyzABCDEFGHIJKLMNOPQRSTUVWXYZ0123456789_".toList := by
  have key : ∀ n, n < 128 → (isWordChar (fun _ => false) (Char.ofNat n) = true ↔
      Char.ofNat n ∈ "abcdefghijklmnopqrstuvwxyzABCDEFGHIJKLMNOPQRSTUVWXYZ0123456789_".toList) := by decide +kernel
  have h1 := key c.toNat h
  rw [Char.ofNat_toNat] at h1
  rw [← h1]
  unfold isWordChar
  rw [if_pos h, if_pos h]

/-- Every code has a decomposition into words, string literals, comments and other characters. -/
theorem C22_lexed (u : Char → Bool) (code : Str) : ∃ segs, Lexed u segs ∧ render segs = code :=
  exists_lexed u code.length code (Nat.le_refl _)

/-- Only whole words are changed: literals, comments, punctuation and blanks are kept, in place — for
code where no word is immediately before a quote or `//`. (What a word becomes is said in C23.) -/
theorem C22_only_words_partial (u : Char → Bool) (ids : List Str) (scope : CppScope) (segs : List Seg)
    (h : Lexed u segs) (hl : Loose segs) :
    qualifyCppCode u ids (render segs) scope =
      mapWords (fun w => qualifyToken (scopeHierarchyPrefixList scope) ids w) segs :=
  scan_lexed u _ segs h hl

/-- With no known identifier, the code is unchanged (same restriction). -/
theorem C22_no_identifier_partial (u : Char → Bool) (scope : CppScope) (segs : List Seg)
    (h : Lexed u segs) (hl : Loose segs) : qualifyCppCode u [] (render segs) scope = render segs := by
  show scan u (qualifyToken (scopeHierarchyPrefixList scope) []) [] false false (render segs) = _
  rw [scan_lexed u _ segs h hl]
  unfold mapWords render
  congr 1
  funext s
  cases s <;> rfl

/-- With no known identifier, no character is lost or added, for every code. -/
theorem C22_no_identifier_chars (u : Char → Bool) (scope : CppScope) (code : Str) :
    (qualifyCppCode u [] code scope).Perm code := by
  have : qualifyToken (scopeHierarchyPrefixList scope) [] = id := rfl
  show (scan u (qualifyToken (scopeHierarchyPrefixList scope) []) [] false false code).Perm code
  rw [this]
  simpa using scan_perm u code.length [] false false code (Nat.le_refl _)

/-- The full statement. -/
def C22_only_words_statement : Prop :=
  ∀ (u : Char → Bool) (scope : CppScope) (code : Str), qualifyCppCode u [] code scope = code

/-- It is false: a word immediately before a string literal or a comment is moved after it. -/
theorem C22_only_words_fails : ¬ C22_only_words_statement := by
  intro h
  have := h (fun _ => false) [] "L\"abc\"".toList
  revert this
  decide +kernel

example : qualifyCppCode (fun _ => false) [] "L\"abc\"".toList [] = "\"abcL\"".toList := by decide +kernel
example : qualifyCppCode (fun _ => false) [] "f(a// c\n, b)".toList [] = "f(// c\na, b)".toList := by decide +kernel

/-- The hypotheses are met by ordinary code: `Foo("Foo")  // Foo`. -/
example : let segs : List Seg := [.word "Foo".toList, .sep '(', .str "Foo".toList, .sep ')', .sep ' ', .comment " Foo".toList]
    Lexed (fun _ => false) segs ∧ Loose segs ∧
    qualifyCppCode (fun _ => false) ["N::Foo".toList] (render segs) ["N".toList] = "N::Foo(\"Foo\") // Foo".toList := by
  refine ⟨?_, ?_, by decide +kernel⟩
  · refine ⟨.cons _ _ (by decide) (.cons _ _ (by decide) (.one _ (by decide))), ?_, ?_⟩
    · intro s hs; simp at hs; subst hs; rfl
    · refine ⟨by decide, by decide, by decide, by decide, by decide, by decide, by decide, by decide, by decide,
        by decide, by decide, by decide, by decide, by decide, ?_⟩
      exact ⟨Or.inl rfl, trivial⟩
  · exact ⟨Or.inr ⟨_, _, rfl⟩, trivial⟩

/-! ## C23 -/

/-- What replaces a token is found by looking names up from the current scope: an identifier that is
not accessible is never used. -/
theorem C23_only_accessible (ids : List Str) (scope : CppScope) (token : Str) :
    Lookups scope ids token (qualifyToken (scopeHierarchyPrefixList scope) ids token) :=
  qualify_lookups scope ids ids token (fun _ h => h)

/-- A token with no accessible identifier is unchanged. -/
theorem C23_not_found (ids : List Str) (scope : CppScope) (token : Str)
    (h : ∀ i, ¬ Accessible scope ids token i) :
    qualifyToken (scopeHierarchyPrefixList scope) ids token = token :=
  qualify_stable scope ids ids token (fun _ h => h) (fun i _ hi => absurd hi (h i))

/-- A token that is already globally qualified is unchanged. -/
theorem C23_global (ids : List Str) (scope : CppScope) (name : Str) :
    qualifyToken (scopeHierarchyPrefixList scope) ids ("::".toList ++ name) = "::".toList ++ name := by
  unfold qualifyToken
  have hm : ∀ i, tokenMatches i (scopeHierarchyPrefixList scope) ("::".toList ++ name) = false := by
    intro i
    unfold tokenMatches
    have : startsWith ("::".toList ++ name) colons = true := by simp [startsWith, colons]
    rw [if_pos this]
  induction ids with
  | nil => rfl
  | cons i ids ih => rw [List.foldl_cons, hm i]; exact ih

/-- The identifier used is the accessible one that was registered first, when no further lookup is
possible from it. -/
theorem C23_first_registered (before after : List Str) (i : Str) (scope : CppScope) (token : Str)
    (hg : ¬ "::".toList <+: token) (hi : Accessible scope (before ++ i :: after) token i)
    (hb : ∀ j ∈ before, ¬ Accessible scope (before ++ i :: after) token j)
    (ha : ∀ j ∈ after, Accessible scope (before ++ i :: after) i j → j = i) :
    qualifyToken (scopeHierarchyPrefixList scope) (before ++ i :: after) token = i := by
  rw [qualify_append, qualify_stable scope (before ++ i :: after) before token (fun j hj => by simp [hj])
    (fun j hj hh => absurd hh (hb j hj)), qualifyToken_cons,
    if_pos ((matches_iff_accessible hi.1).2 ⟨hg, hi⟩)]
  exact qualify_stable scope (before ++ i :: after) after i (fun j hj => by simp [hj]) ha

/-- The innermost accessible identifier is used, if it is the only one: this is what C++ does. -/
theorem C23_innermost_partial (ids : List Str) (i : Str) (scope : CppScope) (token : Str)
    (hg : ¬ "::".toList <+: token) (hi : Accessible scope ids token i)
    (hu : ∀ j, Accessible scope ids token j → j = i) (hs : ∀ j, Accessible scope ids i j → j = i) :
    qualifyToken (scopeHierarchyPrefixList scope) ids token = i := by
  obtain ⟨a, b, he⟩ := List.append_of_mem hi.1
  -- take the first occurrence of `i`
  have key : ∀ (l : List Str) (t : Str), (∀ x ∈ l, x ∈ ids) → (t = token ∨ t = i) →
      (i ∈ l ∨ t = i) → qualifyToken (scopeHierarchyPrefixList scope) l t = i := by
    intro l
    induction l with
    | nil =>
      intro t _ _ h
      rcases h with h | h
      · cases h
      · exact h
    | cons x l ih =>
      intro t hx ht h
      rw [qualifyToken_cons]
      by_cases hm : tokenMatches x (scopeHierarchyPrefixList scope) t = true
      · rw [if_pos hm]
        have hacc := ((matches_iff_accessible (hx x (by simp))).1 hm).2
        have hxi : x = i := by
          rcases ht with rfl | rfl
          · exact hu x hacc
          · exact hs x hacc
        exact ih x (fun y hy => hx y (by simp [hy])) (Or.inr hxi) (Or.inr hxi)
      · rw [if_neg hm]
        refine ih t (fun y hy => hx y (by simp [hy])) ht ?_
        rcases h with h | h
        · rcases List.mem_cons.1 h with rfl | h
          · rcases ht with rfl | rfl
            · exact absurd ((matches_iff_accessible hi.1).2 ⟨hg, hi⟩) hm
            · exact Or.inr rfl
          · exact Or.inl h
        · exact Or.inr h
  exact key ids token (fun _ h => h) (Or.inl rfl) (Or.inl hi.1)

/-- The full statement: the identifier of the innermost scope is used. -/
def C23_innermost_statement : Prop :=
  ∀ (ids : List Str) (scope p : CppScope) (token : Str), ¬ "::".toList <+: token → p <+: scope →
    pathPrefix p ++ token ∈ ids →
    (∀ q, q <+: scope → p.length < q.length → pathPrefix q ++ token ∉ ids) →
    qualifyToken (scopeHierarchyPrefixList scope) ids token = pathPrefix p ++ token

/-- It is false: from `A::B`, `Foo` becomes `A::Foo` although there is an `A::B::Foo`, if `A::Foo` was
registered first. -/
theorem C23_innermost_fails : ¬ C23_innermost_statement := by
  intro h
  have := h ["A::Foo".toList, "A::B::Foo".toList] ["A".toList, "B".toList] ["A".toList, "B".toList] "Foo".toList
    (by decide) (List.prefix_refl _) (by decide +kernel)
    (fun q hq hl => absurd hq.length_le (by omega))
  revert this
  decide +kernel

example : qualifyToken (scopeHierarchyPrefixList ["A".toList, "B".toList]) ["A::Foo".toList, "A::B::Foo".toList]
    "Foo".toList = "A::Foo".toList := by decide +kernel

/-- The hypotheses of `C23_innermost_partial` on a concrete case. -/
example : Accessible ["A".toList, "B".toList] ["A::Foo".toList, "C::Foo".toList] "Foo".toList "A::Foo".toList :=
  ⟨by decide, ["A".toList], ⟨["B".toList], rfl⟩, by decide⟩

/-! ## C24 -/

/-- The terse form of an identifier is obtained by removing whole parts from its left, which are
consecutive parts of the current scope; the name itself is kept. -/
theorem C24_parts_removed (scope idp : List Str) (hs : Path scope) (hi : Path idp) (hne : idp ≠ []) :
    ∃ removed rest, idp = removed ++ rest ∧ rest ≠ [] ∧ removed <:+: scope ∧
      makeTerse (strCppPrefix scope) (text idp) = text rest := by
  have hcut : ∃ k, cutScope (idp.headD []) (scope ++ [[]]) = (scope ++ [[]]).drop k := by
    unfold cutScope
    split
    · exact ⟨_, rfl⟩
    · exact ⟨0, rfl⟩
  obtain ⟨k, hk⟩ := hcut
  have hlast : ∀ (X R : List Str), X <:+: scope ++ [[]] → idp = X ++ R → X <:+: scope := by
    rintro X R ⟨a, b, he⟩ hX
    rcases List.eq_nil_or_concat b with hb | ⟨b', x, hb⟩
    · subst hb
      rw [List.append_nil] at he
      rcases List.eq_nil_or_concat X with hx | ⟨X', x, hx⟩
      · subst hx; exact ⟨[], scope, by simp⟩
      · exfalso
        subst hx
        rw [List.concat_eq_append, ← List.append_assoc] at he
        have := (List.append_inj' he rfl).2
        simp only [List.cons.injEq, and_true] at this
        apply (hi x (by rw [hX]; simp)).1
        rw [this]
    · subst hb
      rw [List.concat_eq_append, ← List.append_assoc] at he
      have := (List.append_inj' he rfl).1
      exact ⟨a, b', this⟩
  rcases makeTerse_cases scope idp hs hi hne with ⟨m, R, h1, h2, h3, h4, h5, _⟩ | ⟨_, ⟨i, R, h1, h2, h3, h4⟩ | h4⟩
  · refine ⟨_, R, h4, h3, hlast _ R ?_ h4, h5⟩
    rw [hk]
    exact ((List.take_prefix _ _).isInfix).trans (List.drop_suffix _ _).isInfix
  · refine ⟨_, R, h3, h2, hlast _ R ?_ h3, h4⟩
    rw [hk]
    exact ((List.drop_suffix _ _).isInfix).trans (List.drop_suffix _ _).isInfix
  · exact ⟨[], idp, rfl, hne, ⟨[], scope, by simp⟩, h4⟩

/-- The terse form of an identifier, looked up from the current scope, gives the identifier back, and
it is the shortest one with that property — when the outermost part of the identifier is not also the
name of an inner part of the current scope. -/
theorem C24_same_entity_partial (scope idp : List Str) (hs : Path scope) (hi : Path idp) (hne : idp ≠ [])
    (hclash : ∀ n, idp.head? = some n → n ∉ scope.tail) :
    ∃ p rest, p <+: scope ∧ idp = p ++ rest ∧ rest ≠ [] ∧
      makeTerse (strCppPrefix scope) (text idp) = text rest ∧
      pathPrefix p ++ makeTerse (strCppPrefix scope) (text idp) = text idp ∧
      (∀ p' rest', p' <+: scope → idp = p' ++ rest' → rest' ≠ [] → p'.length ≤ p.length) := by
  obtain ⟨n, idt, rfl⟩ : ∃ n idt, idp = n :: idt := by
    cases idp with
    | nil => exact absurd rfl hne
    | cons n idt => exact ⟨n, idt, rfl⟩
  have hn := hclash n rfl
  have hnn := (hi n (by simp)).1
  have hcut : cutScope n (scope ++ [[]]) = scope ++ [[]] := by
    unfold cutScope
    split
    · rename_i hm
      cases scope with
      | nil => simp at hm; exact absurd hm hnn
      | cons a as =>
        have : n = a := by
          rcases List.mem_append.1 hm with hm | hm
          · rcases List.mem_cons.1 hm with hm | hm
            · exact hm
            · exact absurd hm hn
          · simp at hm; exact absurd hm hnn
        subst this
        simp [List.idxOf_cons_self]
    · rfl
  have hpre : ∀ p rest, p <+: scope → n :: idt = p ++ rest → rest ≠ [] → ∀ r, r = text rest →
      pathPrefix p ++ r = text (n :: idt) := by
    intro p rest _ he hr r hrr
    rw [hrr, he]
    by_cases hp : p = []
    · subst hp; rfl
    · unfold pathPrefix
      rw [if_neg hp]
      exact (join_append hp hr).symm
  have h := makeTerse_cases scope (n :: idt) hs hi hne
  simp only [List.headD_cons, hcut] at h
  rcases h with ⟨m, R, h1, h2, h3, h4, h5, h6⟩ | ⟨h0, ⟨i, R, h1, h2, h3, h4⟩ | h4⟩
  · simp only [List.length_append, List.length_cons, List.length_nil, Nat.zero_add] at h1 h6
    rw [List.take_append_of_le_length (by omega)] at h4
    refine ⟨scope.take m, R, List.take_prefix _ _, h4, h3, h5, hpre _ R (List.take_prefix _ _) h4 h3 _ h5, ?_⟩
    intro p' rest' hp' he hr'
    rw [List.length_take, Nat.min_eq_left (by omega)]
    rcases Nat.lt_or_ge m p'.length with hlt | hge
    · exfalso
      have hl := hp'.length_le
      apply h6 p'.length hlt (by omega) rest' hr'
      rw [List.take_append_of_le_length hl, ← List.prefix_iff_eq_take.1 hp']
      exact he
    · exact hge
  · exact absurd h3 (fun h => no_suffix h1 (by simp) hi h)
  · refine ⟨[], n :: idt, List.nil_prefix, rfl, hne, h4, hpre [] _ List.nil_prefix rfl hne _ h4, ?_⟩
    intro p' rest' hp' he hr'
    rcases Nat.eq_zero_or_pos p'.length with h | h
    · omega
    · exfalso
      have hl := hp'.length_le
      simp only [List.length_append, List.length_cons, List.length_nil, Nat.zero_add] at h0
      apply h0 p'.length h (by omega) rest' hr'
      rw [List.take_append_of_le_length hl, ← List.prefix_iff_eq_take.1 hp']
      exact he

/-- The full statement. -/
def C24_same_entity_statement : Prop :=
  ∀ scope idp : List Str, Path scope → Path idp → idp ≠ [] →
    ∃ p, p <+: scope ∧ pathPrefix p ++ makeTerse (strCppPrefix scope) (text idp) = text idp

/-- It is false: in `A::B`, the global `B::x` becomes `x`, which is not `B::x` but may be `A::B::x`. -/
theorem C24_same_entity_fails : ¬ C24_same_entity_statement := by
  intro h
  have hp : ∀ l : List Str, (∀ n ∈ l, n ∈ ["A".toList, "B".toList, "x".toList]) → Path l := by
    intro l hl n hn
    have := hl n hn
    simp at this
    rcases this with rfl | rfl | rfl <;> exact ⟨by decide, by decide⟩
  obtain ⟨p, h1, h2⟩ := h ["A".toList, "B".toList] ["B".toList, "x".toList]
    (hp _ (by decide)) (hp _ (by decide)) (by simp)
  rw [← mem_ancestors] at h1
  have : ∀ p ∈ ancestors ["A".toList, "B".toList],
      pathPrefix p ++ makeTerse (strCppPrefix ["A".toList, "B".toList]) (text ["B".toList, "x".toList])
        ≠ text ["B".toList, "x".toList] := by decide +kernel
  exact this p h1 h2

example : makeTerse (strCppPrefix ["A".toList, "B".toList]) "B::x".toList = "x".toList := by decide +kernel

/-- A concrete case of `C24_same_entity_partial`. -/
example : makeTerse (strCppPrefix ["N0".toList, "N1".toList, "N2".toList]) "N0::N1::S::x".toList = "S::x".toList := by
  decide +kernel

/-- Terse code: only whole words are changed (with the restriction of C22). -/
theorem C24_only_words_partial (u : Char → Bool) (scope : CppScope) (segs : List Seg)
    (h : Lexed u segs) (hl : Loose segs) :
    makeTerseCode u (render segs) (strCppPrefix scope) = mapWords (makeTerse (strCppPrefix scope)) segs :=
  scan_lexed u _ segs h hl

end Verif.Scope
