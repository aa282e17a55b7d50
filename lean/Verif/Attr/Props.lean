import Verif.Attr.Spec
import Verif.Type.Props

/-! # Attributes of a module

Property C121. -/

namespace Verif.Attr.Props
open Verif.Py Verif.Type Verif.Type.Spec Verif.Template Verif.Attr Verif.Attr.Spec

theorem contains_iff_infix (s p : Str) : contains s p = true ↔ p <:+: s := by
  rw [contains_iff]
  exact ⟨fun ⟨a, b, h⟩ => ⟨a, b, h.symm⟩, fun ⟨a, b, h⟩ => ⟨a, b, h.symm⟩⟩

theorem last_append {α : Type} (a : List α) {b : List α} (h : b ≠ []) : (a ++ b).getLast? = b.getLast? := by
  rw [List.getLast?_append]
  cases hb : b.getLast? with
  | none => exact absurd (List.getLast?_eq_none_iff.1 hb) h
  | some x => rfl

/-! ### removing a word -/

/-- A word which does not end with the wanted one is kept. -/
theorem replace_word (q new : Str) (hq : q ≠ []) (hb : ' ' ∉ q) : ∀ (w rest : Str), contains (w ++ [' ']) (q ++ [' ']) = false →
    replace (w ++ ' ' :: rest) (q ++ [' ']) new = w ++ ' ' :: replace rest (q ++ [' ']) new
  | [], rest, _ => by
    rw [List.nil_append, List.nil_append]
    apply replace_no_match
    rintro ⟨t, ht⟩
    cases q with
    | nil => exact hq rfl
    | cons x xs =>
      rw [List.cons_append, List.cons_append] at ht
      exact hb (by rw [(List.cons.inj ht).1]; exact List.mem_cons_self)
  | c :: cs, rest, h => by
    have hc : contains (cs ++ [' ']) (q ++ [' ']) = false := by
      rw [List.cons_append] at h
      simp only [contains, Bool.or_eq_false_iff] at h
      exact h.2
    have hp : ¬ (q ++ [' ']) <+: (c :: (cs ++ [' '])) := by
      intro hp
      rw [List.cons_append] at h
      simp only [contains, Bool.or_eq_false_iff] at h
      rw [← List.isPrefixOf_iff_prefix] at hp
      rw [hp] at h
      exact absurd h.1 (by simp)
    rw [List.cons_append, replace_no_match, replace_word q new hq hb cs rest hc]
    · rfl
    · intro hp2
      have hx : (c :: (cs ++ [' '])) <+: (c :: (cs ++ ' ' :: rest)) := ⟨rest, by simp⟩
      rcases List.prefix_or_prefix_of_prefix hp2 hx with h3 | h3
      · exact hp h3
      · rcases List.prefix_concat_iff.1 h3 with h4 | h4
        · exact hp (by rw [h4]; exact List.prefix_refl _)
        · exact hb (h4.subset (by simp))

theorem not_contains_of_append {a b p : Str} (h : contains (a ++ b) p = false) : contains a p = false := by
  cases hc : contains a p with
  | false => rfl
  | true =>
    rw [contains_iff_infix] at hc
    have : contains (a ++ b) p = true := (contains_iff_infix ..).2 (hc.trans (List.infix_append [] a b))
    rw [h] at this
    exact absurd this (by simp)

/-- All the words equal to the wanted one go away, if it is not the last one. -/
theorem replace_words (q : Str) (hq : q ≠ []) (hb : ' ' ∉ q) : ∀ (ws : List Str), (∀ w ∈ ws, w = q ∨ contains (w ++ [' ']) (q ++ [' ']) = false) →
    ws.getLast? ≠ some q → replace (join [' '] ws) (q ++ [' ']) [] = join [' '] (ws.filter (fun w => decide (w ≠ q)))
  | [], _, _ => rfl
  | [w], h, hl => by
    have hw : w ≠ q := fun e => hl (by rw [e]; rfl)
    have hc := (h w (by simp)).resolve_left hw
    rw [List.filter_cons, if_pos (by simpa using hw)]
    show replace w _ _ = w
    exact replace_of_not_contains (not_contains_of_append hc)
  | w :: v :: ws, h, hl => by
    have hl2 : (v :: ws).getLast? ≠ some q := by rwa [List.getLast?_cons_cons] at hl
    have ih := replace_words q hq hb (v :: ws) (fun x hx => h x (List.mem_cons_of_mem _ hx)) hl2
    have hj : join [' '] (w :: v :: ws) = w ++ ' ' :: join [' '] (v :: ws) := by
      show w ++ [' '] ++ _ = _
      rw [List.append_assoc]
      rfl
    rw [hj]
    by_cases hw : w = q
    · subst hw
      rw [show w ++ ' ' :: join [' '] (v :: ws) = (w ++ [' ']) ++ join [' '] (v :: ws) by simp, replace_match (by simp), ih, List.nil_append,
        List.filter_cons (x := w), if_neg (by simp)]
    · rw [replace_word q [] hq hb w _ ((h w (by simp)).resolve_left hw), ih, List.filter_cons (x := w), if_pos (by simpa using hw)]
      cases hf : (v :: ws).filter (fun w => decide (w ≠ q)) with
      | nil =>
        exfalso
        obtain ⟨x, hx⟩ : ∃ x, (v :: ws).getLast? = some x := ⟨_, List.getLast?_eq_some_getLast (by simp)⟩
        have hm := List.mem_of_getLast? hx
        have : x ≠ q := fun e => hl2 (by rw [hx, e])
        have hm2 : x ∈ (v :: ws).filter (fun w => decide (w ≠ q)) := List.mem_filter.2 ⟨hm, by simpa using this⟩
        rw [hf] at hm2
        exact absurd hm2 (by simp)
      | cons y ys =>
        show _ = w ++ [' '] ++ _
        rw [List.append_assoc]
        rfl

theorem static_ne : ("static".toList : Str) ≠ "constexpr".toList := by decide +kernel

/-- The two replacements remove the two specifiers. -/
theorem castType_words (ws : List Str) (h : ∀ w ∈ ws, w ∈ storage ∨ Foreign w) (hl : ∀ w, ws.getLast? = some w → w ∉ storage) :
    castType (words ws) = words (ws.filter (fun s => decide (s ∉ storage))) := by
  have hx : contains ("constexpr".toList ++ [' ']) ("static".toList ++ [' ']) = false := by decide +kernel
  have hy : contains ("static".toList ++ [' ']) ("constexpr".toList ++ [' ']) = false := by decide +kernel
  have hs1 : ("static".toList : Str) ≠ [] := by decide +kernel
  have hs2 : ' ' ∉ ("static".toList : Str) := by decide +kernel
  have hc1 : ("constexpr".toList : Str) ≠ [] := by decide +kernel
  have hc2 : ' ' ∉ ("constexpr".toList : Str) := by decide +kernel
  unfold castType words
  rw [show "static ".toList = "static".toList ++ [' '] from rfl, show "constexpr ".toList = "constexpr".toList ++ [' '] from rfl]
  unfold Foreign storage at *
  have hne := static_ne
  generalize "static".toList = st at *
  generalize "constexpr".toList = ce at *
  simp only [List.mem_cons, List.not_mem_nil, or_false, forall_eq_or_imp, forall_eq, not_or] at h hl
  rw [replace_words st hs1 hs2 ws (by
      intro w hw
      rcases h w hw with (e | e) | e
      · exact Or.inl e
      · exact Or.inr (by rw [e]; exact hx)
      · exact Or.inr e.1) (fun e => (hl _ e).1 rfl),
    replace_words ce hc1 hc2 _ (by
      intro w hw
      rcases h w (List.mem_filter.1 hw).1 with (e | e) | e
      · exact absurd (List.mem_filter.1 hw).2 (by simp [e])
      · exact Or.inl e
      · exact Or.inr e.2) ?_, List.filter_filter]
  · congr 1
    apply List.filter_congr
    intro x _
    simp only [List.mem_cons, List.not_mem_nil, or_false, not_or, ne_eq, Bool.decide_and]
    exact Bool.and_comm _ _
  · intro e
    rcases List.eq_nil_or_concat ws with hn | ⟨l, x, hn⟩
    · rw [hn] at e
      exact absurd e (by simp)
    · rw [List.concat_eq_append] at hn
      have hx2 := hl x (by rw [hn]; simp)
      rw [hn, List.filter_append, List.filter_cons, if_pos (by simpa using hx2.1), List.filter_nil, List.getLast?_concat] at e
      exact hx2.2 (Option.some.inj e)

/-! ### C121 -/

/-- C121: the value is converted to the type of the variable without the specifiers of its storage. -/
def C121_cast_statement : Prop :=
  ∀ (var : Str) (g : Global), Proper g.type → g.type.typenames ≠ [] →
    globalPydef var g = (strCode (Spec.valueType g.type)).map (fun t => [assigned var g.name ("(".toList ++ t ++ ") ".toList ++ g.init)])

/-- The words are removed anywhere in the type: `is_static * p` is converted to `is_*`. -/
theorem C121_cast_fails : ¬ C121_cast_statement := by
  intro h
  have := h "m".toList ⟨"p".toList, ⟨[], ["is_static".toList], ["*".toList]⟩, "0".toList⟩ (by unfold Proper; decide +kernel) (by decide +kernel)
  exact absurd this (by decide +kernel)

theorem const_foreign : "const".toList ∉ storage ∧ Foreign "const".toList := by
  unfold Foreign
  decide +kernel

/-- The specifiers of storage are other words than `const`. -/
theorem count_value (l : List Str) : (l.filter (fun s => decide (s ∉ storage))).count "const".toList = l.count "const".toList := by
  rw [List.count_filter (by simpa using const_foreign.1)]

/-- The last of the occurrences of a word. -/
theorem split_last (c : Str) : ∀ (l : List Str), 0 < l.count c → ∃ a b, l = a ++ c :: b ∧ c ∉ b
  | [], h => absurd h (by simp)
  | x :: xs, h => by
    by_cases hx : 0 < xs.count c
    · obtain ⟨a, b, e, hb⟩ := split_last c xs hx
      exact ⟨x :: a, b, by rw [e]; rfl, hb⟩
    · have h0 : xs.count c = 0 := by omega
      by_cases he : x = c
      · exact ⟨[], xs, by rw [he]; rfl, List.count_eq_zero.1 h0⟩
      · rw [List.count_cons, h0] at h
        exact absurd h (by simp [he])

/-- A type with up to two `const` is written with its words in order; those of the storage are some of the first ones. -/
theorem printed_words (t : CppType) (hp : Proper t) (hc : t.specifiers.count "const".toList ≤ 2) :
    ∃ f e : List Str, strCode t = some (words (f ++ (t.typenames ++ (t.modifiers ++ e)))) ∧
      strCode (Spec.valueType t) = some (words (f.filter (fun s => decide (s ∉ storage)) ++ (t.typenames ++ (t.modifiers ++ e)))) ∧
      (∀ w ∈ f, w ∈ t.specifiers) ∧ (e = [] ∨ e = ["const".toList]) := by
  have hp2 : Proper (Spec.valueType t) := by
    intro w hw
    apply hp w
    unfold Spec.valueType at hw
    simp only [List.mem_append] at hw ⊢
    rcases hw with (hw | hw) | hw
    · exact Or.inl (Or.inl (List.mem_filter.1 hw).1)
    · exact Or.inl (Or.inr hw)
    · exact Or.inr hw
  have hcnt : (Spec.valueType t).specifiers.count "const".toList = t.specifiers.count "const".toList := count_value _
  by_cases h1 : t.specifiers.count "const".toList ≤ 1
  · refine ⟨t.specifiers, [], ?_, ?_, fun _ h => h, Or.inl rfl⟩
    · rw [Type.Props.C29_printed t hp h1, List.append_nil, List.append_assoc]
    · rw [Type.Props.C29_printed _ hp2 (by rw [hcnt]; exact h1), List.append_nil, List.append_assoc]
      rfl
  · have h2 : t.specifiers.count "const".toList = 2 := by omega
    obtain ⟨a, b, hs, hb⟩ := split_last "const".toList t.specifiers (by omega)
    have ha : a.count "const".toList = 1 := by
      rw [hs, List.count_append, List.count_cons_self, List.count_eq_zero.2 hb] at h2
      omega
    have hs2 : (Spec.valueType t).specifiers = a.filter (fun s => decide (s ∉ storage)) ++
        "const".toList :: b.filter (fun s => decide (s ∉ storage)) := by
      unfold Spec.valueType
      simp only
      rw [hs, List.filter_append, List.filter_cons, if_pos (by simpa using const_foreign.1)]
    refine ⟨a ++ b, ["const".toList], ?_, ?_, ?_, Or.inr rfl⟩
    · rw [Type.Props.C29_two_const t hp a b hs hb ha]
      simp only [List.append_assoc]
    · rw [Type.Props.C29_two_const _ hp2 _ _ hs2 (fun h => hb (List.mem_filter.1 h).1) (by rw [count_value]; exact ha), List.filter_append]
      simp only [List.append_assoc]
      rfl
    · intro w hw
      rw [hs]
      simp only [List.mem_append, List.mem_cons] at hw ⊢
      rcases hw with hw | hw
      · exact Or.inl hw
      · exact Or.inr (Or.inr hw)

/-- C121, for the types whose names and modifiers do not hold these words. -/
theorem C121_cast_partial (var : Str) (g : Global) (hp : Proper g.type) (ht : g.type.typenames ≠ [])
    (hs : ∀ w ∈ g.type.specifiers, w ∈ storage ∨ Foreign w)
    (hf : ∀ w ∈ g.type.typenames ++ g.type.modifiers, w ∉ storage ∧ Foreign w) :
    globalPydef var g = (strCode (Spec.valueType g.type)).map (fun t => [assigned var g.name ("(".toList ++ t ++ ") ".toList ++ g.init)]) := by
  unfold globalPydef
  by_cases hc : g.type.specifiers.count "const".toList ≤ 2
  · obtain ⟨f, e, h1, h2, h3, h4⟩ := printed_words g.type hp hc
    have hrest : ∀ w ∈ g.type.typenames ++ (g.type.modifiers ++ e), w ∉ storage ∧ Foreign w := by
      intro w hw
      rw [← List.append_assoc] at hw
      rcases List.mem_append.1 hw with hw | hw
      · exact hf w hw
      · rcases h4 with h4 | h4
        · rw [h4] at hw
          cases hw
        · rw [h4] at hw
          rw [List.mem_singleton.1 hw]
          exact const_foreign
    have hfil : (g.type.typenames ++ (g.type.modifiers ++ e)).filter (fun s => decide (s ∉ storage)) = g.type.typenames ++ (g.type.modifiers ++ e) :=
      List.filter_eq_self.2 (fun w hw => by simpa using (hrest w hw).1)
    rw [h1, h2, Option.map_some, Option.map_some, castType_words]
    · rw [List.filter_append, hfil]
      unfold assigned
      generalize words _ = x
      rw [show "\") = (".toList = "\") = ".toList ++ "(".toList from rfl]
      simp only [List.append_assoc]
    · intro w hw
      rcases List.mem_append.1 hw with hw | hw
      · exact hs w (h3 w hw)
      · exact Or.inr (hrest w hw).2
    · intro w hw
      rw [last_append _ (by simp [ht])] at hw
      exact (hrest w (List.mem_of_getLast? hw)).1
  · have e1 : strCode g.type = none := (Type.Props.C29_error _).2 (by omega)
    have e2 : strCode (Spec.valueType g.type) = none := (Type.Props.C29_error _).2 (by
      show 2 < (g.type.specifiers.filter _).count "const".toList
      rw [count_value]
      omega)
    rw [e1, e2]
    rfl

/-- `static constexpr int answer = 42;` -/
example : globalPydef "m".toList ⟨"answer".toList, ⟨["static".toList, "constexpr".toList], ["int".toList], []⟩, "42".toList⟩ =
    some ["m.attr(\"answer\") = (int) 42;".toList] := by decide +kernel

/-- `static const char * const name = "x";` -/
example : globalPydef "m".toList ⟨"name".toList, ⟨["static".toList, "const".toList, "const".toList], ["char".toList], ["*".toList]⟩, "\"x\"".toList⟩ =
    some ["m.attr(\"name\") = (const char * const) \"x\";".toList] := by decide +kernel

example : (∀ w ∈ ["static".toList, "constexpr".toList, "const".toList], w ∈ storage ∨ Foreign w) ∧
    (∀ w ∈ ["char".toList, "*".toList], w ∉ storage ∧ Foreign w) := by
  unfold Foreign
  decide +kernel

/-- C121: the same variables become attributes in the bindings and in the stub, under their C++ names, in the order of the declarations. -/
theorem C121_names (var : Str) (typePy valuePy : Str → Str) (included : Str → Bool) (decls : List Global) (g : Global) (p s : List Str)
    (hp : globalPydef var g = some p) (hs : globalStub typePy valuePy g = some s) :
    (g ∈ statementGlobals included decls ↔ g ∈ decls ∧ included g.name = true) ∧ (statementGlobals included decls).Sublist decls ∧
    (∃ value, p = [assigned var g.name value]) ∧ ∃ rest, s = [g.name ++ ": ".toList ++ rest] := by
  refine ⟨by unfold statementGlobals; rw [List.mem_filter], List.filter_sublist, ?_, ?_⟩
  · unfold globalPydef at hp
    obtain ⟨t, _, rfl⟩ := Option.map_eq_some_iff.1 hp
    refine ⟨"(".toList ++ castType t ++ ") ".toList ++ g.init, ?_⟩
    unfold assigned
    generalize castType t = x
    rw [show "\") = (".toList = "\") = ".toList ++ "(".toList from rfl]
    simp only [List.append_assoc]
  · unfold globalStub at hs
    split at hs
    · rename_i v t _ _
      refine ⟨typePy t ++ "  # = ".toList ++ v, ?_⟩
      rw [← Option.some.inj hs]
      simp only [List.append_assoc]
    · cases hs

/-- C121: what the stub says of a variable: its name, its type, and its value in a comment; the value in braces is a call of the type. -/
theorem C121_stub (typePy valuePy : Str → Str) (g : Global) (t name : Str) (names : List Str) (ht : strCode g.type = some t)
    (hn : g.type.typenames = name :: names) :
    (∀ inner, strip g.init = '{' :: inner ++ ['}'] → globalStub typePy valuePy g =
      some [g.name ++ ": ".toList ++ typePy t ++ "  # = ".toList ++ valuePy (name ++ "(".toList ++ inner ++ ")".toList)]) ∧
    ((strip g.init).head? ≠ some '{' → globalStub typePy valuePy g =
      some [g.name ++ ": ".toList ++ typePy t ++ "  # = ".toList ++ valuePy (strip g.init)]) := by
  constructor
  · intro inner hi
    have hv : globalValue valuePy g = some (valuePy (name ++ ['('] ++ inner ++ [')'])) := by
      unfold globalValue
      simp only [hi, hn]
      rw [if_pos (by
        rw [Bool.and_eq_true]
        exact ⟨List.isPrefixOf_iff_prefix.2 ⟨inner ++ ['}'], rfl⟩, List.isSuffixOf_iff_suffix.2 ⟨'{' :: inner, rfl⟩⟩)]
      rw [List.head?_cons, Option.map_some, List.cons_append, List.drop_succ_cons, List.drop_zero, List.dropLast_concat]
    unfold globalStub
    rw [hv, ht]
    rfl
  · intro hi
    have hv : globalValue valuePy g = some (valuePy (strip g.init)) := by
      unfold globalValue
      rw [if_neg]
      intro h
      rw [Bool.and_eq_true] at h
      obtain ⟨r, hr⟩ := List.isPrefixOf_iff_prefix.1 h.1
      exact hi (by rw [← hr]; rfl)
    unfold globalStub
    rw [hv, ht]

example : globalStub id id ⟨"p".toList, ⟨[], ["Point".toList], []⟩, "{1, 2}".toList⟩ = some ["p: Point  # = Point(1, 2)".toList] := by decide +kernel

/-- C121: a variable in the stub is one line. -/
def C121_one_line_statement : Prop :=
  ∀ (g : Global) (s : List Str), '\n' ∉ g.name → globalStub id id g = some s → ∀ l ∈ s, '\n' ∉ l

/-- The comment with the value ends at the first line of the value: the other lines of the value are read as code of the stub. -/
theorem C121_one_line_fails : ¬ C121_one_line_statement := by
  intro h
  exact absurd (h ⟨"n".toList, ⟨[], ["int".toList], []⟩, "f(1,\n2)".toList⟩ _ (by decide +kernel) rfl) (by decide +kernel)

/-! ### macros -/

theorem replace_plain (k v : Str) : ∀ (a s : Str), '{' ∉ a → replace (a ++ s) ('{' :: k) v = a ++ replace s ('{' :: k) v
  | [], _, _ => rfl
  | c :: cs, s, h => by
    simp only [List.mem_cons, not_or] at h
    rw [List.cons_append, replace_no_match, replace_plain k v cs s h.2]
    · rfl
    · rintro ⟨t, ht⟩
      rw [List.cons_append] at ht
      exact h.1 (List.cons.inj ht).1

/-- The semicolon adds no `{maybe_comma}`. -/
theorem not_contains_semicolon {v : Str} (h : contains v "{maybe_comma}".toList = false) :
    contains (v ++ ";".toList) (hole maybeComma) = false := by
  rw [Bool.eq_false_iff]
  intro hc
  have e : hole maybeComma = "{maybe_comma".toList ++ ['}'] := rfl
  rw [e, show ";".toList = [';'] from rfl, contains_iff_infix] at hc
  have h2 : ¬ ("{maybe_comma".toList ++ ['}']) <:+: v := by
    rw [← contains_iff_infix]
    exact Bool.eq_false_iff.1 h
  generalize "{maybe_comma".toList = q at hc h2
  rcases List.infix_concat_iff.1 hc with hs | hs
  · obtain ⟨t, ht⟩ := hs
    rw [← List.append_assoc] at ht
    exact absurd (List.append_inj' ht rfl).2 (by decide)
  · exact h2 hs

theorem last_of_suffix {x p : Str} {c : Char} (hp : p.getLast? = some c) (h : endsWith x p = true) : x.getLast? = some c := by
  obtain ⟨t, ht⟩ := List.isSuffixOf_iff_suffix.1 h
  rw [← ht, last_append _ (by intro e; rw [e] at hp; cases hp), hp]

theorem drop_same {x : Str} (h1 : x.getLast? ≠ some ' ') (h2 : x.getLast? ≠ some ')') (h3 : endsWith x [',', ' ', ')', ';'] = false) :
    dropFinalComma x = x := by
  have e1 : endsWith x [',', ' '] = false := Bool.eq_false_iff.2 (fun h => h1 (last_of_suffix rfl h))
  have e2 : endsWith x [',', ' ', ')'] = false := Bool.eq_false_iff.2 (fun h => h2 (last_of_suffix rfl h))
  unfold dropFinalComma
  simp only [e1, h3, e2, Bool.false_eq_true, if_false]

/-- C121: a macro is an attribute with its published name and its value. -/
def C121_define_statement : Prop :=
  ∀ (comment : List Str) (var name value : Str), '{' ∉ var → '{' ∉ name → Num.valueType value ≠ .Other → value ≠ [] →
    definePydef var name value = [assigned var name value] ∧
    defineStub comment name value = comment ++ [name ++ " = ".toList ++ Num.publishedPythonValue value]

/-- A text that holds `{maybe_comma}` is changed. -/
theorem C121_define_fails : ¬ C121_define_statement := by
  intro h
  have := (h [] "m".toList "A".toList "\"{maybe_comma}\"".toList (by decide +kernel) (by decide +kernel) (by decide +kernel) (by decide +kernel)).1
  exact absurd this (by decide +kernel)

/-- C121, for the values that `process_code_template` leaves as they are. -/
theorem C121_define_partial (comment : List Str) (var name value : Str) (hv : '{' ∉ var) (hn : '{' ∉ name) (hq : Quiet value)
    (hq2 : Quiet (Num.publishedPythonValue value)) :
    definePydef var name value = [assigned var name value] ∧
    defineStub comment name value = comment ++ [name ++ " = ".toList ++ Num.publishedPythonValue value] := by
  constructor
  · unfold definePydef assigned
    congr 1
    unfold processCodeTemplate replaceInString replaceInStringRemoveLineIfNone
    simp only [List.foldl_cons, List.foldl_nil, if_true]
    have a1 : replace "{m}.attr(\"{published_name}\") = {macro_value};".toList (hole "m".toList) var =
        var ++ ".attr(\"{published_name}\") = {macro_value};".toList := by
      rw [show "{m}.attr(\"{published_name}\") = {macro_value};".toList = hole "m".toList ++ ".attr(\"{published_name}\") = {macro_value};".toList
        from rfl, replace_match (by decide +kernel), replace_of_not_contains (by decide +kernel)]
    have a2 : replace (var ++ ".attr(\"{published_name}\") = {macro_value};".toList) (hole "published_name".toList) name =
        (var ++ ".attr(\"".toList) ++ (name ++ "\") = {macro_value};".toList) := by
      rw [show ".attr(\"{published_name}\") = {macro_value};".toList = ".attr(\"".toList ++ (hole "published_name".toList ++ "\") = {macro_value};".toList)
        from rfl, ← List.append_assoc, hole, List.cons_append, replace_plain _ _ _ _ (by
          simp only [List.mem_append, not_or]; exact ⟨hv, by decide +kernel⟩), ← List.cons_append, replace_match (by decide +kernel),
        replace_of_not_contains (by decide +kernel)]
    have a3 : replace ((var ++ ".attr(\"".toList) ++ (name ++ "\") = {macro_value};".toList)) (hole "macro_value".toList) value =
        ((var ++ ".attr(\"".toList) ++ (name ++ "\") = ".toList)) ++ (value ++ ";".toList) := by
      rw [show "\") = {macro_value};".toList = "\") = ".toList ++ (hole "macro_value".toList ++ ";".toList) from rfl, ← List.append_assoc name,
        ← List.append_assoc, hole, List.cons_append, replace_plain _ _ _ _ (by
          simp only [List.mem_append, not_or]; exact ⟨⟨hv, by decide +kernel⟩, hn, by decide +kernel⟩), ← List.cons_append,
        replace_match (by decide +kernel), replace_of_not_contains (by decide +kernel)]
    have a4 : replace (((var ++ ".attr(\"".toList) ++ (name ++ "\") = ".toList)) ++ (value ++ ";".toList)) (hole maybeComma) [',', ' '] =
        ((var ++ ".attr(\"".toList) ++ (name ++ "\") = ".toList)) ++ (value ++ ";".toList) := by
      rw [hole, List.cons_append, replace_plain _ _ _ _ (by
          simp only [List.mem_append, not_or]; exact ⟨⟨hv, by decide +kernel⟩, hn, by decide +kernel⟩), replace_of_not_contains]
      exact not_contains_semicolon hq.1
    rw [a1, a2, a3, a4, drop_same]
    · simp only [List.append_assoc]
    · rw [← List.append_assoc, show ";".toList = [';'] from rfl, List.getLast?_concat]; decide
    · rw [← List.append_assoc, show ";".toList = [';'] from rfl, List.getLast?_concat]; decide
    · rw [Bool.eq_false_iff]
      intro h
      obtain ⟨t, ht⟩ := List.isSuffixOf_iff_suffix.1 h
      rw [show ([',', ' ', ')', ';'] : Str) = [',', ' ', ')'] ++ [';'] from rfl, ← List.append_assoc, ← List.append_assoc,
        show ";".toList = [';'] from rfl] at ht
      have := congrArg List.getLast? (List.append_inj' ht rfl).1
      rw [last_append _ (by simp), last_append _ hq.2.1] at this
      exact hq.2.2.2.1 this.symm
  · unfold defineStub
    congr 2
    generalize Num.publishedPythonValue value = value at hq2
    unfold processCodeTemplate replaceInString replaceInStringRemoveLineIfNone
    simp only [List.foldl_cons, List.foldl_nil, if_true]
    have a1 : replace "{published_name} = {macro_value}".toList (hole "published_name".toList) name = name ++ " = {macro_value}".toList := by
      rw [show "{published_name} = {macro_value}".toList = hole "published_name".toList ++ " = {macro_value}".toList
        from rfl, replace_match (by decide +kernel), replace_of_not_contains (by decide +kernel)]
    have a2 : replace (name ++ " = {macro_value}".toList) (hole "macro_value".toList) value = (name ++ " = ".toList) ++ value := by
      rw [show " = {macro_value}".toList = " = ".toList ++ (hole "macro_value".toList ++ []) from rfl,
        ← List.append_assoc, hole, List.cons_append, replace_plain _ _ _ _ (by
          simp only [List.mem_append, not_or]; exact ⟨hn, by decide +kernel⟩), ← List.cons_append,
        replace_match (by decide +kernel), replace_of_not_contains (by decide +kernel), List.append_nil]
    have a3 : replace ((name ++ " = ".toList) ++ value) (hole maybeComma) [',', ' '] = (name ++ " = ".toList) ++ value := by
      rw [hole, List.cons_append, replace_plain _ _ _ _ (by
          simp only [List.mem_append, not_or]; exact ⟨hn, by decide +kernel⟩), replace_of_not_contains]
      exact hq2.1
    rw [a1, a2, a3, drop_same]
    · rw [last_append _ hq2.2.1]; exact hq2.2.2.1
    · rw [last_append _ hq2.2.1]; exact hq2.2.2.2.1
    · rw [Bool.eq_false_iff]
      intro h
      have := last_of_suffix rfl h
      rw [last_append _ hq2.2.1] at this
      exact hq2.2.2.2.2 this

example : definePydef "m".toList "A".toList "017".toList = ["m.attr(\"A\") = 017;".toList] ∧
    defineStub ["# Comment".toList] "A".toList "017".toList = ["# Comment".toList, "A = 0o17".toList] := by decide +kernel

example : Quiet "017".toList ∧ Quiet "0o17".toList ∧ Quiet "\"a, \"".toList := by
  unfold Quiet
  decide +kernel

/-- C121: the stub has the name that the bindings give to the macro. -/
theorem C121_define_names (comment : List Str) (var name value : Str) (hv : '{' ∉ var) (hn : '{' ∉ name) (hq : Quiet value)
    (hq2 : Quiet (Num.publishedPythonValue value)) :
    ∃ v w, definePydef var name value = [assigned var name v] ∧ defineStub comment name value = comment ++ [name ++ " = ".toList ++ w] :=
  ⟨_, _, C121_define_partial comment var name value hv hn hq hq2⟩

end Verif.Attr.Props
