import Verif.Inst.LemmasSpec

/-! C53: the specialisation of templates. -/

namespace Verif.Inst.Props
open Verif.Py Verif.Type Verif.Inst.Spec
open Verif.Scope (isWordChar)

/-- C53. Each text has exactly one cut into words, so that "the words of a text" makes sense. -/
theorem C53_words (u : Char → Bool) (s : Str) : ∃ l, CutOf u s l ∧ ∀ m, CutOf u s m → m = l :=
  ⟨cut u s, cut_spec u s, fun _ h => cutOf_eq h⟩

/-- C53. Specialising a type replaces the template parameters, as whole words, at the same time, in all its type names; specifiers and
modifiers are kept; `None` is returned exactly when no parameter is mentioned. This holds for any number of parameters, provided that no
given type mentions a parameter which comes later. -/
theorem C53_type_partial (u : Char → Bool) (ps : List Part) (tbl : List (Str × Str)) (hr : Reads u ps tbl) (hc : NoCapture u tbl) (t : CppType) :
    ((∃ q ∈ tbl, TypeHas u q.1 t) → ∃ t', specType u ps t = .changed t' ∧ RenamedType u (lookup tbl) t t') ∧
    ((¬ ∃ q ∈ tbl, TypeHas u q.1 t) → specType u ps t = .unchanged) := by
  rw [specType_eq hr hc]
  refine ⟨fun h => ⟨_, if_pos h, (renamedType_iff _ _ _ _).2 rfl⟩, fun h => if_neg h⟩

/-- The same without the condition on later parameters. -/
def C53_type_statement : Prop :=
  ∀ (u : Char → Bool) (ps : List Part) (tbl : List (Str × Str)), Reads u ps tbl → (tbl.map Prod.fst).Nodup → ∀ t t' : CppType,
    specType u ps t = .changed t' → RenamedType u (lookup tbl) t t'

def tyInt : CppType := ⟨[], ["int".toList], []⟩
def tyT : CppType := ⟨[], ["T".toList], []⟩
def tyU : CppType := ⟨[], ["U".toList], []⟩
def ascii : Char → Bool := fun _ => false

instance (u : Char → Bool) (n : Str) : Decidable (Ident u n) := inferInstanceAs (Decidable (n ≠ [] ∧ ∀ c ∈ n, _))
instance (u : Char → Bool) (ps : List Part) (tbl : List (Str × Str)) : Decidable (Reads u ps tbl) := inferInstanceAs (Decidable (List.Forall₂ _ _ _))
instance (u : Char → Bool) (tbl : List (Str × Str)) : Decidable (NoCapture u tbl) := inferInstanceAs (Decidable (List.Pairwise _ _))
instance (u : Char → Bool) (n : Str) (t : CppType) : Decidable (TypeHas u n t) := inferInstanceAs (Decidable (∃ tn ∈ t.typenames, _))

/-- C53, failure: with `T → U` and `U → int`, the type `T` becomes `int` instead of `U`: the parameters are replaced one after the
other. -/
theorem C53_type_fails : ¬ C53_type_statement := by
  intro h
  have := h ascii [⟨tyU, "T".toList⟩, ⟨tyInt, "U".toList⟩] [("T".toList, "U".toList), ("U".toList, "int".toList)]
    (by decide +kernel) (by decide +kernel) tyT tyInt (by decide +kernel)
  rw [renamedType_iff] at this
  revert this
  decide +kernel

/-- Two parameters in a nested type: `const std::map<T, Vec<Tree, U>>&`. -/
example : Reads ascii [⟨tyInt, "T".toList⟩, ⟨⟨["const".toList], ["Foo".toList], ["*".toList]⟩, "U".toList⟩]
      [("T".toList, "int".toList), ("U".toList, "const Foo *".toList)] ∧
    NoCapture ascii [("T".toList, "int".toList), ("U".toList, "const Foo *".toList)] ∧
    specType ascii [⟨tyInt, "T".toList⟩, ⟨⟨["const".toList], ["Foo".toList], ["*".toList]⟩, "U".toList⟩]
      ⟨["const".toList], ["std::map<T, Vec<Tree, U>>".toList], ["&".toList]⟩ =
      .changed ⟨["const".toList], ["std::map<int, Vec<Tree, const Foo *>>".toList], ["&".toList]⟩ := by decide +kernel

/-- C53. One parameter (what the generator does): no condition is needed. -/
theorem C53_type_one (u : Char → Bool) (a : CppType) (name by_ : Str) (hn : Ident u name) (ha : a.typenames.length = 1)
    (hb : strCode a = some by_) (t : CppType) :
    (TypeHas u name t → ∃ t', specType u [⟨a, name⟩] t = .changed t' ∧ RenamedType u (fun w => if w = name then by_ else w) t t') ∧
    (¬ TypeHas u name t → specType u [⟨a, name⟩] t = .unchanged) := by
  have h := C53_type_partial u [⟨a, name⟩] [(name, by_)] (.cons ⟨rfl, hn, ha, hb⟩ .nil) (by simp [NoCapture]) t
  exact ⟨fun h' => h.1 ⟨(name, by_), by simp, h'⟩, fun h' => h.2 (by simpa using h')⟩

example : Ident ascii "T".toList ∧ tyInt.typenames.length = 1 ∧ strCode tyInt = some "int".toList ∧
    TypeHas ascii "T".toList ⟨[], ["std::vector<T>".toList], []⟩ ∧ ¬ TypeHas ascii "T".toList ⟨[], ["Tree<Tt, T_1>".toList], []⟩ := by decide +kernel

/-- C53. Specialising a function template for a type: the next template parameter becomes this type in the return type and in the types of
the parameters, and the type is recorded as the argument of this template parameter. Names, default values, number and order of the
parameters are kept. `None` is returned exactly when no type mentions the parameter. -/
theorem C53_function (u : Char → Bool) (a : CppType) (by_ name : Str) (names : List Str) (f : Func) (ht : f.host.template = some names)
    (hg : names[f.host.given.length]? = some name) (hn : Ident u name) (ha : a.typenames.length = 1) (hb : strCode a = some by_) :
    ((∃ t ∈ funcTypes f, TypeHas u name t) → ∃ f', specFunc u [⟨a, []⟩] f = .changed f' ∧
      RenamedFunc u (fun w => if w = name then by_ else w) f f' ∧ f'.host = ⟨f.host.template, f.host.given ++ [a]⟩) ∧
    ((¬ ∃ t ∈ funcTypes f, TypeHas u name t) → specFunc u [⟨a, []⟩] f = .unchanged) := by
  have hs : store f.host [⟨a, []⟩] = some ({ f.host with given := f.host.given ++ [a] }, [⟨a, name⟩]) := by
    simp [store, ht, hg]
  have hr : Reads u [⟨a, name⟩] [(name, by_)] := .cons ⟨rfl, hn, ha, hb⟩ .nil
  have key := specFunc_of hs hr (by simp [NoCapture])
  have hiff : (∃ t ∈ funcTypes f, Hits u [(name, by_)] t) ↔ ∃ t ∈ funcTypes f, TypeHas u name t := by simp [Hits]
  rw [hiff] at key
  exact ⟨fun h => ⟨_, key.1 h, renamedFunc_host _ _ _ _, rfl⟩, key.2⟩

/-- `template<typename T> T sum2(array<T, 2> values, const T& init = T());` for `vector<int>`. -/
def sum2 : Func := ⟨⟨some ["T".toList], []⟩, "sum2".toList, some tyT,
  [⟨⟨[], ["array<T, 2>".toList], []⟩, "values".toList, []⟩, ⟨⟨["const".toList], ["T".toList], ["&".toList]⟩, "init".toList, "T()".toList⟩]⟩
def tyVec : CppType := ⟨[], ["vector<int>".toList], []⟩

example : sum2.host.template = some ["T".toList] ∧ ["T".toList][sum2.host.given.length]? = some "T".toList ∧ Ident ascii "T".toList ∧
    tyVec.typenames.length = 1 ∧ strCode tyVec = some "vector<int>".toList ∧ (∃ t ∈ funcTypes sum2, TypeHas ascii "T".toList t) ∧
    specFunc ascii [⟨tyVec, []⟩] sum2 = .changed ⟨⟨some ["T".toList], [tyVec]⟩, "sum2".toList, some tyVec,
      [⟨⟨[], ["array<vector<int>, 2>".toList], []⟩, "values".toList, []⟩,
       ⟨⟨["const".toList], ["vector<int>".toList], ["&".toList]⟩, "init".toList, "T()".toList⟩]⟩ := by decide +kernel

/-- C53. Specialising a class template for a type: the next template parameter becomes this type in all the types of its methods, of its
member variables and, at every depth, of its nested classes; members, names, default values, access sections and bases are kept. `None` is
returned exactly when no type mentions the parameter. -/
theorem C53_class (u : Char → Bool) (a : CppType) (by_ name : Str) (names : List Str) (h : Head) (blocks : List Block)
    (ht : h.host.template = some names) (hg : names[h.host.given.length]? = some name) (hn : Ident u name) (ha : a.typenames.length = 1)
    (hb : strCode a = some by_) :
    ((∃ t ∈ blocksTypes blocks, TypeHas u name t) → ∃ blocks', specElem u [⟨a, []⟩] (.struct_ h blocks) =
        .changed (.struct_ { h with host := ⟨h.host.template, h.host.given ++ [a]⟩ } blocks') ∧
      RenamedBlocks u (fun w => if w = name then by_ else w) blocks blocks') ∧
    ((¬ ∃ t ∈ blocksTypes blocks, TypeHas u name t) → specElem u [⟨a, []⟩] (.struct_ h blocks) = .unchanged) := by
  have hs : store h.host [⟨a, []⟩] = some ({ h.host with given := h.host.given ++ [a] }, [⟨a, name⟩]) := by
    simp [store, ht, hg]
  have hr : Reads u [⟨a, name⟩] [(name, by_)] := .cons ⟨rfl, hn, ha, hb⟩ .nil
  obtain ⟨bs, h1, h2, h3⟩ := specBlocks_eq hr (by simp [NoCapture]) blocks
  have hiff : (∃ t ∈ blocksTypes blocks, Hits u [(name, by_)] t) ↔ ∃ t ∈ blocksTypes blocks, TypeHas u name t := by simp [Hits]
  refine ⟨fun hh => ⟨bs, ?_, h1⟩, fun hh => ?_⟩
  · rw [specElem, hs]
    simp only
    rw [h2, decide_eq_true (hiff.2 hh)]
    rfl
  · rw [specElem, hs]
    simp only
    rw [h2, decide_eq_false (fun x => hh (hiff.1 x))]
    rfl

/-- `template<typename T> struct Foo : Base<T> { T value0, *value1; struct Inner { int n; std::vector<T> f(int x); }; enum E { A }; };` -/
def fooBlocks : List Block :=
  [.access "public".toList
    [.decls [⟨tyT, "value0".toList, []⟩, ⟨⟨[], ["T".toList], ["*".toList]⟩, "value1".toList, []⟩],
     .struct_ ⟨⟨none, []⟩, "Inner".toList, []⟩ [.access "public".toList
       [.decls [⟨tyInt, "n".toList, []⟩],
        .func ⟨⟨none, []⟩, "f".toList, some ⟨[], ["std::vector<T>".toList], []⟩, [⟨tyInt, "x".toList, []⟩]⟩]],
     .other "enum E { A };".toList]]
def fooHead : Head := ⟨⟨some ["T".toList], []⟩, "Foo".toList, ["Base<T>".toList]⟩

example : fooHead.host.template = some ["T".toList] ∧ ["T".toList][fooHead.host.given.length]? = some "T".toList ∧
    ∃ t ∈ blocksTypes fooBlocks, TypeHas ascii "T".toList t :=
  ⟨rfl, rfl, tyT, by simp [fooBlocks, blocksTypes, blockTypes, childrenTypes, elemTypes], by decide +kernel⟩

/-- C53. Non template members of a template class (and everything else) can be specialised by naming the parameters. -/
theorem C53_members_partial (u : Char → Bool) (ps : List Part) (tbl : List (Str × Str)) (hr : Reads u ps tbl) (hc : NoCapture u tbl) (e : Elem) :
    ((∃ t ∈ elemTypes e, ∃ q ∈ tbl, TypeHas u q.1 t) → ∃ e', specElem u ps e = .changed e' ∧ RenamedElem u (lookup tbl) e e') ∧
    ((¬ ∃ t ∈ elemTypes e, ∃ q ∈ tbl, TypeHas u q.1 t) → specElem u ps e = .unchanged) := by
  obtain ⟨e', h1, h2, h3⟩ := specElem_eq hr hc e
  exact ⟨fun h => ⟨e', h2 h, h1⟩, fun h => (h3 h).1⟩

example : Reads ascii [⟨tyInt, "T".toList⟩] [("T".toList, "int".toList)] ∧ NoCapture ascii [("T".toList, "int".toList)] ∧
    ∃ t ∈ elemTypes (.func sum2), ∃ q ∈ [("T".toList, "int".toList)], TypeHas ascii q.1 t := by
  show _ ∧ _ ∧ ∃ t ∈ funcTypes sum2, _
  decide +kernel

/-! ### What remains of the parameter -/

/-- C53. After the specialisation, no type of the function mentions the parameter, unless the given type itself does; a second
specialisation for the same name changes nothing. -/
theorem C53_gone (u : Char → Bool) (a : CppType) (by_ name : Str) (hn : Ident u name) (ha : a.typenames.length = 1)
    (hb : strCode a = some by_) (hfree : ¬ HasWord u name by_) (t t' : CppType) (h : specType u [⟨a, name⟩] t = .changed t') :
    ¬ TypeHas u name t' ∧ ∀ b : CppType, b.typenames.length = 1 → (strCode b).isSome → specType u [⟨b, name⟩] t' = .unchanged := by
  have hr : Reads u [⟨a, name⟩] [(name, by_)] := .cons ⟨rfl, hn, ha, hb⟩ .nil
  rw [specType_eq hr (by simp [NoCapture])] at h
  have hgone : ¬ TypeHas u name t' := by
    split at h
    · injection h with h
      subst h
      rintro ⟨tn, htn, hw⟩
      obtain ⟨x, hx, rfl⟩ := List.mem_map.1 htn
      obtain ⟨w, h1, h2⟩ := (hasWord_ren _ _ _ _).1 hw
      unfold lookup at h2
      split at h2
      · exact hfree h2
      · next hne => exact hne ((hasWord_ident (hasWord_is_ident h1)).1 h2).symm
    · simp at h
  refine ⟨hgone, fun b hb1 hb2 => ?_⟩
  obtain ⟨bb, hbb⟩ := Option.isSome_iff_exists.1 hb2
  exact (C53_type_one u b name bb hn hb1 hbb t').2 hgone

example : ¬ HasWord ascii "T".toList "vector<int>".toList ∧
    specType ascii [⟨tyVec, "T".toList⟩] ⟨[], ["std::map<T, T>".toList], []⟩ = .changed ⟨[], ["std::map<vector<int>, vector<int>>".toList], []⟩ := by
  decide +kernel

/-- C53. Two parameters given one after the other, or both at once: the same function. -/
theorem C53_progressive (u : Char → Bool) (a b : CppType) (ta tb m n : Str) (rest : List Str) (f f1 f2 : Func)
    (ht : f.host.template = some (m :: n :: rest)) (hg : f.host.given = []) (hm : Ident u m) (hn : Ident u n)
    (ha : a.typenames.length = 1) (hb : b.typenames.length = 1) (hta : strCode a = some ta) (htb : strCode b = some tb)
    (hfree : ¬ HasWord u n ta) (h1 : specFunc u [⟨a, []⟩] f = .changed f1) (h2 : specFunc u [⟨b, []⟩] f1 = .changed f2) :
    specFunc u [⟨a, []⟩, ⟨b, []⟩] f = .changed f2 := by
  have r1 : Reads u [⟨a, m⟩] [(m, ta)] := .cons ⟨rfl, hm, ha, hta⟩ .nil
  have r2 : Reads u [⟨b, n⟩] [(n, tb)] := .cons ⟨rfl, hn, hb, htb⟩ .nil
  have r12 : Reads u [⟨a, m⟩, ⟨b, n⟩] [(m, ta), (n, tb)] := .cons ⟨rfl, hm, ha, hta⟩ r2
  have s1 : store f.host [⟨a, []⟩] = some ({ f.host with given := [a] }, [⟨a, m⟩]) := by simp [store, ht, hg]
  have s12 : store f.host [⟨a, []⟩, ⟨b, []⟩] = some ({ f.host with given := [a, b] }, [⟨a, m⟩, ⟨b, n⟩]) := by simp [store, ht, hg]
  have k1 := specFunc_of s1 r1 (by simp [NoCapture])
  have k12 := specFunc_of s12 r12 (by simpa [NoCapture] using hfree)
  by_cases hh : ∃ t ∈ funcTypes f, Hits u [(m, ta)] t
  · rw [k1.1 hh] at h1
    injection h1 with h1
    subst h1
    have s2 : store ({ renFunc u (lookup [(m, ta)]) f with host := { f.host with given := [a] } } : Func).host [⟨b, []⟩] =
        some ({ f.host with given := [a, b] }, [⟨b, n⟩]) := by simp [store, ht]
    have k2 := specFunc_of s2 r2 (by simp [NoCapture])
    have hh2 : ∃ t ∈ funcTypes f, Hits u [(m, ta), (n, tb)] t := by
      obtain ⟨t, ht, q, hq, hit⟩ := hh
      exact ⟨t, ht, q, by simp at hq ⊢; exact .inl hq, hit⟩
    rw [k12.1 hh2]
    by_cases hh' : ∃ t ∈ funcTypes ({ renFunc u (lookup [(m, ta)]) f with host := { f.host with given := [a] } } : Func), Hits u [(n, tb)] t
    · rw [k2.1 hh'] at h2
      rw [← h2]
      have hren : ∀ s, ren u (lookup [(n, tb)]) (ren u (lookup [(m, ta)]) s) = ren u (lookup [(m, ta), (n, tb)]) s := by
        intro s
        rw [ren_ren]
        apply ren_congr
        intro w hw
        have hi := word_ident (cut_spec u s).1 hw
        show ren u (lookup [(n, tb)]) (if w = m then ta else w) = (if w = m then ta else lookup [(n, tb)] w)
        split
        · exact lookup_free (by simpa using hfree)
        · exact ren_ident hi
      have hty : ∀ t, renType u (lookup [(n, tb)]) (renType u (lookup [(m, ta)]) t) = renType u (lookup [(m, ta), (n, tb)]) t := by
        intro t
        simp [renType, List.map_map, Function.comp_def, hren]
      simp [renFunc, renDecl, Option.map_map, List.map_map, Function.comp_def, hty]
    · rw [k2.2 hh'] at h2; exact absurd h2 (by simp)
  · rw [k1.2 hh] at h1; exact absurd h1 (by simp)

/-- `template<typename T, class U> T f(const U& u);` -/
def two : Func := ⟨⟨some ["T".toList, "U".toList], []⟩, "f".toList, some tyT, [⟨⟨["const".toList], ["U".toList], ["&".toList]⟩, "u".toList, []⟩]⟩

example : ∃ f1 f2, specFunc ascii [⟨tyInt, []⟩] two = .changed f1 ∧ specFunc ascii [⟨tyVec, []⟩] f1 = .changed f2 ∧
    f2.host.text = some "<int, vector<int>>".toList :=
  ⟨⟨⟨some ["T".toList, "U".toList], [tyInt]⟩, "f".toList, some tyInt, [⟨⟨["const".toList], ["U".toList], ["&".toList]⟩, "u".toList, []⟩]⟩,
   ⟨⟨some ["T".toList, "U".toList], [tyInt, tyVec]⟩, "f".toList, some tyInt,
     [⟨⟨["const".toList], ["vector<int>".toList], ["&".toList]⟩, "u".toList, []⟩]⟩, by decide +kernel, by decide +kernel, by decide +kernel⟩

/-- C53. A template whose parameters all have types cannot be specialised again, and a function which is not a template cannot be
specialised without naming the parameter: an exception. -/
theorem C53_exhausted (u : Char → Bool) (a : CppType) (f : Func)
    (h : f.host.template = none ∨ ∃ names, f.host.template = some names ∧ names.length ≤ f.host.given.length) :
    specFunc u [⟨a, []⟩] f = .error := by
  unfold specFunc
  rcases h with h | ⟨names, h, hl⟩
  · simp [store, h]
  · simp [store, h, List.getElem?_eq_none hl]

example : specFunc ascii [⟨tyInt, []⟩] { sum2 with host := ⟨some ["T".toList], [tyVec]⟩ } = .error := by decide +kernel

/-! ### Instantiation by the generator -/

/-- The generator can instantiate each template function and each template class of one parameter that the options ask for. -/
def C53_instantiate_statement : Prop :=
  ∀ (u : Char → Bool) (a : CppType) (name : Str) (f : Func), f.host = ⟨some [name], []⟩ → Ident u name → a.typenames.length = 1 →
    (strCode a).isSome → (instantiateFunc u a f).isSome

/-- C53, failure: `template<typename T> void reset();` stops the generator (`assert new_cpp_function is not None`), because no type of
the declaration mentions `T`. -/
theorem C53_instantiate_fails : ¬ C53_instantiate_statement := by
  intro h
  have := h ascii tyInt "T".toList ⟨⟨some ["T".toList], []⟩, "reset".toList, some ⟨[], ["void".toList], []⟩, []⟩ rfl (by decide +kernel)
    (by decide +kernel) (by decide +kernel)
  revert this
  decide +kernel

/-- C53. What is missing is exactly the templates that do not mention their parameter in a type. -/
theorem C53_instantiate_partial (u : Char → Bool) (a : CppType) (name : Str) (f : Func) (h : Head) (blocks : List Block)
    (hf : f.host = ⟨some [name], []⟩) (hh : h.host = ⟨some [name], []⟩) (hn : Ident u name) (ha : a.typenames.length = 1)
    (hb : (strCode a).isSome) :
    ((instantiateFunc u a f).isSome ↔ ∃ t ∈ funcTypes f, TypeHas u name t) ∧
    ((instantiateClass u a h blocks).isSome ↔ ∃ t ∈ blocksTypes blocks, TypeHas u name t) := by
  obtain ⟨by_, hb⟩ := Option.isSome_iff_exists.1 hb
  have k1 := C53_function u a by_ name [name] f (by rw [hf]) (by rw [hf]; rfl) hn ha hb
  have k2 := C53_class u a by_ name [name] h blocks (by rw [hh]) (by rw [hh]; rfl) hn ha hb
  unfold instantiateFunc instantiateClass
  constructor
  · by_cases hx : ∃ t ∈ funcTypes f, TypeHas u name t
    · obtain ⟨f', e, _⟩ := k1.1 hx
      rw [e]; simpa using hx
    · rw [k1.2 hx]; simpa using hx
  · by_cases hx : ∃ t ∈ blocksTypes blocks, TypeHas u name t
    · obtain ⟨f', e, _⟩ := k2.1 hx
      rw [e]; simpa using hx
    · rw [k2.2 hx]; simpa using hx

/-- Nothing of the instantiated class mentions the template parameter. -/
def C53_complete_statement : Prop :=
  ∀ (u : Char → Bool) (a : CppType) (by_ name : Str) (h : Head) (blocks : List Block) (h' : Head) (blocks' : List Block),
    h.host = ⟨some [name], []⟩ → Ident u name → strCode a = some by_ → ¬ HasWord u name by_ →
    instantiateClass u a h blocks = some (.struct_ h' blocks') → ∀ b ∈ h'.bases, ¬ HasWord u name b

/-- C53, failure: the bases (and the default values) are not specialised: `Foo<int>` has the base `Base<T>`. -/
theorem C53_complete_fails : ¬ C53_complete_statement := by
  intro h
  have hx : ∃ t ∈ blocksTypes fooBlocks, TypeHas ascii "T".toList t :=
    ⟨tyT, by simp [fooBlocks, blocksTypes, blockTypes, childrenTypes, elemTypes], by decide +kernel⟩
  obtain ⟨bs, e, -⟩ := (C53_class ascii tyInt "int".toList "T".toList ["T".toList] fooHead fooBlocks rfl rfl (by decide +kernel) rfl
    (by decide +kernel)).1 hx
  refine h ascii tyInt "int".toList "T".toList fooHead fooBlocks _ bs rfl (by decide +kernel) (by decide +kernel) (by decide +kernel)
    (by unfold instantiateClass; rw [e]) "Base<T>".toList (by simp [fooHead]) (by decide +kernel)

/-! ### Template arguments -/

/-- C53. The arguments of an instantiation are written in the order of the parameters, `<a, b>`, and nothing is written for a template
without types. -/
theorem C53_arguments (h : Host) (texts : List Str) (ht : List.Forall₂ (fun t s => strCode t = some s) h.given texts) :
    h.text = some (if texts = [] then [] else "<".toList ++ join ", ".toList texts ++ ">".toList) := by
  unfold Host.text
  have hm : h.given.mapM strCode = some texts := by
    generalize h.given = l at ht
    induction ht with
    | nil => rfl
    | cons h1 _ ih => rw [List.mapM_cons, h1, ih]; rfl
  cases ht' : h.given with
  | nil =>
    rw [ht'] at ht
    cases ht
    simp
  | cons x l =>
    rw [ht'] at hm ht
    rw [hm, if_pos (by simp), if_neg]
    · rfl
    · rintro rfl
      cases ht

example : List.Forall₂ (fun t s => strCode t = some s) [tyInt, tyVec] ["int".toList, "vector<int>".toList] := by decide +kernel

end Verif.Inst.Props
