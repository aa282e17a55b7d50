import Verif.Cls.Text
import Verif.Cls.PropsMember
import Verif.Type.Lemmas

/-! C70: the statement that declares a class in the binding, and its bases in the stub. -/

namespace Verif.Cls.Props
open Verif.Py Verif.Cls Verif.Template.Spec

/-- The texts of a class are names: they have no brace; its comment has no placeholder of the template. -/
structure Texts (o : Options) (c : Class) : Prop where
  indent : '{' ∉ o.indent
  var : '{' ∉ c.var
  name : '{' ∉ c.name
  scope : '{' ∉ c.scope
  specialization : '{' ∉ c.specialization
  bases : ∀ b ∈ c.bases, '{' ∉ b.cppName
  custom : ∀ b ∈ c.customPydef, '{' ∉ b
  location : '{' ∉ locationText o c.location "//".toList
  pyName : '{' ∉ c.pyName
  parentVar : '{' ∉ c.parentVar
  doc : Inert "maybe_shared_ptr_holder".toList (docOneLine o (fullComment c.previous c.eol)) ∧
    Inert "maybe_comma".toList (docOneLine o (fullComment c.previous c.eol))

theorem qualified_eq (c : Class) : qualified c = Spec.className c := by
  unfold qualified Spec.className Spec.inScope
  by_cases h : c.scope = []
  · rw [if_pos h, if_pos (by rw [h]; rfl)]
  · rw [if_neg h, if_neg (by rw [List.length_eq_zero_iff]; exact h)]

theorem open_append {a b : Str} (ha : '{' ∉ a) (hb : '{' ∉ b) : '{' ∉ a ++ b := by
  rw [List.mem_append, not_or]; exact ⟨ha, hb⟩

theorem open_join {sep : Str} (hs : '{' ∉ sep) (l : List Str) (h : ∀ x ∈ l, '{' ∉ x) : '{' ∉ join sep l := by
  induction l with
  | nil => simp
  | cons x l ih =>
    cases l with
    | nil => exact h x (by simp)
    | cons y l => exact open_append (open_append (h x (by simp)) hs) (ih (fun z hz => h z (List.mem_cons_of_mem _ hz)))

theorem open_lib (o : Fn.Options) : '{' ∉ Fn.lib o := by
  unfold Fn.lib; split <;> decide

theorem open_className {o : Options} {c : Class} (h : Texts o c) : '{' ∉ Spec.className c := by
  unfold Spec.className Spec.inScope
  refine open_append ?_ h.specialization
  split
  · exact h.name
  · exact open_append (open_append h.scope (by decide)) h.name

/-- The statement that declares a class. -/
def C70_statement : Prop := ∀ (o : Options) (c : Class), Texts o c → (c.hasBases = false → c.bases = []) →
  ∃ args, args.Perm (Spec.classArgs o c) ∧ creationCode o c =
    some (unlines (Spec.classHead (Fn.lib o.toOptions) o.indent c.var (Spec.className c :: args) (locationText o c.location "//".toList)
      (Spec.classCall (Fn.lib o.toOptions) c (o.dynamicAttributes c.name) (docOneLine o (fullComment c.previous c.eol)))))

theorem texts_demo : Texts demoO demoClass := by
  constructor
  all_goals first | decide +kernel | exact ⟨(Template.inert_iff _ _).1 (by decide +kernel), (Template.inert_iff _ _).1 (by decide +kernel)⟩

/-- C70. It fails: a protected base and the private base of a `class` (without specifier) are bases in the binding, although no conversion
compiles; a class with a private destructor that the options hold in a shared pointer gets two holders; `virtual` before a base is an error. -/
theorem C70_fails : ¬ C70_statement ∧
    (creationCode demoO { demoClass with bases := [⟨"protected".toList, "N::Base".toList, "Base".toList⟩] }).map String.ofList =
      some "auto pyNsN_ClassFoo =\n    py::class_<N::Foo, N::Base>    // lib.h:3\n        (pyNsN, \"Foo\", \"a class\")" ∧
    (creationCode demoO { demoClass with isClass := true, bases := [⟨[], "N::Base".toList, "Base".toList⟩] }).map String.ofList =
      some "auto pyNsN_ClassFoo =\n    py::class_<N::Foo, N::Base>    // lib.h:3\n        (pyNsN, \"Foo\", \"a class\")" ∧
    (creationCode { demoO with heldAsShared := fun _ => true }
      { demoClass with bases := [], specials := [⟨false, [], [], .private_⟩] }).map String.ofList =
      some ("auto pyNsN_ClassFoo =\n    py::class_<N::Foo, std::unique_ptr<N::Foo, py::nodelete>, std::shared_ptr<N::Foo>>    // lib.h:3\n" ++
        "        (pyNsN, \"Foo\", \"a class\")") ∧
    creationCode demoO { demoClass with bases := [⟨"virtual".toList, "N::Base".toList, "Base".toList⟩] } = none := by
  refine ⟨fun h => ?_, by decide +kernel, by decide +kernel, by decide +kernel, by decide +kernel⟩
  have ht : Texts demoO { demoClass with bases := [⟨"virtual".toList, "N::Base".toList, "Base".toList⟩] } :=
    { texts_demo with bases := by decide +kernel }
  obtain ⟨args, _, h2⟩ := h demoO _ ht (by decide +kernel)
  have e : creationCode demoO { demoClass with bases := [⟨"virtual".toList, "N::Base".toList, "Base".toList⟩] } = none := by decide +kernel
  rw [e] at h2
  cases h2

/-- The bases of a class are written so that C++ and the generator agree on their access. -/
def PlainBases (c : Class) : Prop :=
  ∀ b ∈ c.bases, b.specifier = "public".toList ∨ b.specifier = "private".toList ∨ (b.specifier = [] ∧ c.isClass = false)

theorem allSome_bases (c : Class) (h : PlainBases c) :
    (Fn.allSome (c.bases.map (fun b => (accessFromName b.specifier).map (fun a => (a, b.cppName))))).map
      (fun l => (l.filter (fun x => decide (x.1 = .public_) || decide (x.1 = .protected_))).map (·.2)) =
    some ((Spec.publicBases c).map (·.cppName)) := by
  unfold Spec.publicBases
  unfold PlainBases at h
  generalize c.bases = bs at *
  induction bs with
  | nil => rfl
  | cons b bs ih =>
    have ih := ih (fun x hx => h x (List.mem_cons_of_mem _ hx))
    cases hs : Fn.allSome (bs.map (fun b => (accessFromName b.specifier).map (fun a => (a, b.cppName)))) with
    | none => rw [hs] at ih; cases ih
    | some l =>
      rw [hs, Option.map_some, Option.some.injEq] at ih
      have key : ∀ a, accessFromName b.specifier = some a → Spec.access c.isClass b.specifier = some a → a = .public_ ∨ a = .private_ →
          (Fn.allSome ((b :: bs).map (fun b => (accessFromName b.specifier).map (fun a => (a, b.cppName))))).map
            (fun l => (l.filter (fun x => decide (x.1 = .public_) || decide (x.1 = .protected_))).map (·.2)) =
          some (((b :: bs).filter (fun b => decide (Spec.access c.isClass b.specifier = some .public_))).map (·.cppName)) := by
        intro a h1 h2 h3
        rw [List.map_cons, h1, Option.map_some, Fn.allSome, hs, Option.map_some, Option.map_some]
        refine congrArg some ?_
        rcases h3 with rfl | rfl
        · rw [List.filter_cons_of_pos (by simp), List.filter_cons_of_pos (by rw [h2]; simp), List.map_cons, List.map_cons, ih]
        · rw [List.filter_cons_of_neg (by simp), List.filter_cons_of_neg (by rw [h2]; simp), ih]
      rcases h b (by simp) with e | e | ⟨e, e'⟩
      · exact key .public_ (by rw [e]; rfl) (by rw [e]; rfl) (.inl rfl)
      · exact key .private_ (by rw [e]; rfl) (by rw [e]; rfl) (.inr rfl)
      · exact key .public_ (by rw [e]; rfl) (by rw [e, e']; rfl) (.inl rfl)

theorem pydefBases_eq (c : Class) (hb : c.hasBases = false → c.bases = []) (h : c.customPydef ≠ [] ∨ PlainBases c) :
    pydefBases c = some (if c.customPydef ≠ [] then c.customPydef else (Spec.publicBases c).map (·.cppName)) := by
  unfold pydefBases
  by_cases hc : c.customPydef = []
  · rw [if_neg (show ¬ c.customPydef ≠ [] from not_not.2 hc), if_neg (show ¬ c.customPydef ≠ [] from not_not.2 hc)]
    cases hh : c.hasBases with
    | false =>
      rw [if_neg (by simp)]
      unfold Spec.publicBases
      rw [hb hh]; rfl
    | true =>
      rw [if_pos rfl]
      exact allSome_bases c (h.resolve_left (by simp [hc]))
  · rw [if_pos hc, if_pos hc]

theorem join_head (q : Str) (l : List Str) : join ", ".toList (q :: l) = q ++ if l.length > 0 then ", ".toList ++ join ", ".toList l else [] := by
  cases l with
  | nil => rw [if_neg (by simp), List.append_nil]; rfl
  | cons x l => rw [if_pos (by simp)]; exact List.append_assoc _ _ _

theorem join_snoc (q : Str) (l : List Str) (x : Str) :
    join ", ".toList (q :: (l ++ [x])) = join ", ".toList (q :: l) ++ (", ".toList ++ x) := by
  rw [← List.cons_append, Verif.Type.join_append (by simp) (by simp), List.append_assoc]
  rfl

theorem creation_text (o : Options) (c : Class) (ht : Texts o c) (X : List Str) (hX : ∀ x ∈ X, '{' ∉ x) :
    Template.processCodeTemplate (Indent.unindentCode creationTemplateRaw true)
      [("py".toList, Fn.lib o.toOptions), ("_i_".toList, o.indent), ("pydef_class_var".toList, c.var),
       ("qualified_struct_name".toList, qualified c),
       ("other_template_params".toList, if X.length > 0 then ", ".toList ++ join ", ".toList X else []),
       ("location".toList, locationText o c.location "//".toList), ("class_name_python".toList, c.pyName),
       ("pydef_class_var_parent".toList, c.parentVar),
       ("maybe_py_is_final".toList, if c.isFinal then ", ".toList ++ Fn.lib o.toOptions ++ "::is_final()".toList else []),
       ("maybe_py_is_dynamic".toList,
         if o.dynamicAttributes c.name then ", ".toList ++ Fn.lib o.toOptions ++ "::dynamic_attr()".toList else []),
       ("comment".toList, docOneLine o (fullComment c.previous c.eol)),
       ("maybe_shared_ptr_holder".toList,
         if o.heldAsShared c.name && !o.nanobind then ", std::shared_ptr<".toList ++ qualified c ++ ">".toList else [])] =
    unlines (Spec.classHead (Fn.lib o.toOptions) o.indent c.var (Spec.className c :: (X ++
        if o.heldAsShared c.name && !o.nanobind then ["std::shared_ptr<".toList ++ Spec.className c ++ ">".toList] else []))
      (locationText o c.location "//".toList)
      (Spec.classCall (Fn.lib o.toOptions) c (o.dynamicAttributes c.name) (docOneLine o (fullComment c.previous c.eol)))) := by
  have hq := open_className ht
  rw [qualified_eq]
  generalize hS : (if o.heldAsShared c.name && !o.nanobind then ["std::shared_ptr<".toList ++ Spec.className c ++ ">".toList] else []) = S
  have hSt : (if o.heldAsShared c.name && !o.nanobind then ", std::shared_ptr<".toList ++ Spec.className c ++ ">".toList else []) =
      (if S.length > 0 then ", ".toList ++ join ", ".toList S else []) := by
    rw [← hS]
    split
    · rfl
    · rfl
  have hSo : '{' ∉ (if S.length > 0 then ", ".toList ++ join ", ".toList S else []) := by
    rw [← hSt]
    split
    · exact open_append (open_append (by decide) hq) (by decide)
    · simp
  rw [hSt]
  have hother : '{' ∉ (if X.length > 0 then ", ".toList ++ join ", ".toList X else []) := by
    split
    · exact open_append (by decide) (open_join (by decide) _ hX)
    · simp
  have hfin : '{' ∉ (if c.isFinal = true then ", ".toList ++ Fn.lib o.toOptions ++ "::is_final()".toList else []) := by
    split
    · exact open_append (open_append (by decide) (open_lib _)) (by decide)
    · simp
  have hdyn : '{' ∉ (if o.dynamicAttributes c.name = true then ", ".toList ++ Fn.lib o.toOptions ++ "::dynamic_attr()".toList else []) := by
    split
    · exact open_append (open_append (by decide) (open_lib _)) (by decide)
    · simp
  rw [creation_fill _ _ _ _ _ _ _ _ _ _ _ _ (open_lib _) ht.indent ht.var hq hother ht.location ht.pyName ht.parentVar hfin hdyn ht.doc hSo]
  have hargs : join ", ".toList (Spec.className c :: (X ++ S)) = Spec.className c ++
      (if (X).length > 0 then ", ".toList ++ join ", ".toList (X) else []) ++
      (if S.length > 0 then ", ".toList ++ join ", ".toList S else []) := by
    cases S with
    | nil => rw [List.append_nil, join_head, if_neg (show ¬ ([] : List Str).length > 0 by simp), List.append_nil]
    | cons x S' =>
      have hS' : S' = [] := by
        split at hS
        · rw [List.cons.injEq] at hS; exact hS.2.symm
        · cases hS
      subst hS'
      rw [join_snoc, join_head, if_pos (show [x].length > 0 by simp)]
      rfl
  have hcall : join ", ".toList (Spec.classCall (Fn.lib o.toOptions) c (o.dynamicAttributes c.name) (docOneLine o (fullComment c.previous c.eol))) =
      c.parentVar ++ ", \"".toList ++ c.pyName ++ "\"".toList ++
      (if c.isFinal = true then ", ".toList ++ Fn.lib o.toOptions ++ "::is_final()".toList else []) ++
      (if o.dynamicAttributes c.name = true then ", ".toList ++ Fn.lib o.toOptions ++ "::dynamic_attr()".toList else []) ++
      ", \"".toList ++ docOneLine o (fullComment c.previous c.eol) ++ "\"".toList := by
    have e : ", \"".toList = ", ".toList ++ "\"".toList := rfl
    unfold Spec.classCall
    cases c.isFinal <;> cases o.dynamicAttributes c.name <;>
      simp only [if_true, if_false, Bool.false_eq_true, List.nil_append, List.append_nil, List.cons_append, join, Spec.quoted, List.append_assoc, e]
  have e : "\")".toList = "\"".toList ++ ")".toList := rfl
  unfold Spec.classHead
  rw [hargs, hcall, e]
  simp only [List.append_assoc]

/-- C70. For every class whose bases are public or private, or without specifier in a `struct`, and that does not need two holders: the
statement names the variable, the class with all its template arguments, exactly its public bases (or those the callback gives), its trampoline
and its holder, the place where the class is put, its Python name, and its docstring. Missing: see `C70_fails`. -/
theorem C70_partial (o : Options) (c : Class) (ht : Texts o c) (hb : c.hasBases = false → c.bases = [])
    (hacc : c.customPydef ≠ [] ∨ PlainBases c)
    (hold : o.nanobind = true ∨ o.heldAsShared c.name = false ∨ ∀ s ∈ c.specials, s.isCtor = true ∨ s.access ≠ .private_) :
    ∃ args, args.Perm (Spec.classArgs o c) ∧ creationCode o c =
      some (unlines (Spec.classHead (Fn.lib o.toOptions) o.indent c.var (Spec.className c :: args) (locationText o c.location "//".toList)
        (Spec.classCall (Fn.lib o.toOptions) c (o.dynamicAttributes c.name) (docOneLine o (fullComment c.previous c.eol))))) := by
  have hq := open_className ht
  have hBo : ∀ b ∈ (if c.customPydef ≠ [] then c.customPydef else (Spec.publicBases c).map (·.cppName)), '{' ∉ b := by
    split
    · exact ht.custom
    · intro b hb'
      obtain ⟨x, hx, rfl⟩ := List.mem_map.1 hb'
      exact ht.bases x (List.mem_of_mem_filter hx)
  unfold creationCode otherParams Spec.classArgs
  rw [pydefBases_eq c hb hacc, qualified_eq]
  generalize (if c.customPydef ≠ [] then c.customPydef else (Spec.publicBases c).map (·.cppName)) = B at *
  have hT : (if c.overridden = true then [(if c.scope.length > 0 then c.scope ++ "::".toList else []) ++ c.name ++ "_trampoline".toList] else []) =
      (if c.overridden = true then [Spec.inScope c.scope (c.name ++ "_trampoline".toList)] else []) := by
    congr 2
    unfold Spec.inScope
    by_cases hs : c.scope = []
    · rw [if_pos hs, if_neg (by simp [hs])]; rfl
    · rw [if_neg hs, if_pos (List.length_pos_iff.2 hs), List.append_assoc]
  have hTo : ∀ b ∈ (if c.overridden = true then [Spec.inScope c.scope (c.name ++ "_trampoline".toList)] else []), '{' ∉ b := by
    intro b hb'
    split at hb'
    · rw [List.mem_singleton] at hb'
      subst hb'
      unfold Spec.inScope
      split
      · exact open_append ht.name (by decide)
      · exact open_append (open_append ht.scope (by decide)) (open_append ht.name (by decide))
    · simp at hb'
  rw [hT]
  generalize (if c.overridden = true then [Spec.inScope c.scope (c.name ++ "_trampoline".toList)] else []) = T at *
  generalize hD : (if hasPrivateDtor c && !o.nanobind then ["std::unique_ptr<".toList ++ Spec.className c ++ ", py::nodelete>".toList] else []) = D
  have hDo : ∀ b ∈ D, '{' ∉ b := by
    intro b hb'
    rw [← hD] at hb'
    split at hb'
    · rw [List.mem_singleton] at hb'
      subst hb'
      exact open_append (open_append (by decide) hq) (by decide)
    · simp at hb'
  generalize hS : (if o.heldAsShared c.name && !o.nanobind then ["std::shared_ptr<".toList ++ Spec.className c ++ ">".toList] else []) = S
  have hSt : (if o.heldAsShared c.name && !o.nanobind then ", std::shared_ptr<".toList ++ Spec.className c ++ ">".toList else []) =
      (if S.length > 0 then ", ".toList ++ join ", ".toList S else []) := by
    rw [← hS]
    split
    · rfl
    · rfl
  have hSo : '{' ∉ (if S.length > 0 then ", ".toList ++ join ", ".toList S else []) := by
    rw [← hSt]
    split
    · exact open_append (open_append (by decide) hq) (by decide)
    · simp
  have hholder : D ++ S = (Spec.holder o c).toList := by
    rw [← hD, ← hS]
    unfold Spec.holder
    have e : (c.specials.any fun s => !s.isCtor && decide (s.access = .private_)) = hasPrivateDtor c := rfl
    rw [e]
    cases hn : o.nanobind with
    | true => rw [Bool.not_true, Bool.and_false, Bool.and_false]; rfl
    | false =>
      rw [Bool.not_false, Bool.and_true, Bool.and_true]
      cases hd : hasPrivateDtor c with
      | false => cases o.heldAsShared c.name <;> rfl
      | true =>
        rcases hold with h | h | h
        · rw [hn] at h; cases h
        · rw [h]; rfl
        · exfalso
          unfold hasPrivateDtor at hd
          obtain ⟨s, hs1, hs2⟩ := List.any_eq_true.1 hd
          rw [Bool.and_eq_true, Bool.not_eq_true', decide_eq_true_iff] at hs2
          rcases h s hs1 with h | h
          · rw [hs2.1] at h; cases h
          · exact h hs2.2
  refine ⟨B ++ D ++ T ++ S, ?_, ?_⟩
  · rw [← hholder, List.append_assoc, List.append_assoc, List.append_assoc]
    refine List.Perm.append_left B ?_
    rw [← List.append_assoc, ← List.append_assoc]
    exact List.Perm.append_right S List.perm_append_comm
  · rw [Option.map_some, Option.map_some, hSt]
    refine congrArg some ?_
    have := creation_text o c ht (B ++ D ++ T) (by
      intro x hx
      rw [List.mem_append, List.mem_append] at hx
      rcases hx with (hx | hx) | hx
      · exact hBo x hx
      · exact hDo x hx
      · exact hTo x hx)
    rw [qualified_eq, hSt, hS] at this
    exact this

example : Texts demoO demoClass ∧ (demoClass.hasBases = false → demoClass.bases = []) ∧ PlainBases demoClass ∧
    demoO.heldAsShared demoClass.name = false ∧ (creationCode demoO demoClass).map String.ofList =
      some "auto pyNsN_ClassFoo =\n    py::class_<N::Foo, N::Base>    // lib.h:3\n        (pyNsN, \"Foo\", \"a class\")" :=
  ⟨texts_demo, by decide +kernel, by unfold PlainBases; decide +kernel, by decide +kernel, by decide +kernel⟩

end Verif.Cls.Props
