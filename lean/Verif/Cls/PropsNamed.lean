import Verif.Cls.PropsClass

/-! C74: the constructor with named arguments. -/

namespace Verif.Cls.Props
open Verif.Py Verif.Cls Verif.Adapt Verif.Template.Spec

/-- The texts of a constructor with named arguments: nothing in them is a placeholder or a line break. -/
structure NamedTexts (o : Options) (c : Class) : Prop where
  indent : ∀ x ∈ o.indent, x = ' '
  cls : '{' ∉ Spec.className c ∧ '\n' ∉ Spec.className c
  names : ∀ p ∈ c.named.params, '{' ∉ p.name ∧ '\n' ∉ p.name
  defaults : ∀ p ∈ c.named.params, (Inert "maybe_pyargs".toList p.default ∧ Inert "maybe_comma".toList p.default) ∧ '\n' ∉ p.default
  params : ∀ p ∈ c.named.adapted, (Inert "all_params_set_values".toList (Fn.signatureOf p) ∧ Inert "maybe_pyargs".toList (Fn.signatureOf p) ∧
    Inert "maybe_comma".toList (Fn.signatureOf p)) ∧ '\n' ∉ Fn.signatureOf p
  pyargs : c.named.pyargs ≠ [] ∧ ∀ a ∈ c.named.pyargs, Inert "maybe_comma".toList a ∧ Inked a

/-- The parameters of the adapted function are those of the named constructor, after the object for nanobind. -/
def SameNames (o : Options) (c : Class) : Prop :=
  c.named.adapted.map (·.name) = (if o.nanobind then ["self".toList] else []) ++ c.named.params.map (·.name)

/-- The assignments, for all parameters. -/
def setsOf (o : Options) (n : NamedCtor) : List Str :=
  n.params.flatMap (fun p => Spec.setLines o.indent (n.madeOptional p) p.name p.default)

theorem inert_join {k sep : Str} (hs : Inert k sep) (l : List Str) (h : ∀ x ∈ l, Inert k x) : Inert k (join sep l) := by
  induction l with
  | nil => exact Template.inert_of_no_open (by simp)
  | cons x l ih =>
    cases l with
    | nil => exact h x (by simp)
    | cons y l =>
      exact Template.inert_append (Template.inert_append (h x (by simp)) hs) (ih (fun z hz => h z (List.mem_cons_of_mem _ hz)))

theorem nl_join {sep : Str} (hs : '\n' ∉ sep) (l : List Str) (h : ∀ x ∈ l, '\n' ∉ x) : '\n' ∉ join sep l := by
  induction l with
  | nil => simp
  | cons x l ih =>
    cases l with
    | nil => exact h x (by simp)
    | cons y l => exact nl_append (nl_append (h x (by simp)) hs) (ih (fun z hz => h z (List.mem_cons_of_mem _ hz)))

theorem inked_join {sep : Str} (hs : '\n' ∉ sep) (l : List Str) (hne : l ≠ []) (h : ∀ x ∈ l, Inked x) : Inked (join sep l) := by
  induction l with
  | nil => exact absurd rfl hne
  | cons x l ih =>
    cases l with
    | nil => exact h x (by simp)
    | cons y l =>
      exact inked_append _ (nl_append (h x (by simp)).1 hs) (ih (by simp) (fun z hz => h z (List.mem_cons_of_mem _ hz)))

theorem setLines_inked {ind x d : Str} (opt : Bool) (hi : '\n' ∉ ind) (hx : '\n' ∉ x) (hd : '\n' ∉ d) : ∀ l ∈ Spec.setLines ind opt x d, Inked l := by
  have e1 : Inked ";".toList := inked_literal _ (by decide) ⟨';', by decide, by decide⟩
  have e2 : Inked ".value();".toList := inked_literal _ (by decide) ⟨';', by decide, by decide⟩
  have e3 : Inked ".has_value())".toList := inked_literal _ (by decide) ⟨')', by decide, by decide⟩
  have e4 : Inked "else".toList := inked_literal _ (by decide) ⟨'e', by decide, by decide⟩
  unfold Spec.setLines
  intro l hl
  split at hl
  · simp only [List.mem_cons, List.not_mem_nil, or_false] at hl
    rcases hl with rfl | rfl | rfl | rfl
    · exact inked_append _ (nl_append (by decide) hx) e3
    · exact inked_append _ (nl_append (nl_append (nl_append (nl_append hi (by decide)) hx) (by decide)) hx) e2
    · exact e4
    · exact inked_append _ (nl_append (nl_append (nl_append (nl_append hi (by decide)) hx) (by decide)) hd) e1
  · rw [List.mem_singleton] at hl
    subst hl
    exact inked_append _ (nl_append (nl_append (nl_append (by decide) hx) (by decide)) hx) e1

theorem setValue_eq (o : Options) (n : NamedCtor) (p q : Param) (hq : q.name = p.name) (hi : '\n' ∉ o.indent) (hx : '\n' ∉ p.name)
    (hd : '\n' ∉ p.default) : setValue o n p q = unlines (Spec.setLines o.indent (n.madeOptional p) p.name p.default) := by
  unfold setValue
  dsimp only
  rw [hq]
  have hin := setLines_inked (n.madeOptional p) hi hx hd
  unfold Spec.setLines at *
  split
  · next h =>
    rw [if_pos h] at hin
    rw [← unindent_block 20 20 _ _ ?_ hin]
    · rfl
    · intro h'
      exact absurd (Option.some.inj h') (by decide)
  · rfl

theorem unlines_flatten (ls : List (List Str)) (h : ∀ l ∈ ls, l ≠ []) : unlines (ls.map unlines) = unlines ls.flatten := by
  induction ls with
  | nil => rfl
  | cons l ls ih =>
    cases ls with
    | nil => simp [unlines]
    | cons m ls =>
      rw [List.map_cons, List.flatten_cons]
      have hne : (m :: ls).flatten ≠ [] := by
        intro e
        rw [List.flatten_eq_nil_iff] at e
        exact h m (by simp) (e m (by simp))
      show join _ (unlines l :: (m :: ls).map unlines) = join _ _
      rw [join_cons_of_ne_nil _ _ (by simp), Verif.Type.join_append (h l (by simp)) hne]
      exact congrArg _ (ih (fun x hx => h x (List.mem_cons_of_mem _ hx)))

/-- Lines of code, indented. -/
theorem indent_inked (ls : List Str) (hne : ls ≠ []) (h : ∀ l ∈ ls, Inked l) (n : Nat) (v : Str) :
    Indent.indentCode (unlines ls) n false (some v) = unlines (ls.map (v ++ ·)) := by
  unfold Indent.indentCode Indent.indentAll
  rw [if_neg (by simp), lines_unlines hne (fun l hl => (h l hl).1)]
  dsimp only
  refine congrArg unlines (List.map_congr_left (fun l hl => ?_))
  unfold Indent.indentLine
  rw [if_neg, if_pos rfl, inked_rstrip (h l hl)]
  obtain ⟨_, a, c, rfl, _⟩ := h l hl
  simp

theorem setValues_eq (o : Options) (c : Class) (ht : NamedTexts o c) (hs : SameNames o c) (hself : o.nanobind = true ∨ (c.named.params.map (·.name)).head? ≠ some "self".toList)
    (hne : c.named.params ≠ []) :
    setValues o c.named = some (unlines ((setsOf o c.named).map (o.indent ++ ·))) := by
  have hi : '\n' ∉ o.indent := fun h => absurd (ht.indent _ h) (by decide)
  obtain ⟨ms, hms, hnames⟩ : ∃ ms, withoutSelf c.named.adapted = ms ∧ ms.map (·.name) = c.named.params.map (·.name) := by
    refine ⟨_, rfl, ?_⟩
    unfold SameNames at hs
    cases had : c.named.adapted with
    | nil =>
      rw [had] at hs
      cases hn : o.nanobind with
      | true => rw [hn] at hs; cases hs
      | false => rw [hn] at hs; exact hs
    | cons p r =>
      rw [had] at hs
      cases hn : o.nanobind with
      | true =>
        rw [hn, if_pos rfl, List.map_cons, List.singleton_append, List.cons.injEq] at hs
        rw [withoutSelf, if_pos hs.1]
        exact hs.2
      | false =>
        rw [hn, if_neg (by simp), List.nil_append] at hs
        rw [withoutSelf, if_neg, hs]
        intro e
        rw [hn] at hself
        rcases hself with h | h
        · cases h
        · rw [← hs, List.map_cons, List.head?_cons, e] at h
          exact h rfl
  have hzip : ∀ (ps qs : List Param), qs.map (·.name) = ps.map (·.name) → (∀ p ∈ ps, p ∈ c.named.params) →
      List.zipWith (setValue o c.named) ps qs =
        (ps.map (fun p => Spec.setLines o.indent (c.named.madeOptional p) p.name p.default)).map unlines := by
    intro ps
    induction ps with
    | nil => intro qs _ _; rfl
    | cons p ps ih =>
      intro qs h hm
      cases qs with
      | nil => cases h
      | cons q qs =>
        rw [List.map_cons, List.map_cons, List.cons.injEq] at h
        rw [List.zipWith_cons_cons, List.map_cons, List.map_cons, ih qs h.2 (fun x hx => hm x (by simp [hx])),
          setValue_eq o c.named p q h.1 hi (ht.names p (hm p (by simp))).2 (ht.defaults p (hm p (by simp))).2]
  have hlen : c.named.params.length = ms.length := by
    have := congrArg List.length hnames
    simpa using this.symm
  unfold setValues
  dsimp only
  rw [hms, if_neg (by simp [hlen]), hzip _ _ hnames (fun _ h => h), unlines_flatten]
  · refine congrArg some ?_
    rw [← List.flatMap_def]
    refine indent_inked _ ?_ ?_ 1 o.indent
    · intro e
      rw [List.flatMap_eq_nil_iff] at e
      obtain ⟨p, hp⟩ := List.exists_mem_of_ne_nil _ hne
      have := e p hp
      unfold Spec.setLines at this
      split at this <;> cases this
    · intro l hl
      obtain ⟨p, hp, hl⟩ := List.mem_flatMap.1 hl
      exact setLines_inked _ hi (ht.names p hp).2 (ht.defaults p hp).2 l hl
  · intro l hl
    obtain ⟨p, _, rfl⟩ := List.mem_map.1 hl
    unfold Spec.setLines
    split <;> simp

theorem namedLines_inked (o : Options) (c : Class) (ht : NamedTexts o c) :
    ∀ l ∈ Spec.namedLines o.nanobind o.indent (Spec.className c) (c.named.adapted.map Fn.signatureOf) (setsOf o c.named) c.named.pyargs, Inked l := by
  have hi : '\n' ∉ o.indent := fun h => absurd (ht.indent _ h) (by decide)
  have hsig : '\n' ∉ join ", ".toList (c.named.adapted.map Fn.signatureOf) := by
    refine nl_join (by decide) _ (fun x hx => ?_)
    obtain ⟨p, hp, rfl⟩ := List.mem_map.1 hx
    exact (ht.params p hp).2
  have hpy : Inked (join ", ".toList c.named.pyargs) := inked_join (by decide) _ ht.pyargs.1 (fun x hx => (ht.pyargs.2 x hx).2)
  have hset : ∀ l ∈ (setsOf o c.named).map (o.indent ++ ·), Inked l := by
    intro l hl
    obtain ⟨x, hx, rfl⟩ := List.mem_map.1 hl
    obtain ⟨p, hp, hx⟩ := List.mem_flatMap.1 hx
    exact inked_append _ hi (setLines_inked _ hi (ht.names p hp).2 (ht.defaults p hp).2 x hx)
  have h1 : Inked ")".toList := inked_literal _ (by decide) ⟨')', by decide, by decide⟩
  have h2 : Inked "{".toList := inked_literal _ (by decide) ⟨'{', by decide, by decide⟩
  have h3 : Inked "();  // placement new".toList := inked_literal _ (by decide) ⟨'w', by decide, by decide⟩
  have h4 : Inked "auto r_ctor_ = self;".toList := inked_literal _ (by decide) ⟨';', by decide, by decide⟩
  have h5 : Inked "},".toList := inked_literal _ (by decide) ⟨',', by decide, by decide⟩
  have h6 : Inked ".def(py::init<>([](".toList := inked_literal _ (by decide) ⟨'(', by decide, by decide⟩
  have h7 : Inked ">();".toList := inked_literal _ (by decide) ⟨';', by decide, by decide⟩
  have h8 : Inked "return r_ctor_;".toList := inked_literal _ (by decide) ⟨';', by decide, by decide⟩
  have h9 : Inked "})".toList := inked_literal _ (by decide) ⟨')', by decide, by decide⟩
  intro l hl
  unfold Spec.namedLines at hl
  split at hl
  · rw [List.mem_append, List.mem_append] at hl
    rcases hl with (hl | hl) | hl
    · simp only [List.mem_cons, List.not_mem_nil, or_false] at hl
      rcases hl with rfl | rfl | rfl | rfl
      · exact inked_append _ (nl_append (by decide) hsig) h1
      · exact h2
      · exact inked_append _ (nl_append (nl_append hi (by decide)) ht.cls.2) h3
      · exact inked_append _ hi h4
    · exact hset l hl
    · simp only [List.mem_cons, List.not_mem_nil, or_false] at hl
      rcases hl with rfl | rfl | rfl
      · exact h5
      · exact hpy
      · exact h1
  · rw [List.mem_append, List.mem_append] at hl
    rcases hl with (hl | hl) | hl
    · simp only [List.mem_cons, List.not_mem_nil, or_false] at hl
      rcases hl with rfl | rfl | rfl | rfl
      · exact h6
      · exact inked_append _ hsig h1
      · exact h2
      · exact inked_append _ (nl_append (nl_append hi (by decide)) ht.cls.2) h7
    · exact hset l hl
    · simp only [List.mem_cons, List.not_mem_nil, or_false] at hl
      rcases hl with rfl | rfl | rfl | rfl
      · exact inked_append _ hi h8
      · exact h9
      · exact inked_append _ (by decide) hpy
      · exact h1

theorem inert_sets {k : Str} (o : Options) (n : NamedCtor) (hi : '{' ∉ o.indent) (hn : ∀ p ∈ n.params, '{' ∉ p.name)
    (hd : ∀ p ∈ n.params, Inert k p.default) : Inert k (unlines ((setsOf o n).map (o.indent ++ ·))) := by
  refine inert_join (Template.inert_of_no_open (by decide)) _ (fun l hl => ?_)
  obtain ⟨x, hx, rfl⟩ := List.mem_map.1 hl
  obtain ⟨p, hp, hx⟩ := List.mem_flatMap.1 hx
  have h1 := hn p hp
  have h2 := hd p hp
  refine Template.inert_append (Template.inert_of_no_open hi) ?_
  unfold Spec.setLines at hx
  split at hx
  · simp only [List.mem_cons, List.not_mem_nil, or_false] at hx
    rcases hx with rfl | rfl | rfl | rfl
    · exact Template.inert_of_no_open (open_append (open_append (by decide) h1) (by decide))
    · exact Template.inert_of_no_open (open_append (open_append (open_append (open_append (open_append hi (by decide)) h1) (by decide)) h1) (by decide))
    · exact Template.inert_of_no_open (by decide)
    · refine Template.inert_append (Template.inert_append (Template.inert_of_no_open ?_) h2) (Template.inert_of_no_open (by decide))
      exact open_append (open_append (open_append hi (by decide)) h1) (by decide)
  · rw [List.mem_singleton] at hx
    subst hx
    exact Template.inert_of_no_open (open_append (open_append (open_append (open_append (by decide) h1) (by decide)) h1) (by decide))

theorem named_fill (nano : Bool) (ind q : Str) (params sets pyargs : List Str) (hne : sets ≠ []) (hi : '{' ∉ ind) (hq : '{' ∉ q)
    (h : Inert "all_params_set_values".toList (join ", ".toList params) ∧ Inert "maybe_pyargs".toList (join ", ".toList params) ∧
      Inert "maybe_comma".toList (join ", ".toList params))
    (hs : Inert "maybe_pyargs".toList (unlines (sets.map (ind ++ ·))) ∧ Inert "maybe_comma".toList (unlines (sets.map (ind ++ ·))))
    (hp : Inert "maybe_comma".toList (join ", ".toList pyargs)) :
    Template.processCodeTemplate (Indent.unindentCode (namedTemplateRaw nano) true)
      [("_i_".toList, ind), ("qualified_struct_name".toList, q), ("all_params_signature".toList, join ", ".toList params),
       ("all_params_set_values".toList, unlines (sets.map (ind ++ ·)))]
      [("maybe_pyargs".toList, some (join ", ".toList pyargs))] =
    unlines (Spec.namedLines nano ind q params sets pyargs) := by
  have hS : sets.map (ind ++ ·) ≠ [] := by simpa using hne
  have one : ∀ x : Str, unlines [x] = x := fun _ => rfl
  cases nano with
  | true =>
    rw [namedNb_fill _ _ _ _ _ hi hq h hs hp]
    unfold Spec.namedLines
    rw [if_pos rfl]
    generalize sets.map (ind ++ ·) = S at *
    generalize join ", ".toList params = P
    generalize join ", ".toList pyargs = A
    have := unlines_flatten [[".def(\"__init__\", [](".toList ++ P ++ ")".toList], ["{".toList],
      [ind ++ "new (self) ".toList ++ q ++ "();  // placement new".toList], [ind ++ "auto r_ctor_ = self;".toList], S, ["},".toList], [A], [")".toList]]
      (by simp only [List.forall_mem_cons]; refine ⟨?_, ?_, ?_, ?_, hS, ?_, ?_, ?_, ?_⟩ <;> simp)
    exact this
  | false =>
    rw [namedPy_fill _ _ _ _ _ hi hq h hs hp]
    unfold Spec.namedLines
    rw [if_neg (by simp)]
    generalize sets.map (ind ++ ·) = S at *
    generalize join ", ".toList params = P
    generalize join ", ".toList pyargs = A
    have := unlines_flatten [[".def(py::init<>([](".toList], [P ++ ")".toList], ["{".toList],
      [ind ++ "auto r_ctor_ = std::make_unique<".toList ++ q ++ ">();".toList], S, [ind ++ "return r_ctor_;".toList], ["})".toList],
      [", ".toList ++ A], [")".toList]]
      (by simp only [List.forall_mem_cons]; refine ⟨?_, ?_, ?_, ?_, hS, ?_, ?_, ?_, ?_, ?_⟩ <;> simp)
    exact this

/-- The options ask for a constructor with named arguments, and the class can have one: it has no constructor with parameters and its
destructor is not private. -/
def WantsNamed (o : Options) (c : Class) : Prop :=
  (if c.isClass then o.classNamedCtor else o.structNamedCtor) c.name = true ∧ (∀ s ∈ c.specials, s.isCtor = true → s.params = []) ∧
  ∀ s ∈ c.specials, s.isCtor = true ∨ s.access ≠ .private_

theorem namedFlag_of {o : Options} {c : Class} (h : WantsNamed o c) : namedFlag o c = true := by
  unfold namedFlag
  rw [if_neg, if_neg, h.1]
  · intro e
    obtain ⟨s, hs, e⟩ := List.any_eq_true.1 e
    rw [Bool.and_eq_true, Bool.not_eq_true', decide_eq_true_iff] at e
    rcases h.2.2 s hs with h | h
    · rw [e.1] at h; cases h
    · exact h e.2
  · intro e
    obtain ⟨s, hs, e⟩ := List.any_eq_true.1 e
    rw [Bool.and_eq_true, decide_eq_true_iff] at e
    rw [h.2.1 s hs e.1] at e
    exact absurd e.2 (by simp)

/-- A class that wants a constructor with named arguments gets one that assigns to every parameter its member. -/
def C74_statement : Prop := ∀ (o : Options) (c : Class), NamedTexts o c → SameNames o c → WantsNamed o c → c.named.params ≠ [] →
  namedPydef o c = some (unlines ((Spec.namedLines o.nanobind o.indent (Spec.className c) (c.named.adapted.map Fn.signatureOf)
    (setsOf o c.named) c.named.pyargs).map (o.indent ++ ·)) ++ "\n".toList)

/-- C74. For every struct or class, with either library, whose first named member is not called `self` (which matters only with pybind11): the
binding of the constructor has the parameters of the adapted function, makes one object of this class, and assigns every member, in order, from
the parameter with the same name (from the default value, if the parameter is optional and absent). Missing: see `C74_fails`. -/
theorem C74_partial (o : Options) (c : Class) (ht : NamedTexts o c) (hs : SameNames o c) (hw : WantsNamed o c) (hne : c.named.params ≠ [])
    (hself : o.nanobind = true ∨ (c.named.params.map (·.name)).head? ≠ some "self".toList) :
    namedPydef o c = some (unlines ((Spec.namedLines o.nanobind o.indent (Spec.className c) (c.named.adapted.map Fn.signatureOf)
      (setsOf o c.named) c.named.pyargs).map (o.indent ++ ·)) ++ "\n".toList) := by
  have hi : '{' ∉ o.indent := fun h => absurd (ht.indent _ h) (by decide)
  have hf := namedFlag_of hw
  have hin := namedLines_inked o c ht
  have hlen : c.named.params.length ≠ 0 := by rw [ne_eq, List.length_eq_zero_iff]; exact hne
  have hsne : setsOf o c.named ≠ [] := by
    intro e
    unfold setsOf at e
    rw [List.flatMap_eq_nil_iff] at e
    obtain ⟨p, hp⟩ := List.exists_mem_of_ne_nil _ hne
    have := e p hp
    unfold Spec.setLines at this
    split at this <;> cases this
  unfold namedPydef
  dsimp only
  rw [if_neg (by unfold voidFlag; rw [hf]; simp), hf, if_neg (by simp), if_neg (by simp [hlen]), if_neg hlen,
    setValues_eq o c ht hs hself hne, Option.map_some, qualified_eq]
  have hsets1 := inert_sets (k := "maybe_pyargs".toList) o c.named hi (fun p hp => (ht.names p hp).1) (fun p hp => (ht.defaults p hp).1.1)
  have hsets2 := inert_sets (k := "maybe_comma".toList) o c.named hi (fun p hp => (ht.names p hp).1) (fun p hp => (ht.defaults p hp).1.2)
  have hc : ∀ k, Inert k ", ".toList := fun k => Template.inert_of_no_open (by decide)
  have hsig : ∀ k, (∀ p ∈ c.named.adapted, Inert k (Fn.signatureOf p)) → Inert k (join ", ".toList (c.named.adapted.map Fn.signatureOf)) := by
    intro k h
    refine inert_join (hc k) _ (fun x hx => ?_)
    obtain ⟨p, hp, rfl⟩ := List.mem_map.1 hx
    exact h p hp
  have h1 := hsig _ (fun p hp => (ht.params p hp).1.1)
  have h2 := hsig _ (fun p hp => (ht.params p hp).1.2.1)
  have h3 := hsig _ (fun p hp => (ht.params p hp).1.2.2)
  have hpy : Inert "maybe_comma".toList (join ", ".toList c.named.pyargs) := inert_join (hc _) _ (fun x hx => (ht.pyargs.2 x hx).1)
  have key := named_fill o.nanobind o.indent (Spec.className c) (c.named.adapted.map Fn.signatureOf) (setsOf o c.named) c.named.pyargs hsne hi
    ht.cls.1 ⟨h1, h2, h3⟩ ⟨hsets1, hsets2⟩ hpy
  rw [key, indent_inked _ (by unfold Spec.namedLines; split <;> simp) hin 1 o.indent]

theorem namedTexts_demo : NamedTexts demoO demoNamed := by
  constructor
  · decide +kernel
  · decide +kernel
  · decide +kernel
  · have h : ∀ p ∈ demoNamed.named.params, (Template.inertB "maybe_pyargs".toList p.default = true ∧
      Template.inertB "maybe_comma".toList p.default = true) ∧ '\n' ∉ p.default := by decide +kernel
    exact fun p hp => ⟨⟨(Template.inert_iff _ _).1 (h p hp).1.1, (Template.inert_iff _ _).1 (h p hp).1.2⟩, (h p hp).2⟩
  · have h : ∀ p ∈ demoNamed.named.adapted, (Template.inertB "all_params_set_values".toList (Fn.signatureOf p) = true ∧
      Template.inertB "maybe_pyargs".toList (Fn.signatureOf p) = true ∧
      Template.inertB "maybe_comma".toList (Fn.signatureOf p) = true) ∧ '\n' ∉ Fn.signatureOf p := by decide +kernel
    exact fun p hp => ⟨⟨(Template.inert_iff _ _).1 (h p hp).1.1, (Template.inert_iff _ _).1 (h p hp).1.2.1, (Template.inert_iff _ _).1 (h p hp).1.2.2⟩,
      (h p hp).2⟩
  · refine ⟨by decide +kernel, fun a ha => ?_⟩
    have h : ∀ a ∈ demoNamed.named.pyargs, Template.inertB "maybe_comma".toList a = true ∧ '\n' ∉ a ∧ a.getLast? = some (a.getLast?.getD ' ') ∧
      isSpace (a.getLast?.getD ' ') = false := by decide +kernel
    exact ⟨(Template.inert_iff _ _).1 (h a ha).1, inked_literal a (h a ha).2.1 ⟨_, (h a ha).2.2.1, (h a ha).2.2.2⟩⟩

theorem namedTexts_self : NamedTexts demoO demoSelf := by
  constructor
  · decide +kernel
  · decide +kernel
  · decide +kernel
  · have h : ∀ p ∈ demoSelf.named.params, (Template.inertB "maybe_pyargs".toList p.default = true ∧
      Template.inertB "maybe_comma".toList p.default = true) ∧ '\n' ∉ p.default := by decide +kernel
    exact fun p hp => ⟨⟨(Template.inert_iff _ _).1 (h p hp).1.1, (Template.inert_iff _ _).1 (h p hp).1.2⟩, (h p hp).2⟩
  · have h : ∀ p ∈ demoSelf.named.adapted, (Template.inertB "all_params_set_values".toList (Fn.signatureOf p) = true ∧
      Template.inertB "maybe_pyargs".toList (Fn.signatureOf p) = true ∧
      Template.inertB "maybe_comma".toList (Fn.signatureOf p) = true) ∧ '\n' ∉ Fn.signatureOf p := by decide +kernel
    exact fun p hp => ⟨⟨(Template.inert_iff _ _).1 (h p hp).1.1, (Template.inert_iff _ _).1 (h p hp).1.2.1, (Template.inert_iff _ _).1 (h p hp).1.2.2⟩,
      (h p hp).2⟩
  · refine ⟨by decide +kernel, fun a ha => ?_⟩
    have h : ∀ a ∈ demoSelf.named.pyargs, Template.inertB "maybe_comma".toList a = true ∧ '\n' ∉ a ∧ a.getLast? = some (a.getLast?.getD ' ') ∧
      isSpace (a.getLast?.getD ' ') = false := by decide +kernel
    exact ⟨(Template.inert_iff _ _).1 (h a ha).1, inked_literal a (h a ha).2.1 ⟨_, (h a ha).2.2.1, (h a ha).2.2.2⟩⟩

/-- C74. It fails: with pybind11, a struct whose first member is called `self` stops the generator. -/
theorem C74_fails : ¬ C74_statement ∧ namedPydef demoO demoSelf = none := by
  have e : namedPydef demoO demoSelf = none := by decide +kernel
  refine ⟨fun h => ?_, e⟩
  have := h demoO demoSelf namedTexts_self (by unfold SameNames; decide +kernel) (by unfold WantsNamed; decide +kernel) (by decide +kernel)
  rw [e] at this
  cases this

example : NamedTexts demoO demoNamed ∧ SameNames demoO demoNamed ∧ WantsNamed demoO demoNamed ∧ demoNamed.named.params ≠ [] ∧
    (demoNamed.named.params.map (·.name)).head? ≠ some "self".toList ∧
    (namedPydef demoO demoNamed).map String.ofList = some ("    .def(py::init<>([](\n    int x = 2, std::optional<std::vector<int>> v = std::nullopt)\n" ++
      "    {\n        auto r_ctor_ = std::make_unique<N::Foo>();\n        r_ctor_->x = x;\n        if (v.has_value())\n" ++
      "            r_ctor_->v = v.value();\n        else\n            r_ctor_->v = std::vector<int>();\n        return r_ctor_;\n    })\n" ++
      "    , py::arg(\"x\") = 2, py::arg(\"v\") = py::none()\n    )\n") := by
  refine ⟨namedTexts_demo, ?_, ?_, ?_, ?_, ?_⟩
  · unfold SameNames; decide +kernel
  · unfold WantsNamed; decide +kernel
  all_goals decide +kernel

end Verif.Cls.Props
