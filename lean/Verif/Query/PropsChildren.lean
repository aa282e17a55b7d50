import Verif.Query.SpecChildren

/-! Property C103: the elements of a class that are published. -/

namespace Verif.Query.Props
open Verif.Py Verif.Query Verif.Query.Spec

theorem within_zone (a b : Str) (l r : List Child) : within a (.zone b l :: r) = (if a = b then l else []) ++ within a r := rfl

theorem within_skip {a : Str} {c : Child} (h : ∀ b l, c ≠ .zone b l) (r : List Child) : within a (c :: r) = within a r := by
  cases c with
  | zone b l => exact absurd rfl (h b l)
  | _ => rfl

theorem fnNames_eq : ∀ b : List Child, fnNames b = functionNames b
  | [] => rfl
  | c :: r => by
    cases c with
    | zone a l =>
      show l.filterMap _ ++ fnNames r = l.filterMap _ ++ functionNames r
      rw [fnNames_eq r]
      first | done | congr 1
    | _ => exact fnNames_eq r

theorem overloaded_count (b : List Child) (n : Str) : overloaded b n = decide (2 ≤ (functionNames b).count n) := by
  unfold overloaded
  rw [fnNames_eq, List.count_eq_length_filter]

theorem addMembers_eq (o : Options) (cls : Str) : ∀ ds : List Member,
    addMembers o cls ds = (ds.filter (memberOk o cls)).map (fun d => .member d.name)
  | [] => rfl
  | d :: ds => by
    rw [addMembers, addMembers_eq o cls ds, List.filter_cons]
    unfold memberOk
    cases h1 : d.canPublish <;> cases h2 : o.excludeOfClass cls d.name <;> cases h3 : o.excludeMember d.name <;> cases h4 : o.excludeType d.type <;> rfl

theorem protZone_eq (all : List Child) : ∀ l : List Child,
    protZone all l = if l.all (fun c => !bad c) then some (l.filterMap (protectedFn all)) else none
  | [] => rfl
  | c :: r => by
    cases c with
    | fn n p raises =>
      cases p <;> cases raises
      · exact protZone_eq all r
      · exact protZone_eq all r
      · show (protZone all r).map _ = _
        rw [protZone_eq all r]
        show _ = if r.all (fun c => !bad c) = true then some ((n, _) :: r.filterMap (protectedFn all)) else none
        rw [← overloaded_count]
        by_cases h : r.all (fun c => !bad c) = true
        · rw [if_pos h, if_pos h]; rfl
        · rw [if_neg h, if_neg h]; rfl
      · rfl
    | _ => exact protZone_eq all r

theorem protLoop_eq (all : List Child) : ∀ b : List Child, protLoop all b =
    if (within "protected".toList b).all (fun c => !bad c) then some ((within "protected".toList b).filterMap (protectedFn all)) else none
  | [] => rfl
  | c :: r => by
    cases c with
    | zone a l =>
      rw [protLoop, within_zone]
      by_cases h : a = "protected".toList
      · rw [if_pos h, if_pos h.symm, protLoop_eq all r, protZone_eq, List.all_append, List.filterMap_append]
        cases h1 : l.all (fun c => !bad c) <;> cases h2 : (within "protected".toList r).all (fun c => !bad c) <;> rfl
      · have hw : (if "protected".toList = a then l else []) = [] := if_neg (fun e => h e.symm)
        rw [if_neg h, hw]
        exact protLoop_eq all r
    | _ => exact protLoop_eq all r

theorem protMethods_eq (o : Options) (cls : Str) (b : List Child) : protMethods o cls b =
    if adaptable o cls b then some (if o.exposeProtected cls then (within "protected".toList b).filterMap (protectedFn b) else []) else none := by
  unfold protMethods adaptable
  rw [protLoop_eq]
  cases o.exposeProtected cls <;> rfl

theorem addChildren_eq (o : Options) (cls : Str) (all : List Child) : ∀ l, addChildren o cls all l = l.flatMap (addChild o cls all)
  | [] => rfl
  | c :: r => by rw [addChildren, addChildren_eq o cls all r]; rfl

theorem fillZones_eq (o : Options) (cls : Str) (all : List Child) : ∀ b,
    fillZones o cls all b = (within "public".toList b).flatMap (addChild o cls all)
  | [] => by rw [fillZones]; rfl
  | c :: r => by
    cases c with
    | zone a l =>
      rw [fillZones, within_zone, List.flatMap_append, ← fillZones_eq o cls all r, addChildren_eq]
      by_cases h : a = "public".toList
      · rw [if_pos h, if_pos h.symm]
      · rw [if_neg h, if_neg (fun e => h e.symm)]; rfl
    | _ => rw [fillZones]; exact fillZones_eq o cls all r

theorem addChild_struct (o : Options) (cls : Str) (all : List Child) (n : Str) (b : List Child) : addChild o cls all (.struct n b) =
    if o.excludeClass n = false ∧ adaptable o n b = true then
      [.cls n (fillZones o n b b) (if o.exposeProtected n then (within "protected".toList b).filterMap (protectedFn b) else [])] else [] := by
  rw [addChild, protMethods_eq]
  cases h1 : o.excludeClass n <;> cases h2 : adaptable o n b <;> rfl

theorem addChild_items (o : Options) (cls : Str) (all : List Child) (c : Child) : (addChild o cls all c).map itemOf = shownOf o cls all c := by
  cases c with
  | fn n p r =>
    rw [addChild, addFunction, shownOf, ← overloaded_count]
    cases p <;> cases r <;> cases o.excludeOfClass cls n <;> rfl
  | decls ds =>
    rw [addChild, addMembers_eq, shownOf, List.map_map]
    rfl
  | struct n b =>
    rw [addChild_struct, shownOf]
    cases h1 : o.excludeClass n <;> cases h2 : adaptable o n b <;> rfl
  | enum n =>
    rw [addChild, shownOf]
    cases o.excludeEnum n <;> rfl
  | _ => rw [addChild]; rfl

theorem fillZones_items (o : Options) (cls : Str) (b : List Child) : (fillZones o cls b b).map itemOf = shown o cls b := by
  rw [fillZones_eq, List.map_flatMap]
  show _ = (within "public".toList b).flatMap (shownOf o cls b)
  congr 1
  funext c
  exact addChild_items o cls b c

/-- C103: a class is adapted unless a protected method that is exposed raises; its children are the elements of the public zones that the options
do not exclude, in the order of the code; its protected methods are the publishable functions of the protected zones when they are exposed. -/
theorem C103_children (o : Options) (cls : Str) (b : List Child) :
    (adaptClass o cls b = none ↔ adaptable o cls b = false) ∧
      ∀ name ch prot, adaptClass o cls b = some (.cls name ch prot) →
        name = cls ∧ ch.map itemOf = shown o cls b ∧
          prot = if o.exposeProtected cls then (within "protected".toList b).filterMap (protectedFn b) else [] := by
  unfold adaptClass
  rw [protMethods_eq]
  cases h : adaptable o cls b
  · exact ⟨⟨fun _ => rfl, fun _ => rfl⟩, fun _ _ _ e => (by cases e)⟩
  · refine ⟨⟨fun e => (by cases e), fun e => (by cases e)⟩, fun name ch prot e => ?_⟩
    have e' := Option.some.inj e
    injection e' with e1 e2 e3
    exact ⟨e1.symm, e2 ▸ fillZones_items o cls b, e3.symm⟩

theorem mem_fillZones_cls {o : Options} {cls n : Str} {b : List Child} {ch : List Pub} {prot : List (Str × Bool)} :
    .cls n ch prot ∈ fillZones o cls b b ↔ ∃ b', .struct n b' ∈ within "public".toList b ∧ o.excludeClass n = false ∧ adaptable o n b' = true ∧
      ch = fillZones o n b' b' ∧ prot = (if o.exposeProtected n then (within "protected".toList b').filterMap (protectedFn b') else []) := by
  rw [fillZones_eq, List.mem_flatMap]
  constructor
  · rintro ⟨c, hc, hp⟩
    cases c with
    | struct m b' =>
      rw [addChild_struct] at hp
      by_cases h : o.excludeClass m = false ∧ adaptable o m b' = true
      · rw [if_pos h] at hp
        have e := List.mem_singleton.1 hp
        injection e with e1 e2 e3
        subst e1
        exact ⟨b', hc, h.1, h.2, e2, e3⟩
      · rw [if_neg h] at hp
        exact absurd hp List.not_mem_nil
    | decls ds =>
      rw [addChild, addMembers_eq] at hp
      obtain ⟨d, _, e⟩ := List.mem_map.1 hp
      exact absurd e (fun e => by cases e)
    | fn m p r =>
      rw [addChild, addFunction] at hp
      cases p <;> cases r <;> cases o.excludeOfClass cls m <;> simp at hp
    | enum m =>
      rw [addChild] at hp
      cases o.excludeEnum m <;> simp at hp
    | _ => rw [addChild] at hp; simp at hp
  · rintro ⟨b', hb, h1, h2, rfl, rfl⟩
    refine ⟨_, hb, ?_⟩
    rw [addChild_struct, if_pos ⟨h1, h2⟩]
    exact List.mem_singleton.2 rfl

/-- C103: an element at any depth is published if and only if all the classes around it are public, not excluded, adaptable, and the element itself
is public and not excluded in its class. -/
theorem C103_nested (o : Options) (cls : Str) (b : List Child) (ch : List Pub) (prot : List (Str × Bool))
    (h : adaptClass o cls b = some (.cls cls ch prot)) (path : List Str) (i : Item) : PresentAt ch path i ↔ ShownAt o cls b path i := by
  have hc : ch = fillZones o cls b b := by
    unfold adaptClass at h
    cases hp : protMethods o cls b with
    | none => rw [hp] at h; cases h
    | some x =>
      rw [hp] at h
      have e := Option.some.inj h
      injection e with e1 e2 e3
      exact e2.symm
  subst hc
  clear h
  induction path generalizing cls b with
  | nil =>
    show i ∈ (fillZones o cls b b).map itemOf ↔ i ∈ shown o cls b
    rw [fillZones_items]
  | cons n path ih =>
    show (∃ ch prot, .cls n ch prot ∈ fillZones o cls b b ∧ PresentAt ch path i) ↔ _
    constructor
    · rintro ⟨ch, prot, hm, hp⟩
      obtain ⟨b', hb, h1, h2, rfl, _⟩ := mem_fillZones_cls.1 hm
      exact ⟨b', hb, h1, h2, (ih n b').1 hp⟩
    · rintro ⟨b', hb, h1, h2, hs⟩
      exact ⟨_, _, mem_fillZones_cls.2 ⟨b', hb, h1, h2, rfl, rfl⟩, (ih n b').2 hs⟩

theorem hideAll_eq : ∀ l, hideAll l = l.map hide
  | [] => by rw [hideAll]; rfl
  | c :: r => by rw [hideAll, hideAll_eq r]; rfl

theorem fn_hide (l : List Child) : (l.map hide).filterMap (fun c => match c with | .fn n _ _ => some n | _ => none) =
    l.filterMap (fun c => match c with | .fn n _ _ => some n | _ => none) := by
  rw [List.filterMap_map]
  congr 1
  funext c
  cases c with
  | zone a l =>
    show (match hide (.zone a l) with | .fn n _ _ => some n | _ => none) = none
    rw [hide]
    by_cases h : a = "private".toList
    · rw [if_pos h]
    · rw [if_neg h]
  | _ => simp only [Function.comp, hide]

theorem fn_names_private (l : List Child) :
    (l.filterMap (fun c => match c with | .fn n _ _ => some (Child.fn n false false) | _ => none)).filterMap
      (fun c => match c with | .fn n _ _ => some n | _ => none) = l.filterMap (fun c => match c with | .fn n _ _ => some n | _ => none) := by
  rw [List.filterMap_filterMap]
  congr 1
  funext c
  cases c <;> rfl

theorem functionNames_hide : ∀ b, functionNames (hideAll b) = functionNames b
  | [] => by rw [hideAll]
  | c :: r => by
    rw [hideAll]
    have e : ∀ (c : Child) (r : List Child), functionNames (c :: r) = functionNames [c] ++ functionNames r := by
      intro c r
      show functionNames ([c] ++ r) = _
      unfold functionNames
      rw [List.flatMap_append]
    rw [e, e c r, functionNames_hide r]
    congr 1
    cases c with
    | zone a l =>
      rw [hide]
      by_cases h : a = "private".toList
      · rw [if_pos h]
        show _ ++ [] = _ ++ []
        rw [List.append_nil, List.append_nil]
        exact fn_names_private l
      · rw [if_neg h, hideAll_eq]
        show _ ++ [] = _ ++ []
        rw [List.append_nil, List.append_nil]
        exact fn_hide l
    | _ => rw [hide]; try rfl

theorem within_hide {a : Str} (ha : a ≠ "private".toList) : ∀ b, within a (hideAll b) = (within a b).map hide
  | [] => by rw [hideAll]; rfl
  | c :: r => by
    rw [hideAll]
    cases c with
    | zone z l =>
      rw [hide, within_zone, List.map_append, ← within_hide ha r]
      by_cases h : z = "private".toList
      · rw [if_pos h, within_zone, if_neg (fun e => ha (e.trans h)), if_neg (fun e => ha (e.trans h))]; rfl
      · rw [if_neg h, within_zone, hideAll_eq]
        by_cases h2 : a = z
        · rw [if_pos h2, if_pos h2]
        · rw [if_neg h2, if_neg h2]; rfl
    | _ => rw [hide]; exact within_hide ha r

theorem overloaded_hide (b : List Child) (n : Str) : overloaded (hideAll b) n = overloaded b n := by
  rw [overloaded_count, overloaded_count, functionNames_hide]

theorem bad_hide (c : Child) : bad (hide c) = bad c := by
  cases c with
  | zone a l =>
    rw [hide]
    by_cases h : a = "private".toList
    · rw [if_pos h]; rfl
    · rw [if_neg h]; rfl
  | _ => rw [hide]; try rfl

theorem protectedFn_hide (b : List Child) (c : Child) : protectedFn (hideAll b) (hide c) = protectedFn b c := by
  cases c with
  | zone a l =>
    rw [hide]
    by_cases h : a = "private".toList
    · rw [if_pos h]; rfl
    · rw [if_neg h]; rfl
  | fn n p r =>
    rw [hide]
    cases p
    · rfl
    · show some (n, decide (2 ≤ (functionNames (hideAll b)).count n)) = _
      rw [functionNames_hide]
      rfl
  | _ => rw [hide]; try rfl

theorem protMethods_hide (o : Options) (cls : Str) (b : List Child) : protMethods o cls (hideAll b) = protMethods o cls b := by
  have e : within "protected".toList (hideAll b) = (within "protected".toList b).map hide := within_hide (by decide) b
  have e1 : adaptable o cls (hideAll b) = adaptable o cls b := by
    unfold adaptable
    rw [e, List.all_map]
    congr 2
    funext c
    show (!bad (hide c)) = _
    rw [bad_hide]
  have e2 : (within "protected".toList (hideAll b)).filterMap (protectedFn (hideAll b)) = (within "protected".toList b).filterMap (protectedFn b) := by
    rw [e, List.filterMap_map]
    congr 1
    funext c
    exact protectedFn_hide b c
  rw [protMethods_eq, protMethods_eq, e1, e2]

mutual
theorem addChild_hide (o : Options) (cls : Str) (all : List Child) : ∀ c, addChild o cls (hideAll all) (hide c) = addChild o cls all c
  | .struct n b => by
    rw [hide, addChild, addChild, protMethods_hide, fillZones_hide o n b b]
  | .zone a l => by
    rw [hide, addChild]
    by_cases h : a = "private".toList
    · rw [if_pos h, addChild]
    · rw [if_neg h, addChild]
  | .fn n p r => by rw [hide, addChild, addChild, addFunction, addFunction, overloaded_hide]
  | .emptyLine => by rw [hide, addChild, addChild]
  | .comment t => by rw [hide, addChild, addChild]
  | .decls ds => by rw [hide, addChild, addChild]
  | .unprocessed => by rw [hide, addChild, addChild]
  | .enum n => by rw [hide, addChild, addChild]
  | .macro_ => by rw [hide, addChild, addChild]
  | .other => by rw [hide, addChild, addChild]
theorem addChildren_hide (o : Options) (cls : Str) (all : List Child) : ∀ l, addChildren o cls (hideAll all) (hideAll l) = addChildren o cls all l
  | [] => by rw [hideAll, addChildren, addChildren]
  | c :: r => by rw [hideAll, addChildren, addChildren, addChild_hide o cls all c, addChildren_hide o cls all r]
theorem fillZones_hide (o : Options) (cls : Str) (all : List Child) : ∀ b, fillZones o cls (hideAll all) (hideAll b) = fillZones o cls all b
  | [] => by rw [hideAll, fillZones, fillZones]
  | .zone a l :: r => by
    rw [hideAll, hide, fillZones]
    by_cases h : a = "private".toList
    · rw [if_pos h, fillZones, if_neg (by rw [h]; decide), if_neg (by rw [h]; decide), fillZones_hide o cls all r]
    · rw [if_neg h, fillZones, addChildren_hide o cls all l, fillZones_hide o cls all r]
  | .emptyLine :: r => by rw [hideAll, hide, fillZones, fillZones, fillZones_hide o cls all r]
  | .comment _ :: r => by rw [hideAll, hide, fillZones, fillZones, fillZones_hide o cls all r]
  | .fn _ _ _ :: r => by rw [hideAll, hide, fillZones, fillZones, fillZones_hide o cls all r]
  | .decls _ :: r => by rw [hideAll, hide, fillZones, fillZones, fillZones_hide o cls all r]
  | .unprocessed :: r => by rw [hideAll, hide, fillZones, fillZones, fillZones_hide o cls all r]
  | .struct _ _ :: r => by rw [hideAll, hide, fillZones, fillZones, fillZones_hide o cls all r]
  | .enum _ :: r => by rw [hideAll, hide, fillZones, fillZones, fillZones_hide o cls all r]
  | .macro_ :: r => by rw [hideAll, hide, fillZones, fillZones, fillZones_hide o cls all r]
  | .other :: r => by rw [hideAll, hide, fillZones, fillZones, fillZones_hide o cls all r]
end

/-- C103: two classes that differ only in their private zones, at any depth, are published in the same way, provided that their private functions
have the same names. -/
theorem C103_private (o : Options) (cls : Str) (b b' : List Child) (h : hideAll b = hideAll b') : adaptClass o cls b = adaptClass o cls b' := by
  have e : ∀ x, adaptClass o cls (hideAll x) = adaptClass o cls x := by
    intro x
    unfold adaptClass
    rw [protMethods_hide, fillZones_hide]
  rw [← e b, h, e b']

section examples

/-- Options that exclude the member `secret` of the class `P`, the class `Detail`; the protected methods of `Q` and `R` are exposed. -/
def opts : Options where
  excludeOfClass c m := c == "P".toList && m == "secret".toList
  excludeMember m := m == "_x".toList
  excludeType _ := false
  excludeClass c := c == "Detail".toList
  excludeEnum _ := false
  exposeProtected c := c == "Q".toList || c == "R".toList

/-- `class P { int hidden(); public: int f(); int f(int); int secret(); int a, _x; struct Detail {int z;}; class Q {protected: int g();};
class R {public: int h(); protected: R operator,(R);}; private: int key; }` -/
def clsP : List Child :=
  [.zone "private".toList [.fn "hidden".toList true false],
   .zone "public".toList
    [.fn "f".toList true false, .fn "f".toList true false, .fn "secret".toList true false,
     .decls [⟨"a".toList, "int".toList, true⟩, ⟨"_x".toList, "int".toList, true⟩],
     .struct "Detail".toList [.zone "public".toList [.decls [⟨"z".toList, "int".toList, true⟩]]],
     .struct "Q".toList [.zone "protected".toList [.fn "g".toList true false]],
     .struct "R".toList [.zone "public".toList [.fn "h".toList true false], .zone "protected".toList [.fn "operator,".toList true true]]],
   .zone "private".toList [.decls [⟨"key".toList, "int".toList, true⟩]]]

example : shown opts "P".toList clsP = [.fn "f".toList true, .fn "f".toList true, .member "a".toList, .cls "Q".toList] := by decide +kernel

example : ∃ ch prot, adaptClass opts "P".toList clsP = some (.cls "P".toList ch prot) :=
  ⟨_, _, rfl⟩

/-- The same class without its private member: nothing changes. -/
example : hideAll clsP = hideAll (clsP.dropLast ++ [.zone "private".toList []]) := by
  with_unfolding_all rfl

/-- The public inner class `R` is not published: a protected operator that is exposed raises. -/
example : adaptable opts "R".toList [.zone "public".toList [.fn "h".toList true false], .zone "protected".toList [.fn "operator,".toList true true]] =
    false := by decide +kernel

/-- The elements at a depth. -/
example : ShownAt opts "P".toList clsP [] (.cls "Q".toList) ∧ ¬ ShownAt opts "P".toList clsP [] (.cls "R".toList) :=
  ⟨by show _ ∈ _; decide +kernel, by show ¬ (_ ∈ _); decide +kernel⟩

end examples

/-- The full statement: all the public functions of the public inner classes that are not excluded are published. -/
def C103_inner_statement : Prop := ∀ (o : Options) (cls n f : Str) (b b' : List Child) (ch : List Pub) (prot : List (Str × Bool)),
  adaptClass o cls b = some (.cls cls ch prot) → .struct n b' ∈ within "public".toList b → o.excludeClass n = false →
    .fn f true false ∈ within "public".toList b' → o.excludeOfClass n f = false → ∃ x, PresentAt ch [n] (.fn f x)

/-- C103: a protected operator that is exposed and not supported takes away the whole inner class. -/
theorem C103_inner_fails : ¬ C103_inner_statement := by
  intro h
  have hx := h opts "P".toList "R".toList "h".toList clsP
    [.zone "public".toList [.fn "h".toList true false], .zone "protected".toList [.fn "operator,".toList true true]]
    (fillZones opts "P".toList clsP clsP) [] rfl
    (by
      show _ ∈ [_, _, _, _, _, _, _]
      exact List.mem_cons_of_mem _ (List.mem_cons_of_mem _ (List.mem_cons_of_mem _ (List.mem_cons_of_mem _ (List.mem_cons_of_mem _
        (List.mem_cons_of_mem _ (List.mem_cons_self)))))))
    rfl (List.mem_cons_self) rfl
  obtain ⟨x, ch, prot, hm, _⟩ := hx
  obtain ⟨b', hb, _, ha, _⟩ := mem_fillZones_cls.1 hm
  have hs : Item.cls "R".toList ∈ shown opts "P".toList clsP := by
    rw [← fillZones_items]
    exact List.mem_map.2 ⟨_, hm, rfl⟩
  exact absurd hs (by decide +kernel)

end Verif.Query.Props
