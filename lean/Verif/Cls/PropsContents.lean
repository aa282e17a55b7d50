import Verif.Cls.PropsStub
import Verif.Overload.Props

/-! C75: the elements of a class are in its binding and in its stub, in order. -/

namespace Verif.Cls.Props
open Verif.Py Verif.Cls Verif.Adapt
open Verif.Cls.Spec (ink)

theorem ink_append (a b : Str) : ink (a ++ b) = ink a ++ ink b := List.filter_append ..

theorem ink_blank {w : Str} (h : ∀ c ∈ w, isSpace c = true) : ink w = [] := by
  unfold ink
  rw [List.filter_eq_nil_iff]
  intro c hc
  rw [h c hc]
  decide

theorem ink_flatMap {α : Type} (l : List α) (f : α → Str) : ink (l.flatMap f) = l.flatMap (fun x => ink (f x)) := by
  induction l with
  | nil => rfl
  | cons x l ih => rw [List.flatMap_cons, List.flatMap_cons, ink_append, ih]

theorem ink_rstrip (l : Str) : ink (rstrip l) = ink l := by
  obtain ⟨w, e, h⟩ := rstrip_decomp l
  conv_rhs => rw [e]
  rw [ink_append, ink_blank h, List.append_nil]

theorem ink_unlines (ls : List Str) : ink (unlines ls) = ls.flatMap ink := by
  induction ls with
  | nil => rfl
  | cons l ls ih =>
    cases ls with
    | nil => simp [unlines, join]
    | cons m ms =>
      have e : unlines (l :: m :: ms) = l ++ ['\n'] ++ unlines (m :: ms) := rfl
      rw [e, ink_append, ink_append, ih, List.flatMap_cons (x := l)]
      rw [show ink ['\n'] = [] from by decide, List.append_nil]

theorem ink_indentLine {v : Str} (hv : ∀ c ∈ v, isSpace c = true) (l : Str) : ink (Indent.indentLine v true l) = ink l := by
  unfold Indent.indentLine
  split
  · rename_i h; rw [List.length_eq_zero_iff.1 h]
  · rw [if_pos rfl, ink_append, ink_blank hv, ink_rstrip, List.nil_append]

theorem ink_indentCode {v : Str} (hv : ∀ c ∈ v, isSpace c = true) (s : Str) (n : Nat) : ink (Indent.indentCode s n false (some v)) = ink s := by
  have e : Indent.indentCode s n false (some v) = unlines ((lines s).map (Indent.indentLine v true)) := rfl
  rw [e, ink_unlines, List.flatMap_map]
  conv_rhs => rw [← unlines_lines s, ink_unlines]
  refine List.flatMap_congr fun l _ => ?_
  exact ink_indentLine hv l

theorem ink_indented {o : Options} (hi : ∀ x ∈ o.indent, x = ' ') (ls : List Str) : ink (indented o ls) = ls.flatMap ink := by
  have hv : ∀ c ∈ o.indent, isSpace c = true := fun c hc => by rw [hi c hc]; decide
  unfold indented
  rw [ink_indentCode hv]
  unfold strPydef
  split
  · rename_i h; rw [List.length_eq_zero_iff.1 h]; rfl
  · rw [ink_append, ink_unlines, show ink "\n".toList = [] from by decide, List.append_nil]

/-! ### The binding -/

/-- The text of the constructor in the binding, without blanks: nothing if the class has constructors (but a remark if its default constructor is
deleted). -/
def ctorInk (o : Options) (c : Class) : Str :=
  match Spec.ctor o c with
  | .written =>
    if c.specials.any (fun s => s.isCtor && s.params.all (fun p => decide (p.default ≠ [])) && decide ("delete".toList ∈ s.specifiers)) then
      ink "// (default constructor explicitly deleted)".toList
    else []
  | .implicit => ink (".def(".toList ++ Fn.lib o.toOptions ++ "::init<>()) // implicit default constructor".toList)
  | .named => ink (unlines (Spec.namedLines o.nanobind o.indent (Spec.className c) (c.named.adapted.map Fn.signatureOf) (setsOf o c.named)
      c.named.pyargs))

theorem deleted_eq (c : Class) : hasDeletedDefaultCtor c =
    c.specials.any (fun s => s.isCtor && s.params.all (fun p => decide (p.default ≠ [])) && decide ("delete".toList ∈ s.specifiers)) := by
  unfold hasDeletedDefaultCtor isDefaultCtor
  refine congrArg (fun f => c.specials.any f) ?_
  funext s
  refine congrArg (fun x => s.isCtor && x && _) ?_
  refine congrArg (fun f => s.params.all f) ?_
  funext p
  rw [decide_eq_decide]
  simp

theorem deleted_user {c : Class} (h : hasDeletedDefaultCtor c = true) : hasUserCtor c = true := by
  unfold hasDeletedDefaultCtor at h
  obtain ⟨s, hs, h⟩ := List.any_eq_true.1 h
  unfold isDefaultCtor at h
  rw [Bool.and_eq_true, Bool.and_eq_true] at h
  exact List.any_eq_true.2 ⟨s, hs, h.1.1⟩

theorem namedFlag_eq {o : Options} {c : Class} (h : hasUserCtor c = false) : namedFlag o c = Spec.wantsNamed o c := by
  have h1 : hasNonZeroParamCtor c = false := by
    unfold hasNonZeroParamCtor
    rw [List.any_eq_false]
    intro s hs e
    rw [Bool.and_eq_true] at e
    have : hasUserCtor c = true := List.any_eq_true.2 ⟨s, hs, e.1⟩
    rw [h] at this
    cases this
  unfold namedFlag Spec.wantsNamed
  rw [if_neg (by rw [h1]; simp)]
  show (if hasPrivateDtor c = true then false else _) = (_ && !hasPrivateDtor c)
  cases hasPrivateDtor c with
  | true => rw [if_pos rfl, Bool.not_true, Bool.and_false]
  | false => rw [if_neg (by simp), Bool.not_false, Bool.and_true]

theorem zero_user {c : Class} (h : hasUserCtor c = false) : hasZeroParamCtor c = false := by
  unfold hasZeroParamCtor
  rw [List.any_eq_false]
  intro s hs e
  rw [Bool.and_eq_true] at e
  have : hasUserCtor c = true := List.any_eq_true.2 ⟨s, hs, e.1⟩
  rw [h] at this
  cases this

theorem ink_init {o : Options} (hi : ∀ x ∈ o.indent, x = ' ') (t : Str) (ht : ink t = ink "::init<>()) // implicit default constructor".toList) :
    ink (o.indent ++ ".def(".toList ++ Fn.lib o.toOptions ++ t) =
      ink (".def(".toList ++ Fn.lib o.toOptions ++ "::init<>()) // implicit default constructor".toList) := by
  have hv : ∀ c ∈ o.indent, isSpace c = true := fun c hc => by rw [hi c hc]; decide
  rw [ink_append, ink_append, ink_append, ink_append, ink_append, ink_blank hv, ht, List.nil_append]

theorem ink_ctor {o : Options} {c : Class} (hi : ∀ x ∈ o.indent, x = ' ')
    (hn : c.named.params ≠ [] → NamedTexts o c ∧ SameNames o c) {d : Str} (h : defaultCtorCode o c = some d) : ink d = ctorInk o c := by
  have hv : ∀ c ∈ o.indent, isSpace c = true := fun c hc => by rw [hi c hc]; decide
  unfold defaultCtorCode at h
  unfold ctorInk
  split at h
  · rename_i hd
    have hu := deleted_user hd
    have hc : Spec.ctor o c = .written := if_pos hu
    rw [hc]
    dsimp only
    rw [← deleted_eq, if_pos hd]
    cases h
    rw [ink_append, ink_blank hv, List.nil_append]
    decide +kernel
  · rename_i hd
    split at h
    · rename_i hu
      rw [Bool.not_eq_true'] at hu
      have hw := namedFlag_eq (o := o) hu
      have hu' : ¬ c.specials.any (·.isCtor) = true := by
        show ¬ hasUserCtor c = true
        rw [hu]; simp
      have h0 := h
      unfold namedPydef voidFlag at h
      rw [hu, hw] at h
      dsimp only at h
      cases hwn : Spec.wantsNamed o c with
      | false =>
        have hc : Spec.ctor o c = .implicit := by unfold Spec.ctor; rw [if_neg hu', hwn, Bool.false_and, if_neg (by simp)]
        rw [hwn, if_pos (by simp)] at h
        rw [hc]
        cases h
        exact ink_init hi _ (by decide +kernel)
      | true =>
        rw [hwn, if_neg (by simp), if_neg (by simp), if_neg (by rw [zero_user hu]; simp)] at h
        split at h
        · rename_i hl
          have hc : Spec.ctor o c = .implicit := by
            unfold Spec.ctor
            rw [if_neg hu', hwn, Bool.true_and, if_neg (by rw [List.length_eq_zero_iff.1 hl]; simp)]
          rw [hc]
          cases h
          exact ink_init hi _ (by decide +kernel)
        · rename_i hl
          have hne : c.named.params ≠ [] := fun e => hl (by rw [e]; rfl)
          have hc : Spec.ctor o c = .named := by
            unfold Spec.ctor
            rw [if_neg hu', hwn, Bool.true_and, if_pos (by rw [decide_eq_true_iff]; exact hne)]
          obtain ⟨ht, hs⟩ := hn hne
          obtain ⟨x, hx, -⟩ := Option.map_eq_some_iff.1 h
          rw [C74_partial o c ht hs (wants_of (hw.trans hwn)) hne (self_of_sets hs hx), Option.some.injEq] at h0
          rw [hc, ← h0, ink_append, show ink "\n".toList = [] from by decide, List.append_nil, ink_unlines, ink_unlines, List.flatMap_map]
          refine List.flatMap_congr fun l _ => ?_
          rw [ink_append, ink_blank hv, List.nil_append]
    · rename_i hu
      rw [Bool.not_eq_true', Bool.not_eq_false] at hu
      have hc : Spec.ctor o c = .written := if_pos hu
      rw [hc]
      dsimp only
      rw [← deleted_eq, if_neg hd]
      cases h
      rfl

/-- An inner class or enumeration. -/
def Inner (ch : Child) : Bool := decide (ch.kind = .cls) || decide (ch.kind = .enum_)

/-- C75. For every class: the binding has, in this order, the code of all inner classes and enumerations, the constructor that the class needs, the
code of all other public elements and the code of all published protected methods; every group is complete and in the order of the class, and
nothing stands between its elements. -/
theorem C75_binding (o : Options) (c : Class) (hi : ∀ x ∈ o.indent, x = ' ')
    (hn : c.named.params ≠ [] → NamedTexts o c ∧ SameNames o c) (code : Str) (hcode : pydefCode o c = some code) :
    ∃ a b d, ink code = a ++ (c.children.filter Inner).flatMap (fun ch => ch.pydef.flatMap ink) ++ b ++ ctorInk o c ++
      (c.children.filter (fun ch => !Inner ch)).flatMap (fun ch => ch.pydef.flatMap ink) ++
      c.protectedMethods.flatMap (fun m => m.2.flatMap ink) ++ d := by
  unfold pydefCode at hcode
  obtain ⟨head, hh, hcode⟩ := Option.bind_eq_some_iff.1 hcode
  obtain ⟨body, hb, hcode⟩ := Option.map_eq_some_iff.1 hcode
  obtain ⟨tail, hcode⟩ : ∃ tail, code = (if (innerCode o c).length > 0 then
      head ++ ";\n".toList ++ innerCode o c ++ "\n\n".toList ++ c.var ++ "\n".toList ++ body else head ++ "\n".toList ++ body) ++
      o.indent ++ ";".toList ++ tail := ⟨_, hcode.symm⟩
  rw [hcode]
  unfold childrenCode at hb
  obtain ⟨ct, hd, rfl⟩ := Option.map_eq_some_iff.1 hb
  have hct := ink_ctor hi hn hd
  have hpub : ink (publicCode o c) = (c.children.filter (fun ch => !Inner ch)).flatMap (fun ch => ch.pydef.flatMap ink) := by
    unfold publicCode
    rw [ink_flatMap]
    exact List.flatMap_congr fun ch _ => ink_indented hi ch.pydef
  have hprot : ink (protectedCode o c) = c.protectedMethods.flatMap (fun m => m.2.flatMap ink) := by
    unfold protectedCode
    rw [ink_flatMap]
    exact List.flatMap_congr fun m _ => ink_indented hi m.2
  have hinner : ∃ x y, ink (innerCode o c) = x ++ (c.children.filter Inner).flatMap (fun ch => ch.pydef.flatMap ink) ++ y := by
    have e : ink ((c.children.filter isInner).flatMap (fun ch => indented o ch.pydef)) =
        (c.children.filter Inner).flatMap (fun ch => ch.pydef.flatMap ink) := by
      rw [ink_flatMap]
      exact List.flatMap_congr fun ch _ => ink_indented hi ch.pydef
    unfold innerCode
    dsimp only
    split
    · refine ⟨ink ("\n{ // inner classes & enums of ".toList ++ c.pyName ++ "\n".toList),
        ink "} // end of inner classes & enums of ".toList ++ ink c.pyName, ?_⟩
      rw [ink_append, ink_append, ink_append, e, List.append_assoc]
    · rename_i hl
      have : c.children.filter Inner = [] := by
        have : (c.children.filter isInner).length = 0 := by omega
        exact List.length_eq_zero_iff.1 this
      rw [this]
      exact ⟨[], [], rfl⟩
  obtain ⟨x, y, hxy⟩ := hinner
  generalize copyCode o c = cc
  generalize iterableCode o c = ic
  split
  · refine ⟨ink (head ++ ";\n".toList) ++ x, y ++ ink ("\n\n".toList ++ c.var ++ "\n".toList), ink (cc ++ ic ++ o.indent ++ ";".toList ++ tail), ?_⟩
    simp only [ink_append, hxy, hct, hpub, hprot, List.append_assoc]
  · rename_i hl
    have he : c.children.filter Inner = [] := by
      unfold innerCode at hl
      dsimp only at hl
      split at hl
      · exact absurd (by simp only [List.length_append]; have : "\n{ // inner classes & enums of ".toList.length = 31 := by decide
                         omega) hl
      · rename_i h2
        have : (c.children.filter isInner).length = 0 := by omega
        exact List.length_eq_zero_iff.1 this
    refine ⟨ink (head ++ "\n".toList), [], ink (cc ++ ic ++ o.indent ++ ";".toList ++ tail), ?_⟩
    simp only [ink_append, hct, hpub, hprot, he, List.flatMap_nil, List.append_nil, List.append_assoc]

example : (∀ x ∈ demoO.indent, x = ' ') ∧ NamedTexts demoO demoNamed ∧ SameNames demoO demoNamed ∧ Spec.ctor demoO demoNamed = .named ∧
    Spec.ctor demoO demoClass = .implicit ∧ Spec.ctor demoO demoEmpty = .written ∧ (pydefCode demoO demoNamed).isSome = true :=
  ⟨by decide +kernel, namedTexts_demo, by unfold SameNames; decide +kernel, by decide +kernel, by decide +kernel, by decide +kernel, by decide +kernel⟩

/-! ### The stub -/

theorem spaced_sublist (o : Options) (l : List (Kind × List Str)) : ∀ last, (l.flatMap (·.2)).Sublist (spaced o last l).1 := by
  induction l with
  | nil => intro last; exact List.nil_sublist _
  | cons x l ih =>
    obtain ⟨k, ls⟩ := x
    intro last
    rw [List.flatMap_cons]
    unfold spaced
    split
    · exact (List.Sublist.refl ls).append (ih last)
    · dsimp only
      rw [List.append_assoc]
      exact ((List.Sublist.refl ls).append (ih (some k))).trans (List.sublist_append_right _ _)

theorem withKinds_lines (cs : List Child) (es : List (Overload.Elem × List Str)) (h : (es.map Prod.fst).Sublist (cs.map (·.stub))) :
    (withKinds cs es).map (·.2) = es.map (·.2) := by
  induction cs generalizing es with
  | nil =>
    have : es = [] := by
      have := List.sublist_nil.1 h
      exact List.map_eq_nil_iff.1 this
    rw [this]
    rfl
  | cons ch cs ih =>
    cases es with
    | nil => rfl
    | cons e es =>
      unfold withKinds
      split
      · rename_i he
        rw [List.map_cons, List.map_cons]
        refine congrArg (e.2 :: ·) (ih es ?_)
        rw [List.map_cons, List.map_cons, he] at h
        exact List.cons_sublist_cons.1 h
      · rename_i he
        refine ih _ ?_
        rw [List.map_cons] at h ⊢
        rw [List.map_cons] at h
        rcases List.sublist_cons_iff.1 h with h | ⟨r, e', h⟩
        · exact h
        · exact absurd (List.cons.inj e').1.symm he

theorem stubChildren_lines (c : Class) :
    (stubChildren c).flatMap (·.2) = (Overload.dedupStubLines (c.children.map (·.stub))).flatMap (·.2) := by
  have := withKinds_lines c.children _ (Overload.Props.C31_order (c.children.map (·.stub)))
  unfold stubChildren
  rw [List.flatMap_def, List.flatMap_def, this]

theorem ctorStub_eq {o : Options} {c : Class} (hs : c.named.stub ≠ []) (hn : ∀ l ∈ c.named.stub, '\n' ∉ l) :
    (if !hasUserCtor c && !hasDeletedDefaultCtor c then lines (namedStub o c) else []) = Spec.ctorStub o c := by
  unfold Spec.ctorStub
  cases hu : hasUserCtor c with
  | true =>
    have hc : Spec.ctor o c = .written := if_pos hu
    rw [hc]
    rfl
  | false =>
    have hd : hasDeletedDefaultCtor c = false := by
      by_contra hd
      rw [deleted_user (by simpa using hd)] at hu
      cases hu
    have hc : Spec.ctor o c ≠ .written := by
      unfold Spec.ctor
      rw [if_neg (show ¬ c.specials.any (·.isCtor) = true from by show ¬ hasUserCtor c = true; rw [hu]; simp)]
      split <;> decide
    rw [hd, if_pos (by simp), if_neg hc]
    unfold namedStub voidFlag
    rw [hu, namedFlag_eq hu, zero_user hu]
    cases Spec.wantsNamed o c with
    | false =>
      rw [if_pos (by simp), if_neg (by simp)]
      exact lines_unlines (by simp) (by decide +kernel)
    | true =>
      rw [if_neg (by simp), if_neg (by simp), if_neg (by simp), if_pos rfl]
      exact lines_unlines hs hn

/-- The lines of the elements of a class are lines: they have no line break. -/
structure StubTexts (c : Class) : Prop where
  children : ∀ ch ∈ c.children, ∀ l ∈ ch.stub.stubLines, '\n' ∉ l
  named : c.named.stub ≠ [] ∧ ∀ l ∈ c.named.stub, '\n' ∉ l
  methods : ∀ m ∈ c.protectedMethods, ∀ l ∈ m.1, '\n' ∉ l

/-- The lines that the stub of a class must have: those of its elements (without repeated overloads), of the constructor, of the protected
methods. -/
def expectedStub (o : Options) (c : Class) : List Str :=
  (Overload.dedupStubLines (c.children.map (·.stub))).flatMap (·.2) ++ Spec.ctorStub o c ++ c.protectedMethods.flatMap (·.1)

theorem dedup_lines {c : Class} (h : StubTexts c) : ∀ l ∈ (Overload.dedupStubLines (c.children.map (·.stub))).flatMap (·.2), '\n' ∉ l := by
  intro l hl
  obtain ⟨⟨e, ls⟩, he, hl⟩ := List.mem_flatMap.1 hl
  have hm : e ∈ c.children.map (·.stub) := (Overload.Props.C31_order (c.children.map (·.stub))).subset (List.mem_map.2 ⟨_, he, rfl⟩)
  obtain ⟨ch, hch, rfl⟩ := List.mem_map.1 hm
  have : l ∈ ch.stub.stubLines := by
    unfold Overload.dedupStubLines at he
    obtain ⟨x, _, hx⟩ := List.mem_map.1 he
    unfold Overload.stripSingleton at hx
    split at hx
    · cases hx; exact hl
    · split at hx
      · cases hx; exact List.mem_of_mem_filter hl
      · cases hx; exact hl
  exact h.children ch hch l this

theorem expected_sublist {o : Options} {c : Class} (h : StubTexts c) : (expectedStub o c).Sublist (bodyLines o c) := by
  have hc := ctorStub_eq (o := o) h.named.1 h.named.2
  unfold expectedStub bodyLines
  dsimp only
  rw [hc, ← stubChildren_lines]
  have h1 := spaced_sublist o (stubChildren c) none
  refine List.Sublist.trans ?_ (List.sublist_append_left _ _)
  refine List.Sublist.trans ?_ (List.sublist_append_left _ _)
  refine (h1.append (List.Sublist.refl _)).append ?_
  cases hp : c.protectedMethods with
  | nil => exact List.nil_sublist _
  | cons m ms =>
    rw [if_pos (by simp)]
    have h2 := spaced_sublist o ((m :: ms).map (fun m => (Kind.func, m.1))) (spaced o none (stubChildren c)).2
    rw [List.flatMap_map] at h2
    exact (h2.trans (List.sublist_append_right _ _)).trans (List.sublist_append_left _ _)

theorem ink_align (ls : List Str) : (Comment.alignPythonCommentsInBlockLines ls).map ink = (lines (unlines ls)).map ink := by
  unfold Comment.alignPythonCommentsInBlockLines
  rcases Comment.C06_align (unlines ls) with ⟨_, e⟩ | ⟨col, hf, _⟩
  · rw [e]
  · generalize lines (unlines ls) = x at hf
    generalize lines (Comment.alignPythonCommentsInBlock (unlines ls)) = y at hf
    induction hf with
    | nil => rfl
    | cons h _ ih =>
      rw [List.map_cons, List.map_cons, ih]
      refine congrArg (· :: _) ?_
      rcases h with ⟨_, e⟩ | ⟨a, b, k, e1, _, _, e2⟩
      · rw [e]
      · rw [e1, e2, ink_append, ink_append, ink_append, ink_blank (w := spaces k), List.append_nil]
        intro x hx
        rw [Indent.mem_spaces hx]
        decide

theorem flatMap_lines {l : List Str} (h : ∀ x ∈ l, '\n' ∉ x) : l.flatMap lines = l := by
  induction l with
  | nil => rfl
  | cons x l ih =>
    rw [List.flatMap_cons, ih (fun y hy => h y (by simp [hy])), show lines x = [x] from splitOn_of_not_mem (h x (by simp)), List.singleton_append]

theorem sublist_flatMap {α β : Type} (f : α → List β) {a b : List α} (h : a.Sublist b) : (a.flatMap f).Sublist (b.flatMap f) := by
  induction h with
  | slnil => exact List.Sublist.refl _
  | cons x _ ih => rw [List.flatMap_cons]; exact ih.trans (List.sublist_append_right _ _)
  | cons_cons x _ ih => rw [List.flatMap_cons, List.flatMap_cons]; exact (List.Sublist.refl _).append ih

/-- C75. For every class: the stub has, in this order and indented, all lines of its elements (one of each overload), of the constructor that the
class needs, and of the published protected methods. -/
theorem C75_stub (o : Options) (c c' : Class) (ls : List Str) (h1 : OneLine o c) (hi : ∀ x ∈ o.pyIndent, x = ' ') (ht : StubTexts c)
    (h : stubLines o c = some (ls, c')) : ((expectedStub o c).map ink).Sublist (ls.tail.map ink) := by
  have hv : ∀ c ∈ o.pyIndent, isSpace c = true := fun c hc => by rw [hi c hc]; decide
  obtain ⟨parents, hp, e⟩ := stub_lines h1 h
  have hsub := expected_sublist (o := o) ht
  have hall : ∀ l ∈ expectedStub o c, '\n' ∉ l := by
    intro l hl
    unfold expectedStub at hl
    rcases List.mem_append.1 hl with hl | hl
    · rcases List.mem_append.1 hl with hl | hl
      · exact dedup_lines ht l hl
      · unfold Spec.ctorStub at hl
        split at hl
        · cases hl
        · split at hl
          · exact ht.named.2 l hl
          · exact (show ∀ l ∈ ["def __init__(self) -> None:".toList, "    \"\"\"Autogenerated default constructor\"\"\"".toList, "    pass".toList],
              '\n' ∉ l by decide +kernel) l hl
    · obtain ⟨m, hm, hl⟩ := List.mem_flatMap.1 hl
      exact ht.methods m hm l hl
  rw [e, List.tail_cons, List.map_map]
  have hmap : ((ink ∘ Indent.indentLine o.pyIndent true) : Str → Str) = ink := funext (fun l => ink_indentLine hv l)
  rw [hmap]
  cases hb : bodyLines o c with
  | nil =>
    rw [hb] at hsub
    rw [List.sublist_nil.1 hsub]
    exact List.nil_sublist _
  | cons b bs =>
    unfold afterTitle
    dsimp only
    have he : (if (b :: bs).length = 0 then ["pass".toList] else b :: bs) = b :: bs := if_neg (Nat.succ_ne_zero _)
    rw [he, List.flatMap_append, List.map_append]
    refine List.Sublist.trans ?_ (List.sublist_append_right _ _)
    rw [flatMap_lines (l := Comment.alignPythonCommentsInBlockLines (b :: bs)) (fun x hx => not_mem_of_mem_lines hx), ink_align,
      lines_unlines_flat (by simp), ← flatMap_lines hall, ← hb]
    exact (sublist_flatMap lines hsub).map ink

example : OneLine demoO demoClass ∧ (∀ x ∈ demoO.pyIndent, x = ' ') ∧ StubTexts demoClass ∧ (stubLines demoO demoClass).isSome = true :=
  ⟨oneLine_demo, by decide +kernel, ⟨by decide +kernel, by decide +kernel, by decide +kernel⟩, by decide +kernel⟩

/-- C75. For every class: `__iter__` and `__len__` are in the binding exactly if they are in the stub, namely if the options give the type of the
items. -/
theorem C75_iterable (o : Options) (c : Class) (hi : '{' ∉ o.indent) (hq : '{' ∉ Spec.className c) :
    (o.iterable c.pyName = none → iterableCode o c = [] ∧ iterableStub o c = []) ∧
    ∀ t, o.iterable c.pyName = some t →
      ink (iterableCode o c) = ink (unlines (Spec.iterableLines o.nanobind (Spec.className c))) ∧
      iterableStub o c = ["def __iter__(self) -> Iterator[".toList ++ t ++ "]:".toList, o.indent ++ "pass".toList,
        "def __len__(self) -> int:".toList, o.indent ++ "pass".toList] := by
  constructor
  · intro h
    unfold iterableCode iterableStub
    rw [h]
    exact ⟨rfl, rfl⟩
  · intro t h
    unfold iterableCode iterableStub
    rw [h]
    refine ⟨?_, rfl⟩
    rw [qualified_eq, iterable_fill _ _ _ hi hq]
    have e : Indent.indentCode (unlines (Spec.iterableLines o.nanobind (Spec.className c)) ++ ['\n']) o.indent.length =
      Indent.indentCode (unlines (Spec.iterableLines o.nanobind (Spec.className c)) ++ ['\n']) o.indent.length false
        (some (spaces o.indent.length)) := rfl
    dsimp only
    rw [e, ink_indentCode (fun c hc => by rw [Indent.mem_spaces hc]; decide), ink_append, show ink ['\n'] = [] from by decide,
      List.append_nil]

example : '{' ∉ demoO.indent ∧ '{' ∉ Spec.className demoClass ∧ { demoO with iterable := fun _ => some "int".toList }.iterable demoClass.pyName =
    some "int".toList := by decide +kernel

end Verif.Cls.Props
