import Verif.Custom.Lemmas

/-! C46: custom codes are emitted in order, once per target. -/

namespace Verif.Custom.Props
open Verif.Py Verif.Custom.Spec

private def h1 : List Addition :=
  [⟨"A::Foo".toList, some "def f(self): ...".toList, some "LG_CLASS.def(\"f\", f);".toList⟩,
   ⟨[], some "def g(): ...".toList, some "LG_MODULE.def(\"g\", g);".toList⟩,
   ⟨"A".toList, none, some "LG_SUBMODULE.def(\"h\", h);".toList⟩,
   ⟨"A::Foo".toList, none, some "\n    LG_CLASS.def(\"k\", k);\n".toList⟩]

/-! ### One target -/

/-- C46. The code emitted for a scope is made of all the codes added for it, in the order of the additions, on lines of their own,
with the placeholder replaced, and between line ends; there is none exactly when nothing was added for that scope. -/
theorem C46_order (hist : List Addition) (scope target var : Str) (isPydef : Bool) (ht : target ≠ []) :
    (added hist scope isPydef = [] → makeCustomCode (after hist) scope isPydef target var = none) ∧
    (added hist scope isPydef ≠ [] → ∃ text replaced, makeCustomCode (after hist) scope isPydef target var = some text ∧
      Substituted target var (unlines (added hist scope isPydef)) replaced ∧ Padded replaced text) := by
  unfold makeCustomCode
  rw [key_eq, after_codes]
  constructor
  · intro h
    rw [if_pos h]
  · intro h
    rw [if_neg h]
    obtain ⟨p, ps, q1, q2, q3⟩ := replace_pieces target var ht (unlines (added hist scope isPydef))
    obtain ⟨t, e1, e2⟩ := padded_make (replace (unlines (added hist scope isPydef)) target var)
    exact ⟨t, _, congrArg some e1, ⟨p :: ps, q1, q2, q3⟩, e2⟩

example : makeClassCode (after h1) "A::Foo".toList "pyClassFoo".toList true =
    some "\npyClassFoo.def(\"f\", f);\npyClassFoo.def(\"k\", k);\n".toList := by decide +kernel
example : makeClassCode (after h1) "A::Foo".toList "pyClassFoo".toList false = some "\ndef f(self): ...\n".toList := by decide +kernel
example : makeSubmoduleCode (after h1) "A".toList "pyNsA".toList false = none := by decide +kernel

/-- C46. Classes use the placeholder `LG_CLASS`, namespaces `LG_SUBMODULE` and the main module `LG_MODULE`, each with the codes of its
own scope. -/
theorem C46_placeholders (b : Bindings) (q v : Str) (p : Bool) :
    makeClassCode b q v p = makeCustomCode b q p "LG_CLASS".toList v ∧
    makeSubmoduleCode b q v p = makeCustomCode b q p "LG_SUBMODULE".toList v ∧
    (b.mainEmitted p = false → (makeMainCode b v p).1 = makeCustomCode b [] p "LG_MODULE".toList v) := by
  refine ⟨rfl, rfl, fun h => ?_⟩
  unfold makeMainCode
  rw [h]
  simp only [Bool.false_eq_true, if_false]
  cases makeCustomCode b [] p "LG_MODULE".toList v <;> rfl

example : (after h1).mainEmitted true = false := by decide +kernel

/-! ### The main module -/

theorem makeCustomCode_main (b : Bindings) (v : Str) (p q : Bool) (s : Str) (r : Bool) (t w : Str) :
    makeCustomCode (makeMainCode b v p).2 s r t w = makeCustomCode b s r t w ∧
    (makeMainCode b v p).2.mainEmitted q = (b.mainEmitted q || (decide (p = q) && (makeMainCode b v p).1.isSome)) := by
  unfold makeMainCode
  cases h : b.mainEmitted p with
  | true =>
    refine ⟨rfl, ?_⟩
    simp
  | false =>
    simp only [Bool.false_eq_true, if_false]
    cases makeCustomCode b [] p "LG_MODULE".toList v with
    | none => exact ⟨rfl, by simp⟩
    | some x =>
      refine ⟨by cases p <;> cases r <;> rfl, ?_⟩
      cases p <;> cases q <;> simp_all [Bindings.setMainEmitted, Bindings.mainEmitted]

theorem items_no_main (b : Bindings) (p : Bool) (items : List Item) :
    mainEmissions (items.filterMap (itemEmission b p)) = [] := by
  unfold mainEmissions
  rw [List.filter_eq_nil_iff]
  intro e he
  obtain ⟨i, _, hi⟩ := List.mem_filterMap.1 he
  cases i with
  | klass q v =>
    simp only [itemEmission] at hi
    obtain ⟨t, _, rfl⟩ := Option.map_eq_some_iff.1 hi
    simp
  | ns q v root =>
    simp only [itemEmission] at hi
    split at hi
    · simp at hi
    · obtain ⟨t, _, rfl⟩ := Option.map_eq_some_iff.1 hi
      simp

theorem emitUnit_main (b : Bindings) (p : Bool) (items : List Item) :
    mainEmissions (emitUnit b p items).1 = ((makeMainCode b "m".toList p).1.map (fun t => Emission.mk none t)).toList := by
  unfold emitUnit
  simp only
  unfold mainEmissions
  rw [List.filter_append]
  have := items_no_main b p items
  unfold mainEmissions at this
  rw [this]
  cases (makeMainCode b "m".toList p).1 <;> simp

/-- The code for the main module, as the options hold it. -/
private def mainText (b : Bindings) (p : Bool) : Option Str := makeCustomCode b [] p "LG_MODULE".toList "m".toList

theorem emitUnit_main' (b : Bindings) (p : Bool) (items : List Item) :
    mainEmissions (emitUnit b p items).1 =
      (if b.mainEmitted p then [] else (mainText b p).map (fun t => Emission.mk none t) |>.toList) := by
  rw [emitUnit_main]
  unfold makeMainCode mainText
  cases b.mainEmitted p with
  | true => rfl
  | false =>
    simp only [Bool.false_eq_true, if_false]
    cases makeCustomCode b [] p "LG_MODULE".toList "m".toList <;> rfl

theorem emitUnit_state (b : Bindings) (p q : Bool) (items : List Item) :
    mainText (emitUnit b p items).2 q = mainText b q ∧
    (emitUnit b p items).2.mainEmitted q = (b.mainEmitted q || (decide (p = q) && (mainText b p).isSome)) := by
  unfold emitUnit mainText
  simp only
  obtain ⟨h1, h2⟩ := makeCustomCode_main b "m".toList p q [] q "LG_MODULE".toList "m".toList
  refine ⟨h1, ?_⟩
  rw [h2]
  cases hb : b.mainEmitted p with
  | true =>
    unfold makeMainCode
    rw [hb]
    by_cases hpq : p = q
    · subst hpq; simp [hb]
    · simp [hpq]
  | false => rw [(C46_placeholders b [] "m".toList p).2.2 hb]

/-- The stubs (or the binding codes) of the headers, one after the other. -/
private def output (p : Bool) (l : List (List Emission × List Emission)) : List Emission := l.flatMap (fun x => if p then x.2 else x.1)

theorem header_main (b : Bindings) (p : Bool) (items : List Item) :
    mainEmissions (if p then (processHeader b items).1.2 else (processHeader b items).1.1) =
      (if b.mainEmitted p then [] else ((mainText b p).map (fun t => Emission.mk none t)).toList) ∧
    mainText (processHeader b items).2 p = mainText b p ∧
    (processHeader b items).2.mainEmitted p = (b.mainEmitted p || (mainText b p).isSome) := by
  unfold processHeader
  simp only
  cases p with
  | false =>
    simp only [Bool.false_eq_true, if_false]
    refine ⟨emitUnit_main' b false items, ?_, ?_⟩
    · rw [(emitUnit_state _ true false items).1, (emitUnit_state _ false false items).1]
    · rw [(emitUnit_state _ true false items).2, (emitUnit_state _ false false items).2]; simp
  | true =>
    simp only [if_true]
    refine ⟨?_, ?_, ?_⟩
    · rw [emitUnit_main', (emitUnit_state _ false true items).2, (emitUnit_state _ false true items).1]; simp
    · rw [(emitUnit_state _ true true items).1, (emitUnit_state _ false true items).1]
    · rw [(emitUnit_state _ true true items).2, (emitUnit_state _ false true items).2, (emitUnit_state _ false true items).1]; simp

theorem headers_emitted (p : Bool) : ∀ (hs : List (List Item)) (b : Bindings), b.mainEmitted p = true →
    mainEmissions (output p (processHeaders b hs).1) = [] := by
  intro hs
  induction hs with
  | nil => intro b _; rfl
  | cons h hs ih =>
    intro b hb
    obtain ⟨k1, k2, k3⟩ := header_main b p h
    rw [hb] at k1 k3
    have hi := ih (processHeader b h).2 (by rw [k3]; rfl)
    unfold mainEmissions output at *
    simp only [processHeaders]
    rw [List.flatMap_cons, List.filter_append, hi, List.append_nil]
    simpa using k1

/-- C46. A generator emits the code of the main module exactly once in the stubs and once in the bindings, however many headers it
processes (at least one), and whatever they contain: with the first one. -/
theorem C46_main_once (hist : List Addition) (headers : List (List Item)) (p : Bool) (hne : headers ≠ [])
    (hadd : added hist [] p ≠ []) :
    ∃ text, makeCustomCode (after hist) [] p "LG_MODULE".toList "m".toList = some text ∧
      mainEmissions (output p (processHeaders (after hist) headers).1) = [⟨none, text⟩] ∧
      ∃ first rest, (processHeaders (after hist) headers).1 = first :: rest ∧
        mainEmissions (if p then first.2 else first.1) = [⟨none, text⟩] := by
  obtain ⟨text, _, ht, _⟩ := (C46_order hist [] "LG_MODULE".toList "m".toList p (by decide)).2 hadd
  cases headers with
  | nil => exact absurd rfl hne
  | cons h hs =>
    obtain ⟨k1, k2, k3⟩ := header_main (after hist) p h
    have hm : mainText (after hist) p = some text := ht
    rw [after_main, hm] at k1 k3
    have hi := headers_emitted p hs (processHeader (after hist) h).2 (by rw [k3]; rfl)
    refine ⟨text, ht, ?_, (processHeader (after hist) h).1, _, rfl, k1⟩
    unfold mainEmissions output at *
    simp only [processHeaders]
    rw [List.flatMap_cons, List.filter_append, hi, List.append_nil]
    simpa using k1

example : added h1 [] true ≠ [] := by decide +kernel
example : (processHeaders (after h1) [[], [.klass "A::Foo".toList "pyClassFoo".toList]]).1.map (fun x => x.2.length) = [1, 1] := by
  decide +kernel

/-- Each generator made with the same options emits the code of the main module. -/
def C46_generators_statement : Prop := ∀ (hist : List Addition) (h1 h2 : List (List Item)), h1 ≠ [] → h2 ≠ [] → added hist [] true ≠ [] →
  mainEmissions (output true (processHeaders (processHeaders (after hist) h1).2 h2).1) ≠ []

/-- C46. It fails: what was emitted is recorded in the options, so a second generator with the same options emits nothing. -/
theorem C46_generators_fails : ¬ C46_generators_statement := by
  intro h
  have := h h1 [[]] [[]] (by simp) (by simp) (by decide +kernel)
  exact this (by decide +kernel)

/-- Codes added to the main module between two headers are emitted. -/
def C46_late_statement : Prop := ∀ (hist : List Addition) (h1 h2 : List Item) (code : Str),
  ∃ e ∈ (processHeader (add (processHeader (after hist) h1).2 [] none (some code)) h2).1.2, e.target = none

/-- C46. It fails when the code of the main module was already emitted. -/
theorem C46_late_fails : ¬ C46_late_statement := by
  intro h
  obtain ⟨e, he, _⟩ := h h1 [] [] "LG_MODULE.def(\"x\", x);".toList
  exact absurd he (by decide +kernel +revert)

/-! ### Classes and namespaces -/

/-- The code of a target is emitted once for each class and namespace, in the bindings of a header. -/
def C46_targets_statement : Prop := ∀ (hist : List Addition) (items : List Item) (i : Item), i ∈ items →
  itemEmission (after hist) true i ≠ none → ((emitUnit (after hist) true items).1.filter (fun e => e.target = some i)).length = 1

/-- C46. It fails for a namespace that is closed and opened again: the code is emitted for each block. -/
theorem C46_targets_fails : ¬ C46_targets_statement := by
  intro h
  have := h h1 [.ns "A".toList "pyNsA".toList false, .ns "A".toList "pyNsA".toList false] (.ns "A".toList "pyNsA".toList false) (by simp)
    (by decide +kernel)
  exact absurd this (by decide +kernel)

/-- Codes added to a namespace of the header are emitted. -/
def C46_submodule_statement : Prop := ∀ (hist : List Addition) (items : List Item) (q v : Str) (root : Bool),
  .ns q v root ∈ items → added hist q true ≠ [] → ∃ e ∈ (emitUnit (after hist) true items).1, e.target = some (.ns q v root)

/-- C46. It fails for root namespaces: their custom code is ignored. -/
theorem C46_submodule_fails : ¬ C46_submodule_statement := by
  intro h
  obtain ⟨e, he, ht⟩ := h h1 [.ns "A".toList "m".toList true] "A".toList "m".toList true (by simp) (by decide +kernel)
  have : (emitUnit (after h1) true [.ns "A".toList "m".toList true]).1.filter (fun e => e.target ≠ none) = [] := by decide +kernel
  have hm := List.filter_eq_nil_iff.1 this e he
  rw [ht] at hm
  simp at hm

/-- C46. The emissions of a header are, in the order of its classes and namespace blocks, exactly those of the classes and of the
namespaces that are not root namespaces and for which codes were added, once for each block; so a target met once is emitted
once. -/
theorem C46_targets_partial (hist : List Addition) (items : List Item) (p : Bool) (i : Item) :
    ((emitUnit (after hist) p items).1.filter (fun e => e.target = some i)).length =
      (match i with
      | .klass q _ => if added hist q p = [] then 0 else items.count i
      | .ns q _ root => if root ∨ added hist q p = [] then 0 else items.count i) := by
  have hmain : ((makeMainCode (after hist) "m".toList p).1.map (fun t => Emission.mk none t)).toList.filter
      (fun e => e.target = some i) = [] := by
    cases (makeMainCode (after hist) "m".toList p).1 <;> simp
  have htarget : ∀ j e, itemEmission (after hist) p j = some e → e.target = some j := by
    intro j e he
    cases j with
    | klass q v =>
      simp only [itemEmission] at he
      obtain ⟨t, _, rfl⟩ := Option.map_eq_some_iff.1 he
      rfl
    | ns q v root =>
      simp only [itemEmission] at he
      split at he
      · simp at he
      · obtain ⟨t, _, rfl⟩ := Option.map_eq_some_iff.1 he
        rfl
  have hcount : ∀ items : List Item, ((items.filterMap (itemEmission (after hist) p)).filter (fun e => e.target = some i)).length =
      if itemEmission (after hist) p i = none then 0 else items.count i := by
    intro items
    induction items with
    | nil => simp
    | cons j items ih =>
      rw [List.filterMap_cons, List.count_cons]
      cases hj : itemEmission (after hist) p j with
      | none =>
        simp only
        rw [ih]
        by_cases hij : j = i
        · subst hij; simp [hj]
        · simp [hij]
      | some e =>
        simp only
        rw [List.filter_cons, htarget j e hj]
        by_cases hij : j = i
        · subst hij; simp [ih, hj]
        · simp [hij, ih]
  have hmake : ∀ q t v, t ≠ [] → (makeCustomCode (after hist) q p t v = none ↔ added hist q p = []) := by
    intro q t v ht
    obtain ⟨a1, a2⟩ := C46_order hist q t v p ht
    constructor
    · intro h
      cases hd : added hist q p with
      | nil => rfl
      | cons x xs =>
        obtain ⟨_, _, h', _⟩ := a2 (by rw [hd]; simp)
        rw [h] at h'; simp at h'
    · exact a1
  unfold emitUnit
  simp only
  rw [List.filter_append, hmain, List.append_nil, hcount]
  cases i with
  | klass q v =>
    have : itemEmission (after hist) p (.klass q v) = none ↔ added hist q p = [] := by
      simp only [itemEmission, Option.map_eq_none_iff]
      exact hmake q _ v (by decide)
    simp only [this]
  | ns q v root =>
    have : itemEmission (after hist) p (.ns q v root) = none ↔ (root = true ∨ added hist q p = []) := by
      simp only [itemEmission]
      cases root with
      | true => simp
      | false =>
        simp only [Bool.false_eq_true, if_false, Option.map_eq_none_iff, false_or]
        exact hmake q _ v (by decide)
    simp only [this]

example : ((emitUnit (after h1) true [.klass "A::Foo".toList "pyFoo".toList, .ns "A".toList "pyNsA".toList false]).1.map Emission.target) =
    [some (.klass "A::Foo".toList "pyFoo".toList), some (.ns "A".toList "pyNsA".toList false), none] := by decide +kernel

/-- Whether custom codes reach this class or namespace. -/
private def Reached (hist : List Addition) (p : Bool) : Item → Bool
  | .klass q _ => added hist q p ≠ []
  | .ns q _ root => !root && added hist q p ≠ []

theorem make_none_iff (hist : List Addition) (p : Bool) (q t v : Str) (ht : t ≠ []) :
    makeCustomCode (after hist) q p t v = none ↔ added hist q p = [] := by
  obtain ⟨a1, a2⟩ := C46_order hist q t v p ht
  constructor
  · intro h
    cases hd : added hist q p with
    | nil => rfl
    | cons x xs =>
      obtain ⟨_, _, h', _⟩ := a2 (by rw [hd]; simp)
      rw [h] at h'; simp at h'
  · exact a1

theorem itemEmission_target (b : Bindings) (p : Bool) (j : Item) (e : Emission) (he : itemEmission b p j = some e) :
    e.target = some j := by
  cases j with
  | klass q v =>
    simp only [itemEmission] at he
    obtain ⟨t, _, rfl⟩ := Option.map_eq_some_iff.1 he
    rfl
  | ns q v root =>
    simp only [itemEmission] at he
    split at he
    · simp at he
    · obtain ⟨t, _, rfl⟩ := Option.map_eq_some_iff.1 he
      rfl

theorem itemEmission_isSome (hist : List Addition) (p : Bool) (j : Item) :
    (itemEmission (after hist) p j).isSome = Reached hist p j := by
  cases j with
  | klass q v =>
    have h := make_none_iff hist p q "LG_CLASS".toList v (by decide)
    simp only [itemEmission, Option.isSome_map, Reached, makeClassCode]
    cases hm : makeCustomCode (after hist) q p "LG_CLASS".toList v with
    | none => simp [h.1 hm]
    | some t =>
      have : added hist q p ≠ [] := fun hn => by rw [h.2 hn] at hm; simp at hm
      simp [this]
  | ns q v root =>
    have h := make_none_iff hist p q "LG_SUBMODULE".toList v (by decide)
    cases root with
    | true => simp [itemEmission, Reached]
    | false =>
      simp only [itemEmission, Option.isSome_map, Reached, makeSubmoduleCode, Bool.false_eq_true, if_false, Bool.not_false, Bool.true_and]
      cases hm : makeCustomCode (after hist) q p "LG_SUBMODULE".toList v with
      | none => simp [h.1 hm]
      | some t =>
        have : added hist q p ≠ [] := fun hn => by rw [h.2 hn] at hm; simp at hm
        simp [this]

/-- C46. The custom codes of a header come in the order of its classes and namespace blocks, before that of the main module, and each is
the code of its target: with all the codes added for it. -/
theorem C46_sequence (hist : List Addition) (items : List Item) (p : Bool) :
    ∃ body last, (emitUnit (after hist) p items).1 = body ++ last ∧ body.map Emission.target = (items.filter (Reached hist p)).map some ∧
      last.map Emission.target = (if added hist [] p = [] then [] else [none]) ∧
      ∀ e ∈ body, ∀ q v, (e.target = some (.klass q v) →
          ∃ r, Substituted "LG_CLASS".toList v (unlines (added hist q p)) r ∧ Padded r e.text) ∧
        ∀ root, e.target = some (.ns q v root) →
          ∃ r, Substituted "LG_SUBMODULE".toList v (unlines (added hist q p)) r ∧ Padded r e.text := by
  have htext : ∀ q v t x, t ≠ [] → makeCustomCode (after hist) q p t v = some x →
      ∃ r, Substituted t v (unlines (added hist q p)) r ∧ Padded r x := by
    intro q v t x ht hx
    have hn : added hist q p ≠ [] := fun hn => by rw [(make_none_iff hist p q t v ht).2 hn] at hx; simp at hx
    obtain ⟨x', r, h1, h2, h3⟩ := (C46_order hist q t v p ht).2 hn
    rw [hx] at h1
    obtain rfl := Option.some.inj h1
    exact ⟨r, h2, h3⟩
  refine ⟨items.filterMap (itemEmission (after hist) p), _, rfl, ?_, ?_, ?_⟩
  · induction items with
    | nil => rfl
    | cons j items ih =>
      have hs := itemEmission_isSome hist p j
      rw [List.filterMap_cons, List.filter_cons]
      cases hj : itemEmission (after hist) p j with
      | none => rw [hj] at hs; rw [← hs]; simpa using ih
      | some e =>
        rw [hj] at hs; rw [← hs]
        simp only [Option.isSome_some, if_true, List.map_cons]
        rw [ih, itemEmission_target _ _ _ _ hj]
  · rw [(C46_placeholders (after hist) [] "m".toList p).2.2 (after_main hist p)]
    have h := make_none_iff hist p [] "LG_MODULE".toList "m".toList (by decide)
    cases hm : makeCustomCode (after hist) [] p "LG_MODULE".toList "m".toList with
    | none => rw [if_pos (h.1 hm)]; rfl
    | some t => rw [if_neg (fun hn => by rw [h.2 hn] at hm; simp at hm)]; rfl
  · intro e he q v
    obtain ⟨j, _, hj⟩ := List.mem_filterMap.1 he
    have htg := itemEmission_target _ _ _ _ hj
    constructor
    · intro hk
      rw [htg] at hk
      obtain rfl := Option.some.inj hk
      simp only [itemEmission] at hj
      obtain ⟨t, ht, rfl⟩ := Option.map_eq_some_iff.1 hj
      exact htext q v _ t (by decide) ht
    · intro root hk
      rw [htg] at hk
      obtain rfl := Option.some.inj hk
      simp only [itemEmission] at hj
      split at hj
      · simp at hj
      · obtain ⟨t, ht, rfl⟩ := Option.map_eq_some_iff.1 hj
        exact htext q v _ t (by decide) ht

example : [Item.ns "A".toList "pyNsA".toList false, .ns "B".toList "pyNsB".toList false, .klass "A::Foo".toList "pyFoo".toList].filter
    (Reached h1 true) = [.ns "A".toList "pyNsA".toList false, .klass "A::Foo".toList "pyFoo".toList] := by decide +kernel

end Verif.Custom.Props
