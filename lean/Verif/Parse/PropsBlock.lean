import Verif.Parse.LemmasTree

/-! Properties C56: the tree of elements of a file. -/

namespace Verif.Parse.Props
open Verif.Py Verif.Type Spec Lemmas

/-! ### Nothing is lost -/

/-- C56, full statement: every declaration of a file, at every depth, has its element, in the order of the file, with its comments. -/
def C56_statement : Prop :=
  ∀ (env : Env) (x : Xml) (es : List Elem), parseUnit env x = .ok es → Content env (fun _ => False) x es

/-- C56. Only two things may be left out: a macro in an access section of a class, and an `extern` which is not `extern "C" { ... }`. -/
theorem C56_nothing_else_lost (env : Env) (x : Xml) (es : List Elem) (h : parseUnit env x = .ok es) : Content env MayBeLost x es :=
  (tree (L := MayBeLost) x (fun _ _ h => h)).2.1 _ es h

/-- C56 (part): the full statement for the files without such elements. -/
theorem C56_partial (env : Env) (x : Xml) (es : List Elem) (hx : ∀ y, Inside x y → ¬ MayBeLost y) (h : parseUnit env x = .ok es) :
    Content env (fun _ => False) x es :=
  (tree (L := fun _ => False) x (fun y hy hl => hx y hy hl)).2.1 _ es h

/-- `extern "C++" { int a; }` -/
def extern1 : Xml := node .extern_ [leaf .literal "\"C++\"",
  node .block [node .blockContent [node .declStmt [node .decl [node .type [leaf .name "int"], leaf .name "a"]]]]]

theorem C56_fails : ¬ C56_statement := by
  intro h
  have h1 := h env0 (node (.other "unit".toList) [extern1]) [] (by
    have : (match parseUnit env0 (node (.other "unit".toList) [extern1]) with
      | .ok [] => true
      | _ => false) = true := by decide +kernel
    revert this
    generalize parseUnit env0 (node (.other "unit".toList) [extern1]) = r
    rcases r with e | (_ | ⟨e, es⟩)
    · intro h; cases h
    · intro _; rfl
    · intro h; cases h)
  cases h1 with
  | mk _ l _ hc hs =>
    have hl : l.map Prod.fst = [extern1] := hc.1
    match l, hl, hs with
    | [(y, c)], hl, hs =>
      have hy : y = extern1 := (List.cons.inj hl).1
      subst hy
      change Seq env0 _ [(extern1, c)] [] at hs
      generalize hn : ([] : List Elem) = es' at hs
      cases hs with
      | one => cases hn
      | externC _ k _ inner _ es hx =>
        obtain ⟨_, ⟨l, h1, h2⟩, _⟩ := hx
        have := only_filter h1
        have h3 : extern1.children.filter (fun c => c.tag = .literal) = [leaf .literal "\"C++\""] := by rfl
        rw [h3] at this
        cases this
        revert h2
        decide
      | lost _ _ _ _ h => exact h

/-- A file with a namespace, a class with a constructor and a typedef in it, and functions in an `extern "C"`. -/
def unit1 : Xml := node (.other "unit".toList)
  [ node .namespace_ [leaf .name "N", node .block
      [ node .class_ [leaf .name "Foo", node .superList [node .super_ [leaf .specifier "public", leaf .name "Base"]],
          node .block [node .private_ [], node .public_
            [ node .constructorDecl [leaf .name "Foo", node .parameterList []],
              leaf .typedef "typedef int T;" ]]],
        .node { tag := .comment, text := some "// alone".toList, start := 9, stop := 9 } [] ]],
    node .extern_ [leaf .literal "\"C\"", node .block [node .blockContent
      [ node .functionDecl [node .type [leaf .name "int"], leaf .name "f", node .parameterList []],
        node .functionDecl [node .type [leaf .name "int"], leaf .name "g", node .parameterList []] ]]] ]

example : (match parseUnit env0 unit1 with
    | .ok [.namespace_ n _ (some [.struct_ h (some [.access .private_ false [], .access .public_ false [.func c, .unprocessed .typedef]]),
        .comment t _]), .func f, .func g] =>
      n = "N".toList && h.name = "Foo".toList && h.isClass && h.bases = some [("public".toList, "Base".toList)] &&
      c.name = "Foo".toList && t = " alone".toList && f.name = "f".toList && g.name = "g".toList
    | _ => false) = true := by decide +kernel

/-- Nothing in this file may be left out. -/
def lossFree : Xml → Bool
  | .node m cs => (m.tag != .macro_ && m.tag != .extern_) && lossFrees cs
where
  lossFrees : List Xml → Bool
  | [] => true
  | c :: cs => lossFree c && lossFrees cs

theorem lossFree_inside {x y : Xml} (h : Inside x y) : lossFree x = true → ¬ MayBeLost y := by
  induction h with
  | refl x =>
    intro h hl
    cases x with
    | node m cs =>
      rw [lossFree] at h
      simp only [Bool.and_eq_true, bne_iff_ne] at h
      rcases hl with h1 | ⟨h1, _⟩
      · exact h.1.1 h1
      · exact h.1.2 h1
  | child x c y hc _ ih =>
    intro h
    apply ih
    cases x with
    | node m cs =>
      rw [lossFree] at h
      simp only [Bool.and_eq_true] at h
      have : ∀ cs : List Xml, c ∈ cs → lossFree.lossFrees cs = true → lossFree c = true := by
        intro cs
        induction cs with
        | nil => intro hc; cases hc
        | cons d ds ihd =>
          intro hc hh
          rw [lossFree.lossFrees] at hh
          simp only [Bool.and_eq_true] at hh
          rcases List.mem_cons.1 hc with rfl | hc
          · exact hh.1
          · exact ihd hc hh.2
      exact this cs hc h.2

example : ∀ y, Inside (.node unit1.meta (unit1.children.take 1)) y → ¬ MayBeLost y := fun _ h => lossFree_inside h (by decide +kernel)

/-- In the access section of a class, a macro which is not a constructor leaves nothing. -/
example : (match parseUnit env0 (node (.other "unit".toList) [node .class_ [leaf .name "Foo", node .block [node .public_ [leaf .macro_ "Q_OBJECT"]]]]) with
    | .ok [.struct_ _ (some [.access .public_ false []])] => true
    | _ => false) = true := by decide +kernel

/-! ### A failure stays where it is -/

theorem zipIdx_at (pre post : List Xml) (a : Xml) : (pre ++ a :: post).zipIdx = pre.zipIdx ++ (a, pre.length) :: post.zipIdx (pre.length + 1) := by
  rw [List.zipIdx_append, List.zipIdx_cons, Nat.zero_add]

theorem filter_at (pre post : List Xml) (a : Xml) :
    ((pre ++ a :: post).zipIdx.filter (fun p => decide (p.2 = pre.length))) = [(a, pre.length)] := by
  rw [zipIdx_at, List.filter_append, List.filter_cons, if_pos (by simp), List.filter_eq_nil_iff.2, List.filter_eq_nil_iff.2]
  · rfl
  · intro p hp
    have := List.snd_lt_of_mem_zipIdx hp
    have h2 := (List.mem_zipIdx (x := p.1) (i := p.2) hp).1
    simp only [decide_eq_true_eq]
    omega
  · intro p hp
    have := (List.mem_zipIdx (x := p.1) (i := p.2) hp).2.1
    simp only [decide_eq_true_eq]
    omega

/-- The position of a child which is not a comment among the children with their comments. -/
theorem outs_at {pre post : List Xml} {a : Xml} {outs : List Attach.Out} (ht : a.tag ≠ .comment)
    (h : Attach.getChildrenWithComments ((pre ++ a :: post).zipIdx.map attachChild) = some outs) :
    ∃ A o B, outs = A ++ o :: B ∧ o.element.id = pre.length ∧ ∀ p ∈ A ++ B, p.element.id ≠ pre.length := by
  have h0 := outs_spec h
  have hfil : outs.filter (fun o => decide (o.element.id = pre.length)) =
      (outs.filter (fun o => !o.element.isComment)).filter (fun o => decide (o.element.id = pre.length)) := by
    rw [List.filter_filter]
    apply List.filter_congr
    intro o ho
    by_cases hid : o.element.id = pre.length
    · obtain ⟨x, hx, hc⟩ := h0.1 o ho
      rw [hid] at hx
      simp at hx
      subst hx
      rw [hc]
      simp [hid, ht]
    · simp [hid]
  have hkept : (outs.filter (fun o => !o.element.isComment)).map Attach.Out.element =
      ((pre ++ a :: post).zipIdx.map attachChild).filter (fun e => !e.isComment) := by
    unfold Attach.getChildrenWithComments at h
    rw [Option.map_eq_some_iff] at h
    obtain ⟨g, hg, rfl⟩ := h
    obtain ⟨h1, _⟩ := group_keeps hg
    have h3 := Attach.C20_elements_kept (g.map Attach.cleanChild)
    rw [clean_filter, h1, List.filter_map] at h3
    exact h3
  have hone : (outs.filter (fun o => decide (o.element.id = pre.length))).map Attach.Out.element = [attachChild (a, pre.length)] := by
    rw [hfil]
    have : ((outs.filter (fun o => !o.element.isComment)).filter (fun o => decide (o.element.id = pre.length))).map Attach.Out.element =
        ((outs.filter (fun o => !o.element.isComment)).map Attach.Out.element).filter (fun e => decide (e.id = pre.length)) := by
      rw [List.filter_map]; rfl
    rw [this, hkept, List.filter_filter, List.filter_map]
    have h2 : (pre ++ a :: post).zipIdx.filter ((fun e => decide (e.id = pre.length) && !e.isComment) ∘ attachChild) =
        ((pre ++ a :: post).zipIdx.filter (fun p => decide (p.2 = pre.length))).filter (fun p => !(attachChild p).isComment) := by
      rw [List.filter_filter]
      apply List.filter_congr
      intro p _
      exact Bool.and_comm _ _
    rw [h2, filter_at, List.filter_cons, if_pos]
    · rfl
    · show (!(a.tag.str == "comment".toList)) = true
      rw [str_comment]; simp [ht]
  obtain ⟨o, ho, hoe⟩ := map_single hone
  obtain ⟨A, B, h1, h2, h3, h4⟩ := List.filter_eq_cons_iff.1 ho
  refine ⟨A, o, B, h1, by simpa using h3, ?_⟩
  intro p hp
  rcases List.mem_append.1 hp with hp | hp
  · simpa using h2 p hp
  · simpa using List.filter_eq_nil_iff.1 h4 p hp

/-- The children with their comments, when one child is replaced by another of the same place. -/
theorem withComments_at {env : Env} {pre post : List Xml} {a a' : Xml} {l : List (Attach.Out × Child)} (hm : a.meta = a'.meta) (ht : a.tag ≠ .comment)
    (h : withComments (childrenOf env (pre ++ a :: post)) = some l) :
    ∃ A o B, l = A ++ (o, ⟨a, parseChild env a⟩) :: B ∧
      withComments (childrenOf env (pre ++ a' :: post)) = some (A ++ (o, ⟨a', parseChild env a'⟩) :: B) := by
  have hsame : (pre ++ a :: post).zipIdx.map attachChild = (pre ++ a' :: post).zipIdx.map attachChild := by
    rw [zipIdx_at, zipIdx_at, List.map_append, List.map_append, List.map_cons, List.map_cons]
    congr 2
    unfold attachChild Xml.tag Xml.text
    simp only [hm]
  have hx : ∀ b : Xml, (childrenOf env (pre ++ b :: post)).map Child.xml = pre ++ b :: post := by
    intro b
    rw [childrenOf_eq, List.map_map]
    exact List.map_id _
  unfold withComments at h ⊢
  rw [hx] at h ⊢
  rw [← hsame]
  rw [Option.bind_eq_some_iff] at h
  obtain ⟨outs, h1, h2⟩ := h
  rw [h1, Option.bind_some]
  obtain ⟨A, o, B, rfl, ho, hAB⟩ := outs_at ht h1
  have hget : ∀ (b : Xml), (childrenOf env (pre ++ b :: post))[pre.length]? = some ⟨b, parseChild env b⟩ := by
    intro b
    rw [childrenOf_eq, List.getElem?_map]
    simp
  have hne : ∀ i, i ≠ pre.length → (childrenOf env (pre ++ a' :: post))[i]? = (childrenOf env (pre ++ a :: post))[i]? := by
    intro i hi
    rw [childrenOf_eq, childrenOf_eq, List.getElem?_map, List.getElem?_map]
    congr 1
    rcases Nat.lt_or_gt_of_ne hi with hlt | hgt
    · rw [List.getElem?_append_left hlt, List.getElem?_append_left hlt]
    · rw [List.getElem?_append_right (by omega), List.getElem?_append_right (by omega)]
      obtain ⟨k, hk⟩ : ∃ k, i - pre.length = k + 1 := ⟨i - pre.length - 1, by omega⟩
      rw [hk]; rfl
  have hsub : ∀ O : List Attach.Out, (∀ p ∈ O, p.element.id ≠ pre.length) →
      O.mapM (fun o => ((childrenOf env (pre ++ a' :: post))[o.element.id]?).map (fun c => (o, c))) =
      O.mapM (fun o => ((childrenOf env (pre ++ a :: post))[o.element.id]?).map (fun c => (o, c))) := by
    intro O
    induction O with
    | nil => intro _; rfl
    | cons p O ih =>
      intro hO
      rw [List.mapM_cons, List.mapM_cons, ih (fun q hq => hO q (by simp [hq])), hne _ (hO p (by simp))]
  rw [List.mapM_append, List.mapM_cons, ho] at h2 ⊢
  rw [hsub A (fun p hp => hAB p (List.mem_append_left _ hp)), hsub B (fun p hp => hAB p (List.mem_append_right _ hp)), hget]
  rw [hget] at h2
  cases hA : A.mapM (fun o => ((childrenOf env (pre ++ a :: post))[o.element.id]?).map (fun c => (o, c))) with
  | none => rw [hA] at h2; cases h2
  | some A' =>
    cases hB : B.mapM (fun o => ((childrenOf env (pre ++ a :: post))[o.element.id]?).map (fun c => (o, c))) with
    | none => rw [hA, hB] at h2; cases h2
    | some B' =>
      rw [hA, hB] at h2
      cases h2
      exact ⟨A', o, B', rfl, rfl⟩

theorem blockLoop_append (env : Env) (ctx : Ctx) (l1 : List (Attach.Out × Child)) : ∀ ign,
    (∃ e, ∀ l2, blockLoop env ctx ign (l1 ++ l2) = .error e) ∨
    ∃ es ign', ∀ l2, blockLoop env ctx ign (l1 ++ l2) = (blockLoop env ctx ign' l2).map (fun r => es ++ r) := by
  induction l1 with
  | nil =>
    intro ign
    refine .inr ⟨[], ign, fun l2 => ?_⟩
    show blockLoop env ctx ign l2 = _
    cases blockLoop env ctx ign l2 <;> rfl
  | cons p l1 ih =>
    obtain ⟨o, c⟩ := p
    intro ign
    cases hs : blockStep env ctx ign o c with
    | error e => exact .inl ⟨e, fun l2 => by rw [List.cons_append, blockLoop, hs]⟩
    | ok r =>
      obtain ⟨es, ign'⟩ := r
      rcases ih ign' with ⟨e, he⟩ | ⟨es', ign'', he⟩
      · refine .inl ⟨e, fun l2 => ?_⟩
        rw [List.cons_append, blockLoop, hs]
        simp only [he]
      · refine .inr ⟨es ++ es', ign'', fun l2 => ?_⟩
        rw [List.cons_append, blockLoop, hs]
        simp only [he]
        cases blockLoop env ctx ign'' l2 with
        | error e => rfl
        | ok r => show Except.ok (es ++ (es' ++ r)) = Except.ok (es ++ es' ++ r); rw [List.append_assoc]

theorem seg_step {env : Env} {ctx : Ctx} {a : Xml} (ign : Option Ignored) (o : Attach.Out) (B : List (Attach.Out × Child))
    (hp : isProcessed ctx a.tag = true) (ht : a.tag ≠ .comment) :
    (parseChild env a ctx ⟨o.onPreviousLines, o.endOfLine⟩ = .error .crash ∧
      blockLoop env ctx ign ((o, ⟨a, parseChild env a⟩) :: B) = .error .crash) ∨
    ∃ s, Seg env ctx a ⟨o.onPreviousLines, o.endOfLine⟩ s ∧
      blockLoop env ctx ign ((o, ⟨a, parseChild env a⟩) :: B) = (blockLoop env ctx ign B).map (fun r => s ++ r) := by
  rw [blockLoop]
  unfold blockStep
  simp only [if_neg ht, if_pos hp]
  cases hq : parseChild env a ctx ⟨o.onPreviousLines, o.endOfLine⟩ with
  | ok s =>
    refine .inr ⟨s, .inl ⟨hp, hq⟩, ?_⟩
    simp only
    cases blockLoop env ctx ign B <;> rfl
  | error e =>
    cases e with
    | crash => exact .inl ⟨rfl, rfl⟩
    | detailed =>
      refine .inr ⟨_, .inr (.inl ⟨hp, hq, rfl⟩), ?_⟩
      simp only
      cases blockLoop env ctx ign B <;> rfl

/-- C56. What one declaration gives does not depend on the others: replaced by any other one of the same tag and the same place, be it one
which cannot be parsed, it changes only its own elements, unless its parser raises an exception which `fill_block` does not catch. -/
theorem C56_isolation (env : Env) (ctx : Ctx) (m : Meta) (pre post : List Xml) (a a' : Xml) (es : List Elem) (hm : a.meta = a'.meta)
    (ht : a.tag ∈ understood) (hc : a.tag ≠ .comment) (h : fillOf env (.node m (pre ++ a :: post)) ctx = .ok es) :
    ∃ p q c s, es = p ++ s ++ q ∧ Seg env ctx a c s ∧
      ((parseChild env a' ctx c = .error .crash ∧ fillOf env (.node m (pre ++ a' :: post)) ctx = .error .crash) ∨
        ∃ s', Seg env ctx a' c s' ∧ fillOf env (.node m (pre ++ a' :: post)) ctx = .ok (p ++ s' ++ q)) := by
  have hp : isProcessed ctx a.tag = true := by
    unfold isProcessed
    rw [Bool.or_eq_true]
    exact .inl (by rw [List.contains_iff_mem]; exact ht)
  have htag : a'.tag = a.tag := by unfold Xml.tag; rw [hm]
  rw [fillOf] at h ⊢
  unfold fillBlock at h ⊢
  cases hw : withComments (childrenOf env (pre ++ a :: post)) with
  | none => rw [hw] at h; cases h
  | some l =>
    rw [hw] at h
    obtain ⟨A, o, B, rfl, hw'⟩ := withComments_at hm hc hw
    rw [hw']
    simp only at h ⊢
    rcases blockLoop_append env ctx A none with ⟨e, he⟩ | ⟨p, ign, he⟩
    · rw [he] at h; cases h
    · rw [he] at h ⊢
      rcases seg_step ign o B hp hc with ⟨_, h2⟩ | ⟨s, h1, h2⟩
      · rw [h2] at h; cases h
      · rw [h2] at h
        cases hB : blockLoop env ctx ign B with
        | error e => rw [hB] at h; cases h
        | ok q =>
          rw [hB] at h
          cases h
          refine ⟨p, q, ⟨o.onPreviousLines, o.endOfLine⟩, s, by simp, h1, ?_⟩
          rcases seg_step ign o B (a := a') (by rw [htag]; exact hp) (by rw [htag]; exact hc) with ⟨h3, h4⟩ | ⟨s', h3, h4⟩
          · exact .inl ⟨h3, by rw [h4]; rfl⟩
          · refine .inr ⟨s', h3, ?_⟩
            rw [h4, hB]
            show Except.ok (p ++ (s' ++ q)) = Except.ok (p ++ s' ++ q)
            rw [List.append_assoc]

/-- `int f();`, with something more. -/
def fun0 (extra : List Xml) : Xml := node .functionDecl ([node .type [leaf .name "int"], leaf .name "f", node .parameterList []] ++ extra)

/-- `int f();` between two others, and the same with a modifier that is not understood: only the second declaration is lost. -/
example :
    (match parseUnit env0 (node (.other "unit".toList) [fun0 [], fun0 [leaf .modifier "?"], fun0 []]) with
      | .ok [.func _, .unprocessed .functionDecl, .func _] => true
      | _ => false) = true := by decide +kernel

/-! ### The text of a comment in a head -/

/-- C56. The text kept of a comment `// ...` in the head of a class, of a namespace or of an enumeration is the text after the marker without
white space around it; of a comment `/* ... */` it is the text between the markers, without white space before it. -/
theorem C56_markers (t : Str) :
    removeMarkers ("//".toList ++ t) = strip t ∧ removeMarkers ("/*".toList ++ t ++ "*/".toList) = lstrip t := by
  have e : strip (t ++ ['*', '/']) = lstrip t ++ ['*', '/'] := by
    obtain ⟨w, h1, h2⟩ := lstrip_decomp t
    have hl : lstrip (t ++ ['*', '/']) = lstrip t ++ ['*', '/'] := by
      conv_lhs => rw [h1, List.append_assoc, lstrip_append_of_all h2]
      rcases lstrip_head t with h | ⟨c, a, h, hc⟩
      · rw [h]; decide +kernel
      · rw [h]; exact lstrip_cons_of_not hc
    rw [strip, hl, show lstrip t ++ ['*', '/'] = (lstrip t ++ ['*']) ++ ['/'] by simp]
    exact rstrip_append_of_not (by decide +kernel)
  constructor
  · rfl
  · show (if endsWith (strip (t ++ ['*', '/'])) ['*', '/'] then
        (strip (t ++ ['*', '/'])).take ((strip (t ++ ['*', '/'])).length - 2) else strip (t ++ ['*', '/'])) = _
    rw [e, if_pos]
    · simp
    · simp [endsWith]

example : removeMarkers "/* the end of the line */".toList = "the end of the line ".toList ∧
    removeMarkers "//  a class ".toList = "a class".toList := by decide +kernel

/-! ### The comment of a typedef -/

/-- C56, full statement: a comment at the end of the line of a typedef is kept as a comment, with the code of the typedef (the purpose of
`shall_ignore_comment`). -/
def C56_typedef_comment_statement : Prop :=
  ∀ (env : Env) (code text : Str), ∃ t c, parseUnit env (node (.other "unit".toList)
    [.node { tag := .typedef, text := some code, start := 1, stop := 1 } [],
     .node { tag := .comment, text := some ("//".toList ++ text), start := 1, stop := 1 } []]) =
    .ok [.unprocessed .typedef, .comment t c]

/-- The comment belongs to the typedef when `fill_block` sees it, and it is lost with it. -/
theorem C56_typedef_comment_fails : ¬ C56_typedef_comment_statement := by
  intro h
  obtain ⟨t, c, h1⟩ := h env0 "typedef int T;".toList " an int".toList
  have : (match parseUnit env0 (node (.other "unit".toList)
    [.node { tag := .typedef, text := some "typedef int T;".toList, start := 1, stop := 1 } [],
     .node { tag := .comment, text := some ("//".toList ++ " an int".toList), start := 1, stop := 1 } []]) with
    | .ok [_] => true
    | _ => false) = true := by decide +kernel
  rw [h1] at this
  cases this

end Verif.Parse.Props
