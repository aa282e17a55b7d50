import Verif.Query.Spec
import Verif.Print.Lemmas
import Verif.Type.Lemmas
import Verif.Template.Inert

/-! Properties C101 (queries on a class) and C102 (addition of a method). -/

namespace Verif.Query.Props
open Verif.Py Verif.Print Verif.Query Verif.Query.Spec

theorem listing_cons (e : Elem) (r : List Elem) : listing (e :: r) = zoneListing e ++ listing r := rfl

theorem listing_append (a b : List Elem) : listing (a ++ b) = listing a ++ listing b := List.flatMap_append

theorem zone_none {e : Elem} (h : zone? e = none) : zoneListing e = [] := by
  cases e with
  | access c n d l => exact absurd h (by simp [zone?])
  | _ => rfl

theorem zone_some {e : Elem} {n : Str} {l : List Elem} (h : zone? e = some (n, l)) : zoneListing e = l.map (fun x => (n, x)) := by
  cases e with
  | access c m d k =>
    have hh : (m, k) = (n, l) := Option.some.inj h
    injection hh with h1 h2
    subst h1; subst h2
    rfl
  | _ => exact absurd h (by simp [zone?])

theorem filter_tag (a : Option Str) (n : Str) (l : List Elem) :
    ((l.map (fun x => (n, x))).filter (fun x => wanted a x.1)).map Prod.snd = if wanted a n then l else [] := by
  induction l with
  | nil => simp
  | cons x l ih =>
    by_cases h : wanted a n = true
    · simp only [h, if_true] at ih ⊢
      simp only [List.map_cons, List.filter_cons, h, if_true, ih]
    · simp only [h] at ih ⊢
      simp only [List.map_cons, List.filter_cons, h]
      exact ih

theorem elements_eq (a : Option Str) : ∀ cls : List Elem, elements a none cls = ((listing cls).filter (fun x => wanted a x.1)).map Prod.snd
  | [] => rfl
  | e :: r => by
    rw [elements, listing_cons, List.filter_append, List.map_append]
    cases hz : zone? e with
    | none => rw [zone_none hz]; exact elements_eq a r
    | some p =>
      obtain ⟨n, l⟩ := p
      rw [zone_some hz, filter_tag, ← elements_eq a r]
      show (if wanted a n then l ++ elements a none r else elements a none r) = _
      by_cases h : wanted a n = true
      · rw [if_pos h, if_pos h]
      · rw [if_neg h, if_neg h]; rfl

theorem elements_kind (a : Option Str) (kind : Elem → Bool) : ∀ cls : List Elem, elements a (some kind) cls = (elements a none cls).filter kind
  | [] => rfl
  | e :: r => by
    rw [elements, elements]
    cases zone? e with
    | none => exact elements_kind a kind r
    | some p =>
      obtain ⟨n, l⟩ := p
      show (if wanted a n then l.filter kind ++ elements a (some kind) r else elements a (some kind) r) =
        (if wanted a n then l ++ elements a none r else elements a none r).filter kind
      rw [elements_kind a kind r]
      by_cases h : wanted a n = true
      · rw [if_pos h, if_pos h, List.filter_append]
      · rw [if_neg h, if_neg h]

/-- C101: the elements that are asked are those of the zones with the asked access, in the order of the code; a kind selects among them. -/
theorem C101_elements (cls : List Elem) (a : Option Str) (kind : Elem → Bool) :
    (∀ b, elements (some b) none cls = ((listing cls).filter (fun x => x.1 = b)).map Prod.snd) ∧
      elements none none cls = (listing cls).map Prod.snd ∧
      elements a (some kind) cls = (elements a none cls).filter kind := by
  refine ⟨fun b => ?_, ?_, elements_kind a kind cls⟩
  · rw [elements_eq]
    congr 1
    exact List.filter_congr (fun x _ => by show (x.1 == b) = decide (x.1 = b); exact Bool.beq_eq_decide_eq _ _)
  · rw [elements_eq]
    congr 1
    exact List.filter_eq_self.2 (fun _ _ => rfl)

theorem perm3 {p q r : Str} (d1 : q ≠ p) (d2 : r ≠ p) (d3 : r ≠ q) : ∀ L : List (Str × Elem), (∀ x ∈ L, x.1 = p ∨ x.1 = q ∨ x.1 = r) →
    L.Perm (L.filter (fun x => x.1 = p) ++ L.filter (fun x => x.1 = q) ++ L.filter (fun x => x.1 = r))
  | [], _ => List.Perm.refl _
  | x :: L, h => by
    have ih := perm3 d1 d2 d3 L (fun y hy => h y (List.mem_cons_of_mem _ hy))
    rcases h x (List.mem_cons_self ..) with e | e | e
    · have h1 : x.1 ≠ q := fun k => d1 (k.symm.trans e)
      have h2 : x.1 ≠ r := fun k => d2 (k.symm.trans e)
      simp only [List.filter_cons, e, h1, h2, decide_true, decide_false, if_true]
      simp only [Ne.symm d1, Ne.symm d2, decide_false, Bool.false_eq_true, if_false, List.cons_append]
      exact ih.cons x
    · simp only [List.filter_cons, e, decide_true, if_true]
      simp only [d1, Ne.symm d3, decide_false, Bool.false_eq_true, if_false]
      refine (ih.cons x).trans ?_
      rw [List.append_assoc, List.append_assoc, List.cons_append]
      exact List.perm_middle.symm
    · simp only [List.filter_cons, e, decide_true, if_true]
      simp only [d2, d3, decide_false, Bool.false_eq_true, if_false]
      exact (ih.cons x).trans List.perm_middle.symm

/-- C101: each element of a class has one access: the elements that are public, protected and private are all the elements, once. -/
theorem C101_partition (cls : List Elem) (h : ∀ x ∈ listing cls, x.1 ∈ accesses) :
    (elements none none cls).Perm
      (elements (some "public".toList) none cls ++ elements (some "protected".toList) none cls ++ elements (some "private".toList) none cls) := by
  have hp := (C101_elements cls none (fun _ => true)).1
  rw [hp, hp, hp, (C101_elements cls none (fun _ => true)).2.1, ← List.map_append, ← List.map_append]
  apply List.Perm.map
  refine perm3 (by decide) (by decide) (by decide) _ (fun x hx => ?_)
  have := h x hx
  simpa only [accesses, List.mem_cons, List.not_mem_nil, or_false] using this

theorem members_eq (a : Option Str) : ∀ cls : List Elem, members a cls = (elements a none cls).flatMap declsOf
  | [] => rfl
  | e :: r => by
    rw [members, elements]
    cases zone? e with
    | none => exact members_eq a r
    | some p =>
      obtain ⟨n, l⟩ := p
      show (if wanted a n then l.flatMap declsOf ++ members a r else members a r) = (if wanted a n then l ++ elements a none r else elements a none r).flatMap declsOf
      rw [members_eq a r]
      by_cases h : wanted a n = true
      · rw [if_pos h, if_pos h, List.flatMap_append]
      · rw [if_neg h, if_neg h]

theorem withAccess_eq (a : Option Str) : ∀ cls : List Elem, ((membersWithAccess cls).filter (fun x => wanted a x.1)).map Prod.snd = members a cls
  | [] => rfl
  | e :: r => by
    rw [members, membersWithAccess]
    cases zone? e with
    | none => exact withAccess_eq a r
    | some p =>
      obtain ⟨n, l⟩ := p
      show (((l.flatMap declsOf).map (fun d => (n, d)) ++ membersWithAccess r).filter (fun x => wanted a x.1)).map Prod.snd =
        (if wanted a n then l.flatMap declsOf ++ members a r else members a r)
      rw [List.filter_append, List.map_append, withAccess_eq a r]
      have : ∀ k : List (Comments × Decl), ((k.map (fun d => (n, d))).filter (fun x => wanted a x.1)).map Prod.snd = if wanted a n then k else [] := by
        intro k
        induction k with
        | nil => simp
        | cons x k ih =>
          by_cases h : wanted a n = true
          · simp only [h, if_true] at ih ⊢
            simp only [List.map_cons, List.filter_cons, h, if_true, ih]
          · simp only [h] at ih ⊢
            simp only [List.map_cons, List.filter_cons, h]
            exact ih
      rw [this]
      by_cases h : wanted a n = true
      · rw [if_pos h, if_pos h]
      · rw [if_neg h, if_neg h]; rfl

theorem methods_eq : ∀ cls : List Elem, methods cls = (elements none none cls).filterMap fn?
  | [] => rfl
  | e :: r => by
    rw [methods, elements]
    cases zone? e with
    | none => exact methods_eq r
    | some p =>
      obtain ⟨n, l⟩ := p
      show l.filterMap fn? ++ methods r = (l ++ elements none none r).filterMap fn?
      rw [methods_eq r, List.filterMap_append]

/-- C101: the members are the declarations of the declaration statements among the elements of the asked access; the members that are given with their
access are all the members, with the access by which they can be asked. -/
theorem C101_members (cls : List Elem) (a : Str) :
    members none cls = (listing cls).flatMap (fun x => declsOf x.2) ∧
      members (some a) cls = ((listing cls).filter (fun x => x.1 = a)).flatMap (fun x => declsOf x.2) ∧
      (membersWithAccess cls).map Prod.snd = members none cls ∧
      ((membersWithAccess cls).filter (fun x => x.1 = a)).map Prod.snd = members (some a) cls := by
  refine ⟨?_, ?_, ?_, ?_⟩
  · rw [members_eq, (C101_elements cls none (fun _ => true)).2.1, List.flatMap_map]
  · rw [members_eq, (C101_elements cls none (fun _ => true)).1, List.flatMap_map]
  · rw [← withAccess_eq none cls]
    congr 1
    exact (List.filter_eq_self.2 (fun _ _ => rfl)).symm
  · rw [← withAccess_eq (some a) cls]
    congr 1
    exact List.filter_congr (fun x _ => by show decide (x.1 = a) = (x.1 == a); exact (Bool.beq_eq_decide_eq _ _).symm)

/-- C101: the methods are the functions among the elements, of any access, in the order of the code. -/
theorem C101_methods (cls : List Elem) : methods cls = (listing cls).filterMap (fun x => fn? x.2) := by
  rw [methods_eq, (C101_elements cls none (fun _ => true)).2.1, List.filterMap_map]
  rfl

/-! ### Addition of a method -/

theorem blocks_append (a : Option Str) : ∀ x y : List Elem, accessBlocks a (x ++ y) = accessBlocks a x ++ accessBlocks a y
  | [], _ => rfl
  | e :: x, y => by
    rw [List.cons_append, accessBlocks, accessBlocks, blocks_append a x y]
    cases zone? e with
    | none => rfl
    | some p =>
      show (if wanted a p.1 then _ else _) = (if wanted a p.1 then _ else _) ++ _
      by_cases h : wanted a p.1 = true
      · rw [if_pos h, if_pos h]; rfl
      · rw [if_neg h, if_neg h]

/-- The class, cut at the zone that receives the method. -/
theorem addToLast_cut (a : Str) (f : Elem) : ∀ cls : List Elem, (accessBlocks (some a) cls).length ≠ 0 →
    ∃ pre c d l post, cls = pre ++ .access c a d l :: post ∧ addToLast a f cls = pre ++ .access c a d (l ++ [f]) :: post ∧
      accessBlocks (some a) post = []
  | [], h => absurd rfl h
  | e :: r, h => by
    cases e with
    | access c n d l =>
      by_cases hn : n = a ∧ (accessBlocks (some a) r).length = 0
      · refine ⟨[], c, d, l, r, by rw [hn.1]; rfl, ?_, List.eq_nil_of_length_eq_zero hn.2⟩
        rw [addToLast, if_pos hn, hn.1]; rfl
      · have hr : (accessBlocks (some a) r).length ≠ 0 := by
          intro h0
          by_cases h1 : n = a
          · exact hn ⟨h1, h0⟩
          · apply h
            show (if (n == a) = true then (Elem.access c n d l) :: accessBlocks (some a) r else accessBlocks (some a) r).length = 0
            rw [if_neg (by simpa using h1)]
            exact h0
        obtain ⟨pre, c', d', l', post, e1, e2, e3⟩ := addToLast_cut a f r hr
        refine ⟨.access c n d l :: pre, c', d', l', post, by rw [e1]; rfl, ?_, e3⟩
        rw [addToLast, if_neg hn, e2]; rfl
    | _ =>
      obtain ⟨pre, c', d', l', post, e1, e2, e3⟩ := addToLast_cut a f r h
      exact ⟨_ :: pre, c', d', l', post, by rw [e1]; rfl, by show _ :: addToLast a f r = _; rw [e2]; rfl, e3⟩

/-- Where a method is added: in the last zone of its access, which is a new one at the end of the class when there was none. -/
theorem addMethod_cut (a : Str) (c : Comments) (f : Fn) (cls : List Elem) :
    ∃ pre z d l post, (if (accessBlocks (some a) cls).length = 0 then addZone a cls else cls) = pre ++ .access z a d l :: post ∧
      addMethod a c f cls = pre ++ .access z a d (l ++ [.fn c f]) :: post ∧ accessBlocks (some a) post = [] := by
  refine addToLast_cut a (.fn c f) _ ?_
  by_cases h : (accessBlocks (some a) cls).length = 0
  · rw [if_pos h, addZone, blocks_append]
    show (accessBlocks (some a) cls ++ (if (a == a) = true then [_] else [])).length ≠ 0
    rw [if_pos (by simp), List.length_append]
    exact Nat.succ_ne_zero _
  · rw [if_neg h]; exact h

theorem cut_listing (a : Str) (c : Comments) (f : Fn) (cls : List Elem) :
    ∃ x y, listing cls = x ++ y ∧ listing (addMethod a c f cls) = x ++ (a, .fn c f) :: y ∧ ∀ p ∈ y, p.1 ≠ a := by
  obtain ⟨pre, z, d, l, post, e1, e2, e3⟩ := addMethod_cut a c f cls
  refine ⟨listing pre ++ l.map (fun x => (a, x)), listing post, ?_, ?_, ?_⟩
  · have : listing cls = listing (if (accessBlocks (some a) cls).length = 0 then addZone a cls else cls) := by
      by_cases h : (accessBlocks (some a) cls).length = 0
      · rw [if_pos h, addZone, listing_append]
        exact (List.append_nil _).symm
      · rw [if_neg h]
    rw [this, e1, listing_append, listing_cons, List.append_assoc]
    rfl
  · rw [e2, listing_append, listing_cons]
    show listing pre ++ ((l ++ [Elem.fn c f]).map (fun x => (a, x)) ++ listing post) = _
    rw [List.map_append, List.append_assoc, List.append_assoc]
    rfl
  · clear e1 e2
    induction post with
    | nil => exact fun p hp => (by cases hp)
    | cons e r ih =>
      intro p hp
      rw [accessBlocks] at e3
      rw [listing_cons, List.mem_append] at hp
      cases hz : zone? e with
      | none =>
        rw [hz] at e3
        rw [zone_none hz] at hp
        exact ih e3 p (hp.resolve_left (fun h => (by cases h)))
      | some q =>
        obtain ⟨n, k⟩ := q
        rw [hz] at e3
        have e3 : (if (n == a) = true then e :: accessBlocks (some a) r else accessBlocks (some a) r) = [] := e3
        by_cases hn : (n == a) = true
        · rw [if_pos hn] at e3; cases e3
        · rw [if_neg hn] at e3
          rcases hp with hp | hp
          · rw [zone_some hz] at hp
            obtain ⟨w, _, rfl⟩ := List.mem_map.1 hp
            exact fun h => hn (by simpa using h)
          · exact ih e3 p hp

/-- C102: a method that is added is the last element of its access; the elements of the other accesses do not change. -/
theorem C102_elements (a b : Str) (c : Comments) (f : Fn) (cls : List Elem) :
    elements (some b) none (addMethod a c f cls) = elements (some b) none cls ++ (if b = a then [.fn c f] else []) := by
  obtain ⟨x, y, e1, e2, e3⟩ := cut_listing a c f cls
  rw [(C101_elements _ none (fun _ => true)).1, (C101_elements cls none (fun _ => true)).1, e1, e2, List.filter_append, List.filter_append, List.filter_cons]
  by_cases h : b = a
  · subst h
    have hy : y.filter (fun x => x.1 = b) = [] := List.filter_eq_nil_iff.2 (fun p hp => by simpa using e3 p hp)
    rw [hy, if_pos (by simp), if_pos rfl, List.append_nil, List.map_append]
    rfl
  · rw [if_neg (by simpa using fun k => h k.symm), if_neg h, List.append_nil]

/-- C102: no other element is added, moved or lost: without it, the elements of the class are what they were, in the same order, and so are its members. -/
theorem C102_others (a : Str) (c : Comments) (f : Fn) (cls : List Elem) :
    (∃ x y, elements none none cls = x ++ y ∧ elements none none (addMethod a c f cls) = x ++ .fn c f :: y) ∧
      (∀ b, members b (addMethod a c f cls) = members b cls) ∧ (methods (addMethod a c f cls)).Perm (f :: methods cls) := by
  obtain ⟨x, y, e1, e2, _⟩ := cut_listing a c f cls
  refine ⟨⟨x.map Prod.snd, y.map Prod.snd, ?_, ?_⟩, fun b => ?_, ?_⟩
  · rw [(C101_elements cls none (fun _ => true)).2.1, e1, List.map_append]
  · rw [(C101_elements _ none (fun _ => true)).2.1, e2, List.map_append]
    rfl
  · rw [members_eq, members_eq, elements_eq, elements_eq, e1, e2, List.filter_append, List.filter_append, List.filter_cons, List.map_append, List.map_append,
      List.flatMap_append, List.flatMap_append]
    congr 1
    by_cases h : wanted b a = true
    · rw [if_pos h]; rfl
    · rw [if_neg h]
  · rw [C101_methods, C101_methods, e1, e2, List.filterMap_append, List.filterMap_append]
    exact List.perm_middle

theorem overloaded_eq (cls : List Elem) (f : Fn) : isOverloaded cls f = decide (((methods cls).countP (fun g => g.name == f.name)) ≥ 2) := by
  rw [isOverloaded, methodsNamed, List.countP_eq_length_filter]

/-- C102: a method that is added is an overload exactly when the class had a method with its name, and then all the methods with that name are overloads;
the methods with other names are overloads exactly when they were. -/
theorem C102_overloaded (a : Str) (c : Comments) (f g : Fn) (cls : List Elem) :
    (isOverloaded (addMethod a c f cls) f = true ↔ ∃ h ∈ methods cls, h.name = f.name) ∧
      (g.name = f.name → isOverloaded (addMethod a c f cls) g = isOverloaded (addMethod a c f cls) f) ∧
      (g.name ≠ f.name → isOverloaded (addMethod a c f cls) g = isOverloaded cls g) := by
  have hp := (C102_others a c f cls).2.2
  have hc : ∀ g : Fn, (methods (addMethod a c f cls)).countP (fun h => h.name == g.name) =
      (methods cls).countP (fun h => h.name == g.name) + if f.name = g.name then 1 else 0 := by
    intro g
    rw [hp.countP_eq, List.countP_cons]
    simp only [beq_iff_eq]
  refine ⟨?_, ?_, ?_⟩
  · rw [overloaded_eq, hc, if_pos rfl, decide_eq_true_iff]
    constructor
    · intro h
      obtain ⟨x, hx, e⟩ := List.countP_pos_iff.1 (Nat.lt_of_succ_le (Nat.le_of_succ_le_succ h))
      exact ⟨x, hx, by simpa using e⟩
    · rintro ⟨x, hx, e⟩
      exact Nat.succ_le_succ (List.countP_pos_iff.2 ⟨x, hx, by simpa using e⟩)
  · intro h
    rw [overloaded_eq, overloaded_eq, h]
  · intro h
    rw [overloaded_eq, overloaded_eq, hc, if_neg (fun k => h k.symm), Nat.add_zero]

theorem block_append (prefixes : List Str) (ind : Str) : ∀ x y : List Elem,
    block prefixes ind false (x ++ y) = block prefixes ind false x ++ block prefixes ind false y
  | [], _ => rfl
  | e :: x, y => by
    rw [List.cons_append, block_cons, block_cons, block_append prefixes ind x y, Bool.false_and, Bool.false_and, List.append_assoc]

theorem block_closed (prefixes : List Str) (ind : Str) : ∀ x : List Elem, block prefixes ind false x = [] ∨ ∃ s, block prefixes ind false x = s ++ ['\n']
  | [] => .inl rfl
  | e :: x => by
    rw [block_cons]
    refine .inr ?_
    rcases block_closed prefixes ind x with h | ⟨s, h⟩
    · rw [h, List.append_nil, ownLines]
      by_cases hn : endsWith (commented e (false && !x.isEmpty) (code prefixes ind e)) ['\n'] = true
      · rw [if_pos hn, List.append_nil]
        exact ends_nl hn
      · rw [if_neg hn]
        exact ⟨_, rfl⟩
    · rw [h]
      exact ⟨_, (List.append_assoc ..).symm⟩

theorem indented_append (ind : Str) {x : Str} (y : Str) (h : x = [] ∨ ∃ s, x = s ++ ['\n']) : indented ind (x ++ y) = indented ind x ++ indented ind y := by
  rcases h with rfl | ⟨s, rfl⟩
  · rfl
  · show unlines ((lines (s ++ ['\n'] ++ y)).map _) = unlines ((lines (s ++ '\n' :: [])).map _) ++ unlines ((lines y).map _)
    rw [List.append_assoc, List.singleton_append, Verif.Template.lines_append_nl, Verif.Template.lines_append_nl, List.map_append, List.map_append]
    have h1 : (lines s).map (Indent.indentLine ind true) ≠ [] := fun h => lines_ne_nil s (List.map_eq_nil_iff.1 h)
    have h2 : (lines y).map (Indent.indentLine ind true) ≠ [] := fun h => lines_ne_nil y (List.map_eq_nil_iff.1 h)
    have h3 : (lines ([] : Str)).map (Indent.indentLine ind true) = [[]] := rfl
    rw [h3]
    refine (Verif.Type.join_append h1 h2).trans ?_
    refine (congrArg (· ++ _) ((Verif.Type.join_append h1 (List.cons_ne_nil _ _)).trans ?_)).symm
    exact List.append_nil _

theorem indented_closed (ind s : Str) : ∃ t, indented ind (s ++ ['\n']) = t ++ ['\n'] := by
  show ∃ t, unlines ((lines (s ++ '\n' :: [])).map _) = t ++ ['\n']
  rw [Verif.Template.lines_append_nl, List.map_append]
  have h1 : (lines s).map (Indent.indentLine ind true) ≠ [] := fun h => lines_ne_nil s (List.map_eq_nil_iff.1 h)
  exact ⟨_, (Verif.Type.join_append h1 (List.cons_ne_nil _ _)).trans (List.append_nil _)⟩

theorem any_access (a : Str) : ∀ cls : List Elem, cls.any (hasAccess a) = decide ((accessBlocks (some a) cls).length ≠ 0)
  | [] => rfl
  | e :: r => by
    rw [List.any_cons, any_access a r, accessBlocks]
    cases e with
    | access c n d l =>
      show (n == a || _) = decide ((if (n == a) = true then _ else _ : List Elem).length ≠ 0)
      by_cases h : (n == a) = true
      · rw [if_pos h, h, Bool.true_or]
        rfl
      · rw [if_neg h, Bool.eq_false_iff.2 h, Bool.false_or]
    | _ => rfl

/-- C102: the text of the class is what it was, with the text of the method on its own lines at the end of the zone that receives it (a new zone at the end of
the class when there was none of this access). -/
theorem C102_text (prefixes : List Str) (ind a : Str) (c : Comments) (f : Fn) (cls : List Elem) :
    ∃ before after,
      block prefixes ind false (if cls.any (hasAccess a) then cls else cls ++ [.access ⟨[], [], false⟩ a false []]) = before ++ after ∧
      block prefixes ind false (addMethod a c f cls) = before ++ indented ind (ownLines (withComments c false false (f.code prefixes))) ++ after := by
  obtain ⟨pre, z, d, l, post, e1, e2, _⟩ := addMethod_cut a c f cls
  have hif : (if cls.any (hasAccess a) then cls else cls ++ [.access ⟨[], [], false⟩ a false []]) =
      (if (accessBlocks (some a) cls).length = 0 then addZone a cls else cls) := by
    by_cases h : (accessBlocks (some a) cls).length = 0
    · rw [if_pos h, (any_access a cls).trans (decide_eq_false (fun k => k h)), addZone]
      rfl
    · rw [if_neg h, (any_access a cls).trans (decide_eq_true h)]
      rfl
  have hz : ∀ k, ownLines (commented (.access z a d k) false (code prefixes ind (.access z a d k))) =
      ownLines (accessLine z a d ++ ['\n'] ++ indented ind (block prefixes ind false k)) := fun _ => rfl
  have hb : block prefixes ind false (l ++ [.fn c f]) = block prefixes ind false l ++ ownLines (withComments c false false (f.code prefixes)) := by
    rw [block_append, block_cons]
    exact congrArg _ (List.append_nil _)
  have own : ∀ k, ownLines (accessLine z a d ++ ['\n'] ++ indented ind (block prefixes ind false k)) =
      accessLine z a d ++ ['\n'] ++ indented ind (block prefixes ind false k) := by
    intro k
    rcases block_closed prefixes ind k with h | ⟨s, h⟩
    · rw [h]
      show ownLines (accessLine z a d ++ ['\n'] ++ []) = accessLine z a d ++ ['\n'] ++ []
      rw [List.append_nil, ownLines_nl]
    · obtain ⟨t, ht⟩ : ∃ t, indented ind (s ++ ['\n']) = t ++ ['\n'] := indented_closed ind s
      rw [h, ht, ← List.append_assoc, ownLines_nl]
  refine ⟨block prefixes ind false pre ++ (accessLine z a d ++ ['\n'] ++ indented ind (block prefixes ind false l)), block prefixes ind false post, ?_, ?_⟩
  · rw [hif, e1, block_append, block_cons, Bool.false_and, hz, own]; simp only [List.append_assoc]
  · rw [e2, block_append, block_cons, Bool.false_and, hz, own, hb, indented_append ind _ (block_closed prefixes ind l)]
    simp only [List.append_assoc]

private def fnNamed (n : Str) : Fn := ⟨.decl, none, some ⟨[], ["void".toList], []⟩, n, [], [], none, false⟩
private def noComment : Comments := ⟨[], [], false⟩
private def point : List Elem :=
  [.access noComment "public".toList true
    [.decls noComment [(noComment, ⟨some "int".toList, "x".toList, [], [], []⟩), (noComment, ⟨some "int".toList, "y".toList, [], [], []⟩)],
     .fn noComment (fnNamed "norm".toList)],
   .access noComment "private".toList false [.fn noComment (fnNamed "check".toList)]]

/-- A class with two zones: its elements, members and methods. -/
example : (∀ x ∈ listing point, x.1 ∈ accesses) ∧ (elements (some "public".toList) none point).length = 2 ∧
    (members none point).map (fun d => d.2.name) = ["x".toList, "y".toList] ∧ (methods point).map Fn.name = ["norm".toList, "check".toList] := by
  decide +kernel

/-- A public method goes before the private zone, a protected method in a new zone. -/
example : block [] "  ".toList false (addMethod "public".toList noComment (fnNamed "norm".toList) point) =
      "public: // <default_access_type/>\n  int x;\n  int y;\n  void norm();\n  void norm();\nprivate:\n  void check();\n".toList ∧
    block [] "  ".toList false (addMethod "protected".toList noComment (fnNamed "init".toList) point) =
      "public: // <default_access_type/>\n  int x;\n  int y;\n  void norm();\nprivate:\n  void check();\nprotected:\n  void init();\n".toList ∧
    isOverloaded (addMethod "public".toList noComment (fnNamed "norm".toList) point) (fnNamed "norm".toList) = true := by
  decide +kernel

/-- The statement that a method that is added is the last method of the class. -/
def C102_last_statement : Prop := ∀ (a : Str) (c : Comments) (f : Fn) (cls : List Elem), methods (addMethod a c f cls) = methods cls ++ [f]

/-- C102: it is not, when a zone of another access comes after the last one of its access. -/
theorem C102_last_fails : ¬ C102_last_statement := by
  intro h
  have h0 := h "public".toList noComment (fnNamed "add".toList)
    [.access noComment "public".toList true [.fn noComment (fnNamed "a".toList)], .access noComment "private".toList false [.fn noComment (fnNamed "b".toList)]]
  have h1 := congrArg (List.map Fn.name) h0
  revert h1
  decide +kernel

end Verif.Query.Props
