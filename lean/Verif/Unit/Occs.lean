import Verif.Unit.Rows

/-! The namespaces of a unit in the order in which they end, which is the order in which their code is stored, against the order in which they
begin. -/

namespace Verif.Unit
open Verif.Py Spec

/-- A namespace that becomes a module, with what is in it. -/
structure Occ where
  scope : List Str
  name : Str
  comment : Str
  els : List El

def Occ.at (x : Occ) : Occurrence := ⟨x.scope, x.comment⟩

mutual
/-- The namespaces that become modules, in the order in which they end. -/
def occs (o : Options) (scope : List Str) : El → List Occ
  | .leaf _ _ _ _ => []
  | .ns name previous eol els =>
    occsAll o (scope ++ [name]) els ++
      (if name ∈ o.roots then [] else [⟨scope ++ [name], name, Cls.fullComment previous eol, els⟩])
def occsAll (o : Options) (scope : List Str) : List El → List Occ
  | [] => []
  | e :: es => occs o scope e ++ occsAll o scope es
end

theorem path_append (o : Options) (a b : List Str) : path o (a ++ b) = path o a ++ path o b := by unfold path; rw [List.filter_append]

theorem path_root {o : Options} {n : Str} (h : n ∈ o.roots) (s : List Str) : path o (s ++ [n]) = path o s := by
  rw [path_append]
  unfold path
  rw [List.filter_cons, if_neg (by simp [h]), List.filter_nil, List.append_nil]

theorem path_module {o : Options} {n : Str} (h : n ∉ o.roots) (s : List Str) : path o (s ++ [n]) = path o s ++ [n] := by
  rw [path_append]
  unfold path
  rw [List.filter_cons, if_pos (by simp [h]), List.filter_nil]

mutual
theorem occs_scope (o : Options) : ∀ (e : El) (s : List Str), ∀ x ∈ occs o s e,
    ∃ r, x.scope = s ++ r ++ [x.name] ∧ x.name ∉ o.roots ∧ (∀ n ∈ r ++ [x.name], n ∈ nsNames e)
  | .leaf _ _ _ _, s, x, hx => by unfold occs at hx; cases hx
  | .ns n pr eo els, s, x, hx => by
    unfold occs at hx
    rcases List.mem_append.1 hx with hx | hx
    · obtain ⟨r, h1, h2, h3⟩ := occsAll_scope o els (s ++ [n]) x hx
      refine ⟨n :: r, ?_, h2, ?_⟩
      · rw [h1]; simp only [List.append_assoc, List.cons_append, List.nil_append]
      · intro m hm
        unfold nsNames
        rcases List.mem_cons.1 hm with rfl | hm
        · exact List.mem_cons_self
        · exact List.mem_cons_of_mem _ (h3 m hm)
    · split at hx
      · cases hx
      · rename_i hr
        rw [List.mem_singleton] at hx
        subst hx
        refine ⟨[], by simp, hr, ?_⟩
        intro m hm
        unfold nsNames
        simp at hm
        simp [hm]
theorem occsAll_scope (o : Options) : ∀ (es : List El) (s : List Str), ∀ x ∈ occsAll o s es,
    ∃ r, x.scope = s ++ r ++ [x.name] ∧ x.name ∉ o.roots ∧ (∀ n ∈ r ++ [x.name], n ∈ nsNamesAll es)
  | [], s, x, hx => by unfold occsAll at hx; cases hx
  | e :: es, s, x, hx => by
    unfold occsAll at hx
    unfold nsNamesAll
    rcases List.mem_append.1 hx with hx | hx
    · obtain ⟨r, h1, h2, h3⟩ := occs_scope o e s x hx
      exact ⟨r, h1, h2, fun n hn => List.mem_append_left _ (h3 n hn)⟩
    · obtain ⟨r, h1, h2, h3⟩ := occsAll_scope o es s x hx
      exact ⟨r, h1, h2, fun n hn => List.mem_append_right _ (h3 n hn)⟩
end

/-- The module of a namespace is inside the one of its scope. -/
theorem occsAll_path {o : Options} {es : List El} {s : List Str} {x : Occ} (h : x ∈ occsAll o s es) :
    ∃ r, path o x.scope = path o s ++ r ++ [x.name] := by
  obtain ⟨r, h1, h2, _⟩ := occsAll_scope o es s x h
  exact ⟨path o r, by rw [h1, path_module h2, path_append]⟩

theorem occs_path {o : Options} {e : El} {s : List Str} {x : Occ} (h : x ∈ occs o s e) :
    ∃ r, path o x.scope = path o s ++ r ++ [x.name] := by
  obtain ⟨r, h1, h2, _⟩ := occs_scope o e s x h
  exact ⟨path o r, by rw [h1, path_module h2, path_append]⟩

mutual
theorem spaces_perm (o : Options) : ∀ (e : El) (s : List Str), ((occs o s e).map Occ.at).Perm (Spec.spaces o s e)
  | .leaf _ _ _ _, s => by unfold occs Spec.spaces; exact List.Perm.nil
  | .ns n pr eo els, s => by
    unfold occs Spec.spaces
    rw [List.map_append]
    have ih := spacesAll_perm o els (s ++ [n])
    split
    · simpa using ih
    · refine List.perm_append_comm.trans ?_
      exact List.Perm.append_left _ ih
theorem spacesAll_perm (o : Options) : ∀ (es : List El) (s : List Str), ((occsAll o s es).map Occ.at).Perm (spacesAll o s es)
  | [], s => by unfold occsAll spacesAll; exact List.Perm.nil
  | e :: es, s => by
    unfold occsAll spacesAll
    rw [List.map_append]
    exact (spaces_perm o e s).append (spacesAll_perm o es s)
end

theorem filter_none_occs {o : Options} {es : List El} {s : List Str} :
    (spacesAll o s es).filter (fun x => path o x.scope = path o s) = [] := by
  rw [List.filter_eq_nil_iff]
  intro x hx
  have hx' := (spacesAll_perm o es s).mem_iff.2 hx
  obtain ⟨y, hy, rfl⟩ := List.mem_map.1 hx'
  obtain ⟨r, hr⟩ := occsAll_path hy
  have : path o (Occ.at y).scope ≠ path o s := by
    intro h
    have h' : path o y.scope = path o s := h
    rw [hr] at h'
    have := congrArg List.length h'
    simp at this
  simpa using this

mutual
theorem spaces_filter (o : Options) (p : List Str) : ∀ (e : El) (s : List Str),
    ((occs o s e).filter (fun x => path o x.scope = p)).map Occ.at = (Spec.spaces o s e).filter (fun x => path o x.scope = p)
  | .leaf _ _ _ _, s => by unfold occs Spec.spaces; rfl
  | .ns n pr eo els, s => by
    unfold occs Spec.spaces
    rw [List.filter_append, List.map_append, List.filter_append, spacesAll_filter o p els (s ++ [n])]
    split
    · simp
    · by_cases hp : path o (s ++ [n]) = p
      · subst hp
        rw [filter_none_occs, List.append_nil, List.nil_append, List.filter_cons, if_pos (by simp), List.filter_cons, if_pos (by simp)]
        rfl
      · rw [List.filter_cons, if_neg (by simpa using hp), List.filter_cons, if_neg (by simpa using hp)]
        simp
theorem spacesAll_filter (o : Options) (p : List Str) : ∀ (es : List El) (s : List Str),
    ((occsAll o s es).filter (fun x => path o x.scope = p)).map Occ.at = (spacesAll o s es).filter (fun x => path o x.scope = p)
  | [], s => by unfold occsAll spacesAll; rfl
  | e :: es, s => by
    unfold occsAll spacesAll
    rw [List.filter_append, List.map_append, List.filter_append, spaces_filter o p e s, spacesAll_filter o p es s]
end

/-! ### First occurrences -/

theorem mem_distinct {n : Str} {l : List Str} : n ∈ distinct l ↔ n ∈ l := by
  induction l with
  | nil => rfl
  | cons m l ih =>
    unfold distinct
    rw [List.mem_cons, List.mem_cons, List.mem_filter, ih]
    by_cases h : n = m
    · simp [h]
    · simp [h]

theorem distinct_cons (m : Str) (l : List Str) : distinct (m :: l) = m :: (distinct l).filter (· ≠ m) := rfl

theorem distinct_append (a b : List Str) : distinct (a ++ b) = distinct a ++ (distinct b).filter (fun m => m ∉ a) := by
  induction a with
  | nil => rw [List.filter_eq_self.2 (by simp)]; rfl
  | cons m a ih =>
    rw [List.cons_append, distinct_cons, distinct_cons, ih, List.filter_append, List.cons_append, List.filter_filter]
    refine congrArg (m :: ·) (congrArg ((distinct a).filter (· ≠ m) ++ ·) ?_)
    refine List.filter_congr (fun x _ => ?_)
    by_cases h : x = m <;> simp [h]

theorem distinct_congr {a a' b b' : List Str} (h1 : distinct a = distinct a') (h2 : distinct b = distinct b') :
    distinct (a ++ b) = distinct (a' ++ b') := by
  rw [distinct_append, distinct_append, h1, h2]
  refine congrArg (_ ++ ·) (List.filter_congr (fun x _ => ?_))
  have : x ∈ a ↔ x ∈ a' := by rw [← mem_distinct, h1, mem_distinct]
  simp [this]

theorem distinct_const {n : Str} : ∀ {l : List Str}, l ≠ [] → (∀ m ∈ l, m = n) → distinct l = [n]
  | [], h, _ => absurd rfl h
  | m :: l, _, h => by
    have hm : m = n := h m (by simp)
    subst hm
    unfold distinct
    refine congrArg (m :: ·) ?_
    rw [List.filter_eq_nil_iff]
    intro x hx
    simp [h x (by simp [mem_distinct.1 hx])]

theorem names_distinct (h : Tree.Spec.History) : Tree.Spec.names h = distinct (h.filterMap (fun e => e.1.head?)) := by
  induction h using Tree.snocInd with
  | h0 => rfl
  | h1 l e ih =>
    obtain ⟨p, c⟩ := e
    rw [Tree.names_snoc, List.filterMap_append, distinct_append, ← ih]
    cases p with
    | nil => rw [show ([([], c)] : Tree.Spec.History).filterMap (fun e => e.1.head?) = [] from rfl]; exact (List.append_nil _).symm
    | cons n p =>
      simp only []
      have e : ([(n :: p, c)] : Tree.Spec.History).filterMap (fun e => e.1.head?) = [n] := rfl
      rw [e]
      have hm : n ∈ Tree.Spec.names l ↔ n ∈ l.filterMap (fun e => e.1.head?) := by rw [ih, mem_distinct]
      unfold distinct
      split
      · rename_i h
        rw [List.filter_cons, if_neg (by simpa using hm.1 h)]
        simp [distinct]
      · rename_i h
        rw [List.filter_cons, if_pos (by simpa using fun h' => h (hm.2 h'))]
        simp [distinct]

theorem filterMap_congr' {α β : Type} {f g : α → Option β} {l : List α} (h : ∀ x ∈ l, f x = g x) : l.filterMap f = l.filterMap g := by
  induction l with
  | nil => rfl
  | cons a l ih => rw [List.filterMap_cons, List.filterMap_cons, h a (by simp), ih (fun x hx => h x (by simp [hx]))]

/-- The next name of a path after `p`. -/
def next (p q : List Str) : Option Str := if p <+: q then (q.drop p.length).head? else none

theorem heads_under (h : Tree.Spec.History) (p : List Str) :
    (under h p).filterMap (fun e => e.1.head?) = h.filterMap (fun e => next p e.1) := by
  induction p generalizing h with
  | nil =>
    refine filterMap_congr' (fun e _ => ?_)
    unfold next
    rw [if_pos (by simp)]
    rfl
  | cons m p ih =>
    show (under (Tree.Spec.sub h m) p).filterMap _ = _
    rw [ih]
    unfold Tree.Spec.sub
    rw [List.filterMap_filterMap]
    refine filterMap_congr' (fun e _ => ?_)
    obtain ⟨q, c⟩ := e
    cases q with
    | nil =>
      unfold next
      rw [if_neg (by simp)]
      rfl
    | cons k q =>
      simp only []
      by_cases hk : k = m
      · subst hk
        rw [if_pos rfl]
        unfold next
        simp
      · rw [if_neg hk]
        unfold next
        rw [if_neg (by
          intro hp
          exact hk (List.cons_prefix_cons.1 hp).1.symm)]
        rfl

theorem next_eq_none {p q : List Str} (h : ∀ n, ¬ (p ++ [n]) <+: q) : next p q = none := by
  unfold next
  split
  · rename_i hp
    obtain ⟨r, rfl⟩ := hp
    rw [List.drop_left]
    cases r with
    | nil => rfl
    | cons n r => exact absurd ⟨r, by simp⟩ (h n)
  · rfl

theorem next_append (p : List Str) (n : Str) (r : List Str) : next p (p ++ n :: r) = some n := by
  unfold next
  rw [if_pos ⟨_, rfl⟩, List.drop_left]
  rfl

/-- The name of an occurrence in the module `p`. -/
def inside1 (o : Options) (p : List Str) (x : Occurrence) : Option Str :=
  if (path o x.scope).dropLast = p then (path o x.scope).getLast? else none

mutual
theorem inside_eq (o : Options) (p : List Str) : ∀ (e : El) (s : List Str), (∀ n, ¬ (p ++ [n]) <+: path o s) →
    distinct ((occs o s e).filterMap (fun x => next p (path o x.scope))) = distinct ((Spec.spaces o s e).filterMap (inside1 o p))
  | .leaf _ _ _ _, s, _ => by unfold occs Spec.spaces; rfl
  | .ns n pr eo els, s, hs => by
    unfold occs Spec.spaces
    by_cases hr : n ∈ o.roots
    · rw [if_pos hr, if_pos hr, List.append_nil, List.nil_append]
      exact insideAll_eq o p els (s ++ [n]) (by rw [path_root hr]; exact hs)
    · rw [if_neg hr, if_neg hr, List.filterMap_append, List.filterMap_append]
      have hq := path_module hr s
      by_cases hp : path o s = p
      · have e1 : ([⟨s ++ [n], n, Cls.fullComment pr eo, els⟩] : List Occ).filterMap (fun x => next p (path o x.scope)) = [n] := by
          have : next p (path o (s ++ [n])) = some n := by rw [hq, hp]; exact next_append p n []
          rw [List.filterMap_cons]
          dsimp only
          rw [this]
          rfl
        have e2 : ([⟨s ++ [n], Cls.fullComment pr eo⟩] : List Occurrence).filterMap (inside1 o p) = [n] := by
          have : inside1 o p ⟨s ++ [n], Cls.fullComment pr eo⟩ = some n := by
            unfold inside1
            dsimp only
            rw [hq, List.dropLast_concat, if_pos hp, List.getLast?_concat]
          rw [List.filterMap_cons, this]
          rfl
        rw [e1, e2]
        have e3 : (spacesAll o (s ++ [n]) els).filterMap (inside1 o p) = [] := by
          rw [List.filterMap_eq_nil_iff]
          intro x hx
          have hx' := (spacesAll_perm o els (s ++ [n])).mem_iff.2 hx
          obtain ⟨y, hy, rfl⟩ := List.mem_map.1 hx'
          obtain ⟨r, hr⟩ := occsAll_path hy
          unfold inside1
          show (if (path o y.scope).dropLast = p then _ else _) = _
          rw [if_neg]
          rw [hr, List.dropLast_concat, hq, hp]
          intro h
          have := congrArg List.length h
          simp at this
        rw [e3, List.append_nil]
        rw [distinct_const (n := n) (by simp), distinct_const (n := n) (by simp) (by simp)]
        intro m hm
        rcases List.mem_append.1 hm with hm | hm
        · obtain ⟨y, hy, he⟩ := List.mem_filterMap.1 hm
          obtain ⟨r, hr⟩ := occsAll_path hy
          rw [hr, hq, hp, List.append_assoc, List.append_assoc, List.singleton_append, next_append] at he
          exact (Option.some.inj he).symm
        · simpa using hm
      · have hs' : ∀ m, ¬ (p ++ [m]) <+: path o (s ++ [n]) := by
          intro m hm
          rw [hq] at hm
          rcases List.prefix_concat_iff.1 hm with h | h
          · exact hp (List.append_inj' h rfl).1.symm
          · exact hs m h
        have e1 : ([⟨s ++ [n], n, Cls.fullComment pr eo, els⟩] : List Occ).filterMap (fun x => next p (path o x.scope)) = [] := by
          rw [List.filterMap_cons]
          dsimp only
          rw [next_eq_none hs']
          rfl
        have e2 : ([⟨s ++ [n], Cls.fullComment pr eo⟩] : List Occurrence).filterMap (inside1 o p) = [] := by
          have : inside1 o p ⟨s ++ [n], Cls.fullComment pr eo⟩ = none := by
            unfold inside1
            dsimp only
            rw [hq, List.dropLast_concat, if_neg hp]
          rw [List.filterMap_cons, this]
          rfl
        rw [e1, e2, List.append_nil, List.nil_append]
        exact insideAll_eq o p els (s ++ [n]) hs'
theorem insideAll_eq (o : Options) (p : List Str) : ∀ (es : List El) (s : List Str), (∀ n, ¬ (p ++ [n]) <+: path o s) →
    distinct ((occsAll o s es).filterMap (fun x => next p (path o x.scope))) = distinct ((spacesAll o s es).filterMap (inside1 o p))
  | [], s, _ => by unfold occsAll spacesAll; rfl
  | e :: es, s, hs => by
    unfold occsAll spacesAll
    rw [List.filterMap_append, List.filterMap_append]
    exact distinct_congr (inside_eq o p e s hs) (insideAll_eq o p es s hs)
end

/-- The modules inside a module, in the order of the stored codes. -/
theorem names_inside (o : Options) (els : List El) (p : List Str) (h : Tree.Spec.History)
    (hp : h.map Prod.fst = (occsAll o [] els).map (fun x => path o x.scope)) : Tree.Spec.names (under h p) = inside o els p := by
  rw [names_distinct, heads_under]
  have e : h.filterMap (fun e => next p e.1) = (occsAll o [] els).filterMap (fun x => next p (path o x.scope)) := by
    have e1 : h.filterMap (fun e => next p e.1) = (h.map Prod.fst).filterMap (next p) := by rw [List.filterMap_map]; rfl
    rw [e1, hp, List.filterMap_map]
    rfl
  rw [e]
  exact insideAll_eq o p els [] (by intro n h; have := h.length_le; simp [path] at this)

theorem foldr_max_perm {a b : List Nat} (h : a.Perm b) : a.foldr max 0 = b.foldr max 0 := by
  induction h with
  | nil => rfl
  | cons x _ ih => rw [List.foldr_cons, List.foldr_cons, ih]
  | swap x y l => simp only [List.foldr_cons]; omega
  | trans _ _ h1 h2 => rw [h1, h2]

theorem depth_eq (o : Options) (els : List El) (h : Tree.Spec.History)
    (hp : h.map Prod.fst = (occsAll o [] els).map (fun x => path o x.scope)) : Tree.Spec.depthOf h = depth o els + 1 := by
  unfold Tree.Spec.depthOf depth
  refine congrArg (· + 1) ?_
  have e : h.map (fun e => e.1.length) = ((occsAll o [] els).map Occ.at).map (fun x => (path o x.scope).length) := by
    have := congrArg (List.map List.length) hp
    rw [List.map_map, List.map_map] at this
    rw [List.map_map]
    exact this
  rw [e]
  exact foldr_max_perm ((spacesAll_perm o els []).map _)

theorem mem_inside {o : Options} {els : List El} {p : List Str} {n : Str} (h : n ∈ inside o els p) :
    ∃ x ∈ occsAll o [] els, path o x.scope = p ++ [n] ∧ x.name = n := by
  unfold inside at h
  rw [mem_distinct] at h
  obtain ⟨x, hx, he⟩ := List.mem_filterMap.1 h
  obtain ⟨y, hy, rfl⟩ := List.mem_map.1 ((spacesAll_perm o els []).mem_iff.2 hx)
  obtain ⟨r, hr⟩ := occsAll_path hy
  have he' : (if (path o y.scope).dropLast = p then (path o y.scope).getLast? else none) = some n := he
  split at he'
  · rename_i hp
    rw [hr, List.dropLast_concat] at hp
    rw [hr, List.getLast?_concat] at he'
    have := Option.some.inj he'
    exact ⟨y, hy, by rw [hr, hp, this], this⟩
  · cases he'

/-! ### What stands in a module -/

mutual
/-- The rows that an element gives to its block. -/
def plain (side : Side) (o : Options) : El → List Str
  | .leaf _ _ s p => rowsOf (match side with | .binding => p | .stub => s.stubLines)
  | .ns name _ _ els => if name ∈ o.roots then plainAll side o els else []
def plainAll (side : Side) (o : Options) : List El → List Str
  | [] => []
  | e :: es => plain side o e ++ plainAll side o es
end

/-- The rows of a namespace in its module. -/
def full (side : Side) (o : Options) (x : Occ) : List Str :=
  plainAll side o x.els ++ rows? (o.custom side.isPydef (join "::".toList x.scope) (var (path o x.scope)))

theorem filter_occs_self {o : Options} {es : List El} {s : List Str} : (occsAll o s es).filter (fun x => path o x.scope = path o s) = [] := by
  have := spacesAll_filter o (path o s) es s
  rw [filter_none_occs] at this
  exact List.map_eq_nil_iff.1 this

theorem filter_occ_self {o : Options} {e : El} {s : List Str} : (occs o s e).filter (fun x => path o x.scope = path o s) = [] := by
  have := filter_occs_self (o := o) (es := [e]) (s := s)
  unfold occsAll at this
  rw [List.filter_append, List.append_eq_nil_iff] at this
  exact this.1

mutual
theorem placed_eq (side : Side) (o : Options) (p : List Str) : ∀ (e : El) (s : List Str),
    ((placed side o s e).filter (fun x => x.1 = p)).flatMap (·.2) =
      (if path o s = p then plain side o e else []) ++ ((occs o s e).filter (fun x => path o x.scope = p)).flatMap (full side o)
  | .leaf _ _ st b, s => by
    unfold placed occs plain
    rw [List.filter_cons]
    dsimp only
    by_cases hp : path o s = p
    · rw [if_pos hp, if_pos (by simpa using hp)]
      cases side <;> simp
    · rw [if_neg hp, if_neg (by simpa using hp)]
      simp
  | .ns n pr eo els, s => by
    unfold placed occs plain
    rw [List.filter_append, List.flatMap_append, List.filter_append, List.flatMap_append, placedAll_eq side o p els (s ++ [n])]
    by_cases hr : n ∈ o.roots
    · rw [path_root hr, if_pos hr, if_pos hr, if_pos hr]
      simp
    · rw [if_neg hr, if_neg hr, if_neg hr]
      have e0 : (if path o s = p then ([] : List Str) else []) = [] := by split <;> rfl
      rw [e0, List.nil_append, List.filter_cons, List.filter_cons]
      dsimp only
      by_cases hp : path o (s ++ [n]) = p
      · have h' : path o (s ++ [n]) = p := hp
        subst h'
        rw [if_pos rfl, if_pos (by simp), filter_occs_self]
        simp [full]
      · rw [if_neg hp, if_neg (by simpa using hp), if_neg (by simpa using hp)]
        simp
theorem placedAll_eq (side : Side) (o : Options) (p : List Str) : ∀ (es : List El) (s : List Str),
    ((placedAll side o s es).filter (fun x => x.1 = p)).flatMap (·.2) =
      (if path o s = p then plainAll side o es else []) ++ ((occsAll o s es).filter (fun x => path o x.scope = p)).flatMap (full side o)
  | [], s => by
    unfold placedAll occsAll plainAll
    simp
  | e :: es, s => by
    unfold placedAll occsAll plainAll
    rw [List.filter_append, List.flatMap_append, List.filter_append, List.flatMap_append, placed_eq side o p e s, placedAll_eq side o p es s]
    by_cases hp : path o s = p
    · subst hp
      rw [if_pos rfl, if_pos rfl, if_pos rfl, filter_occ_self, filter_occs_self]
      simp
    · rw [if_neg hp, if_neg hp, if_neg hp]
      simp
end

theorem items_main (side : Side) (o : Options) (els : List El) : items side o els [] = plainAll side o els := by
  unfold items
  have h := placedAll_eq side o [] els []
  have e : path o [] = [] := rfl
  have h0 := filter_occs_self (o := o) (es := els) (s := [])
  rw [e] at h0
  rw [h, h0, if_pos e]
  simp

theorem items_module (side : Side) (o : Options) (els : List El) {p : List Str} (hp : p ≠ []) :
    items side o els p = ((occsAll o [] els).filter (fun x => path o x.scope = p)).flatMap (full side o) := by
  unfold items
  rw [placedAll_eq side o p els [], if_neg (fun h => hp h.symm), List.nil_append]

/-- The namespaces of a module: the first one gives the comment. -/
theorem module_occs {o : Options} {els : List El} {p : List Str} {n : Str} (h : n ∈ inside o els p) :
    ∃ x xs r, (occsAll o [] els).filter (fun x => path o x.scope = p ++ [n]) = x :: xs ∧ x ∈ occsAll o [] els ∧ x.name = n ∧ n ∉ o.roots ∧
      x.scope = r ++ [n] ∧ (∀ m ∈ r ++ [n], m ∈ nsNamesAll els) ∧ path o x.scope = p ++ [n] ∧ x.at ∈ spacesAll o [] els ∧
      comment o els (p ++ [n]) = x.comment := by
  obtain ⟨y, hy, hyp, _⟩ := mem_inside h
  have hy' : y ∈ (occsAll o [] els).filter (fun x => path o x.scope = p ++ [n]) := List.mem_filter.2 ⟨hy, by simpa using hyp⟩
  cases hf : (occsAll o [] els).filter (fun x => path o x.scope = p ++ [n]) with
  | nil => rw [hf] at hy'; cases hy'
  | cons x xs =>
    have hx : x ∈ (occsAll o [] els).filter (fun x => path o x.scope = p ++ [n]) := by rw [hf]; simp
    obtain ⟨hx1, hx2⟩ := List.mem_filter.1 hx
    have hx2 : path o x.scope = p ++ [n] := by simpa using hx2
    obtain ⟨r, h1, h2, h3⟩ := occsAll_scope o els [] x hx1
    rw [List.nil_append] at h1
    have hname : x.name = n := by
      have := hx2
      rw [h1, path_module h2] at this
      exact (List.cons.inj (List.append_inj' this rfl).2).1
    refine ⟨x, xs, r, rfl, hx1, hname, hname ▸ h2, hname ▸ h1, hname ▸ h3, hx2, ?_, ?_⟩
    · exact (spacesAll_perm o els []).mem_iff.1 (List.mem_map.2 ⟨x, hx1, rfl⟩)
    · unfold comment first
      rw [← List.head?_filter, ← spacesAll_filter, hf]
      rfl

end Verif.Unit
