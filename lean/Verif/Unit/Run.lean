import Verif.Unit.Occs
import Verif.Tree.Props

/-! What a sequence of namespaces does to the context: the codes that it stores, and which of them create a module. -/

namespace Verif.Unit
open Verif.Py Spec

/-- A namespace that ends: it is registered if it is new, and its code is stored. -/
def runOcc (o : Options) (f : Occ → Bool → Str) (c : Ctx) (x : Occ) : Option Ctx :=
  (if c.has (qualified x.scope) then c else c.register (qualified x.scope)).store o (qualified x.scope) (f x (!c.has (qualified x.scope)))

def runAll (o : Options) (f : Occ → Bool → Str) : Ctx → List Occ → Option Ctx
  | c, [] => some c
  | c, x :: xs => (runOcc o f c x).bind (fun c => runAll o f c xs)

theorem runAll_append (o : Options) (f : Occ → Bool → Str) (c : Ctx) (xs ys : List Occ) :
    runAll o f c (xs ++ ys) = (runAll o f c xs).bind (fun c => runAll o f c ys) := by
  induction xs generalizing c with
  | nil => rfl
  | cons x xs ih =>
    show (runOcc o f c x).bind _ = ((runOcc o f c x).bind _).bind _
    cases runOcc o f c x with
    | none => rfl
    | some c' => exact ih c'

theorem runAll_single (o : Options) (f : Occ → Bool → Str) (c : Ctx) (x : Occ) : runAll o f c [x] = runOcc o f c x := by
  unfold runAll
  cases runOcc o f c x <;> rfl

/-- The calls of `store_code`. -/
def calls (f : Occ → Bool → Str) : List Str → List Occ → Tree.Spec.History
  | _, [] => []
  | created, x :: xs =>
    (split (qualified x.scope) "::".toList, f x (!decide (qualified x.scope ∈ created))) ::
      calls f (if qualified x.scope ∈ created then created else qualified x.scope :: created) xs

theorem runAll_calls (o : Options) (f : Occ → Bool → Str) (xs : List Occ) (c : Ctx) :
    (runAll o f c xs).map (·.tree) = Tree.storeAll o.roots c.tree (calls f c.created xs) := by
  induction xs generalizing c with
  | nil => rfl
  | cons x xs ih =>
    unfold runAll runOcc calls Tree.storeAll Ctx.store Ctx.has
    by_cases hc : qualified x.scope ∈ c.created
    · simp only [hc, decide_true, if_true, Bool.not_true]
      cases Tree.storeCode o.roots c.tree (split (qualified x.scope) "::".toList) (f x false) with
      | none => rfl
      | some t => exact ih ⟨c.created, t⟩
    · simp only [hc, decide_false, if_false, Bool.not_false, Bool.false_eq_true]
      show ((Option.map _ (Tree.storeCode o.roots c.tree _ _)).bind _).map _ = _
      cases Tree.storeCode o.roots c.tree (split (qualified x.scope) "::".toList) (f x true) with
      | none => rfl
      | some t => exact ih ⟨qualified x.scope :: c.created, t⟩

/-- A scope of plain names. -/
def Plain (s : List Str) : Prop := s ≠ [] ∧ ∀ n ∈ s, ':' ∉ n

theorem split_qualified {s : List Str} (h : Plain s) : split (qualified s) "::".toList = s := Scope.split_join_colons h.1 h.2

theorem qualified_inj {a b : List Str} (ha : Plain a) (hb : Plain b) (h : qualified a = qualified b) : a = b := by
  rw [← split_qualified ha, ← split_qualified hb, h]

/-- The codes with the modules they go to. -/
theorem calls_paths (o : Options) (f : Occ → Bool → Str) (xs : List Occ) (created : List Str) (h : ∀ x ∈ xs, Plain x.scope) :
    (Tree.Spec.dropRoots o.roots (calls f created xs)).map Prod.fst = xs.map (fun x => path o x.scope) := by
  induction xs generalizing created with
  | nil => rfl
  | cons x xs ih =>
    have := ih (if qualified x.scope ∈ created then created else qualified x.scope :: created) (fun y hy => h y (by simp [hy]))
    unfold calls Tree.Spec.dropRoots
    rw [List.map_cons, List.map_cons, List.map_cons]
    unfold Tree.Spec.dropRoots at this
    rw [this, split_qualified (h x (by simp))]
    rfl

/-- The codes of a module: the first one creates it. -/
def created1 (f : Occ → Bool → Str) (new : Bool) : List Occ → List Str
  | [] => []
  | x :: xs => f x new :: xs.map (fun y => f y false)

theorem calls_at (o : Options) (f : Occ → Bool → Str) (p s : List Str) (hs : Plain s) (hps : path o s = p) (xs : List Occ) (created : List Str)
    (h : ∀ x ∈ xs, Plain x.scope) (hp : ∀ x ∈ xs, path o x.scope = p → x.scope = s) :
    Tree.Spec.codesAt p (Tree.Spec.dropRoots o.roots (calls f created xs)) =
      created1 f (!decide (qualified s ∈ created)) (xs.filter (fun x => path o x.scope = p)) := by
  induction xs generalizing created with
  | nil => rfl
  | cons x xs ih =>
    have hx := h x (by simp)
    have ih := fun c => ih c (fun y hy => h y (by simp [hy])) (fun y hy => hp y (by simp [hy]))
    have e : Tree.Spec.codesAt p (Tree.Spec.dropRoots o.roots (calls f created (x :: xs))) =
        (if path o x.scope = p then [f x (!decide (qualified x.scope ∈ created))] else []) ++
        Tree.Spec.codesAt p (Tree.Spec.dropRoots o.roots
          (calls f (if qualified x.scope ∈ created then created else qualified x.scope :: created) xs)) := by
      rw [calls, split_qualified hx]
      unfold Tree.Spec.codesAt Tree.Spec.dropRoots
      rw [List.map_cons, List.filter_cons]
      dsimp only
      by_cases hpx : path o x.scope = p
      · rw [if_pos hpx, if_pos (by simpa [path] using hpx)]
        rfl
      · rw [if_neg hpx, if_neg (by simpa [path] using hpx)]
        rfl
    rw [e, ih, List.filter_cons]
    by_cases hpx : path o x.scope = p
    · have hxs := hp x (by simp) hpx
      rw [if_pos hpx, if_pos (show decide (path o x.scope = p) = true by simpa using hpx), hxs]
      have h2 : (!decide (qualified s ∈ (if qualified s ∈ created then created else qualified s :: created))) = false := by
        split <;> simp [*]
      rw [h2]
      show _ = f x _ :: _
      rw [List.singleton_append]
      refine congrArg (f x _ :: ·) ?_
      cases xs.filter (fun x => path o x.scope = p) <;> rfl
    · rw [if_neg hpx, List.nil_append, if_neg (show ¬ decide (path o x.scope = p) = true by simpa using hpx)]
      have hne : qualified s ≠ qualified x.scope := by
        intro h'
        exact hpx (by rw [← qualified_inj hs hx h', hps])
      have h2 : decide (qualified s ∈ (if qualified x.scope ∈ created then created else qualified x.scope :: created)) =
          decide (qualified s ∈ created) := by
        split
        · rfl
        · simp [hne]
      rw [h2]

/-- The names of the namespaces are plain: not empty, without colons. -/
def PlainNames (els : List El) : Prop := ∀ n ∈ nsNamesAll els, n ≠ [] ∧ ':' ∉ n

theorem plain_occs {o : Options} {els : List El} (h : PlainNames els) : ∀ x ∈ occsAll o [] els, Plain x.scope := by
  intro x hx
  obtain ⟨r, h1, _, h3⟩ := occsAll_scope o els [] x hx
  rw [List.nil_append] at h1
  rw [h1]
  exact ⟨by simp, fun n hn => (h n (h3 n hn)).2⟩

theorem scope_ne_nil {o : Options} {els : List El} {s : List Str} : ∀ x ∈ occsAll o s els, x.scope ≠ [] := by
  intro x hx
  obtain ⟨r, h1, _, _⟩ := occsAll_scope o els s x hx
  rw [h1]
  simp

/-- The text of the modules of a unit. -/
theorem rows_modules (o : Options) (els : List El) (f : Occ → Bool → Str) (cfg : Tree.Config) (hcfg : cfg.roots = o.roots)
    (hi : ∀ c ∈ cfg.indent, isSpace c = true) (hn : '\n' ∉ cfg.indent) (hN : PlainNames els) (hC : Consistent o els)
    (hshown : ∀ n ∈ nsNamesAll els, '\n' ∉ Tree.Spec.shown cfg n)
    (body : List Str → List Str) (module_ : Nat → List Str → Str → List Str)
    (hbody : ∀ p n, n ∈ inside o els p →
      (created1 f true ((occsAll o [] els).filter (fun x => path o x.scope = p ++ [n]))).flatMap rows = body (p ++ [n]))
    (hne : ∀ p n, n ∈ inside o els p → body (p ++ [n]) ≠ []) (h0 : ∀ p n, module_ 0 p n = [])
    (hS : ∀ d p n, module_ (d + 1) p n = [Tree.Spec.opening cfg n] ++ body (p ++ [n]) ++
      shift cfg.indent ((inside o els (p ++ [n])).flatMap (module_ d (p ++ [n]))) ++ [Tree.Spec.closing cfg n]) :
    ∃ c, runAll o f Ctx.empty (occsAll o [] els) = some c ∧ Tree.Lead (Tree.fullTreeCode cfg c.tree) ∧
      rows (Tree.fullTreeCode cfg c.tree) = (inside o els []).flatMap (module_ (depth o els) []) := by
  have hpl := plain_occs (o := o) hN
  have hpaths := calls_paths o f (occsAll o [] els) [] hpl
  have hsome : ∃ t, Tree.storeAll o.roots Tree.emptyTree (calls f [] (occsAll o [] els)) = some t := by
    cases hst : Tree.storeAll o.roots Tree.emptyTree (calls f [] (occsAll o [] els)) with
    | some t => exact ⟨t, rfl⟩
    | none =>
      obtain ⟨e, he, hr⟩ := (Tree.Props.C30_error o.roots _).1 hst
      have hm : ([] : List Str) ∈ (Tree.Spec.dropRoots o.roots (calls f [] (occsAll o [] els))).map Prod.fst := by
        refine List.mem_map.2 ⟨_, List.mem_map.2 ⟨e, he, rfl⟩, ?_⟩
        dsimp only
        rw [List.filter_eq_nil_iff]
        intro n hn
        simpa using hr n hn
      rw [hpaths] at hm
      obtain ⟨x, hx, h0⟩ := List.mem_map.1 hm
      obtain ⟨r, hr⟩ := occsAll_path hx
      rw [hr] at h0
      simp at h0
  obtain ⟨t, ht⟩ := hsome
  have hrun := runAll_calls o f (occsAll o [] els) Ctx.empty
  rw [show Ctx.empty.tree = Tree.emptyTree from rfl, show Ctx.empty.created = [] from rfl, ht] at hrun
  cases hc : runAll o f Ctx.empty (occsAll o [] els) with
  | none => rw [hc] at hrun; cases hrun
  | some c =>
    rw [hc] at hrun
    have hct : c.tree = t := Option.some.inj hrun
    refine ⟨c, rfl, ?_⟩
    have ht' : Tree.storeAll cfg.roots Tree.emptyTree (calls f [] (occsAll o [] els)) = some t := by rw [hcfg]; exact ht
    rw [hct, Tree.Props.C30_refines cfg _ t ht', hcfg]
    have hmem : ∀ e ∈ Tree.Spec.dropRoots o.roots (calls f [] (occsAll o [] els)), ∃ x ∈ occsAll o [] els, e.1 = path o x.scope := by
      intro e he
      have : e.1 ∈ (occsAll o [] els).map (fun x => path o x.scope) := by rw [← hpaths]; exact List.mem_map.2 ⟨e, he, rfl⟩
      obtain ⟨x, hx, h⟩ := List.mem_map.1 this
      exact ⟨x, hx, h.symm⟩
    have hnamed : Tree.Named (Tree.Spec.dropRoots o.roots (calls f [] (occsAll o [] els))) := by
      intro e he h0
      obtain ⟨x, hx, hex⟩ := hmem e he
      obtain ⟨r, h1, _, h3⟩ := occsAll_scope o els [] x hx
      rw [hex] at h0
      have := (List.mem_filter.1 h0).1
      rw [h1, List.nil_append] at this
      exact (hN _ (h3 _ this)).1 rfl
    have hown : Tree.Spec.own (Tree.Spec.dropRoots o.roots (calls f [] (occsAll o [] els))) = [] := by
      have e : (Tree.Spec.dropRoots o.roots (calls f [] (occsAll o [] els))).filterMap
          (fun e => if e.1 = [] then some e.2 else none) = [] := by
        rw [List.filterMap_eq_nil_iff]
        intro e he
        obtain ⟨x, hx, hex⟩ := hmem e he
        obtain ⟨r, hr⟩ := occsAll_path hx
        rw [hex, hr, if_neg (by simp)]
      unfold Tree.Spec.own
      rw [e]
      rfl
    have hsubs : ∀ p, Tree.Spec.names (under (Tree.Spec.dropRoots o.roots (calls f [] (occsAll o [] els))) p) = inside o els p :=
      fun p => names_inside o els p _ hpaths
    refine ⟨Tree.lead_document cfg _ _ _ hnamed (Or.inr hown), ?_⟩
    have hrec := rows_document cfg hi hn _ hnamed (inside o els) body module_ hsubs (by
      intro p n hpn
      have hrows : rows (Tree.Spec.own (under (Tree.Spec.dropRoots o.roots (calls f [] (occsAll o [] els))) (p ++ [n]))) = body (p ++ [n]) := by
        obtain ⟨x, hx, hxp, _⟩ := mem_inside hpn
        rw [rows_own, codesAt_under, calls_at o f (p ++ [n]) x.scope (hpl x hx) hxp _ _ hpl]
        · exact hbody p n hpn
        · intro y hy hyp
          exact hC y.at ((spacesAll_perm o els []).mem_iff.1 (List.mem_map.2 ⟨y, hy, rfl⟩)) x.at
            ((spacesAll_perm o els []).mem_iff.1 (List.mem_map.2 ⟨x, hx, rfl⟩)) (hyp.trans hxp.symm)
      refine ⟨?_, hrows, ?_⟩
      · intro h
        rw [h, rows_nil] at hrows
        exact hne p n hpn hrows.symm
      · obtain ⟨x, hx, _, hxn⟩ := mem_inside hpn
        obtain ⟨r, h1, _, h3⟩ := occsAll_scope o els [] x hx
        exact hshown n (h3 n (by rw [← hxn]; simp))) h0 hS
    rw [depth_eq o els _ hpaths, Tree.document_succ, if_pos (Or.inl rfl), hown, List.nil_append, rows_flatten,
      show Tree.Spec.names (Tree.Spec.dropRoots o.roots (calls f [] (occsAll o [] els))) = inside o els [] from hsubs []]
    · rw [List.flatMap_map]
      refine Tree.flatMap_congr' (fun n hn => ?_)
      exact hrec _ [] n hn
    · intro s hs
      obtain ⟨n, hn, rfl⟩ := List.mem_map.1 hs
      refine Tree.lead_document cfg _ _ _ (Tree.named_sub hnamed n) (Or.inl ?_)
      rintro rfl
      obtain ⟨q, c, hm⟩ := Tree.names_mem _ hn
      exact hnamed _ hm (by simp)

end Verif.Unit
