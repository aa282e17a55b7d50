import Verif.Adapt.Run

/-! A lambda made of pieces runs as its pieces do. -/

namespace Verif.Adapt
open Verif.Py Verif.Type Spec

/-- The variables of a piece. -/
def scope (y : Piece) : List Str := names y.news ++ y.input.flatMap declares

/-- The parameters `xs` contain `vs`. -/
def Bound (e : Env) (xs : List Str) (vs : List Val) : Prop := List.Forall₂ (fun x v => e x = some (.val v)) xs vs

structure PieceRun (code : Code) (sizes : Str → Option Nat) (y : Piece) (x : Passing) : Prop where
  own : Own y
  out : ∀ s ∈ y.output, declares s = []
  len : y.args.length = x.cppAfter.length
  plen : y.news.length = x.python.length
  go : ∀ env, (scope y).Nodup → Bound env (names y.news) x.python → ∃ e1 e2 e3 ws,
    execAll code sizes env y.input = .ok e1 ∧ evalAll code e1 y.args = .ok x.cpp ∧
    changedAll e1 y.args x.cppAfter = .ok e2 ∧ execAll code sizes e2 y.output = .ok e3 ∧
    contentsAll e3 (names y.news) = .ok ws ∧ ws.length = y.news.length ∧ seen y.news x.python ws = x.pythonAfter ∧
    contentsAll e3 y.returned = .ok x.output

theorem scoped_reads : ∀ (l : List Stmt) (S : List Str), Scoped S l →
    ∀ s ∈ l, ∀ x ∈ reads s, x ∈ S ++ l.flatMap declares
  | [], _, _, s, hs, _, _ => absurd hs (by simp)
  | t :: r, S, h, s, hs, x, hx => by
    rcases List.mem_cons.1 hs with rfl | hs
    · exact List.mem_append_left _ (h.1 x hx)
    · have := scoped_reads r _ h.2 s hs x hx
      simpa [List.append_assoc] using this

theorem own_input {y : Piece} (h : Own y) : ∀ s ∈ y.input, (∀ x ∈ reads s, x ∈ scope y) ∧ ∀ x ∈ declares s, x ∈ scope y :=
  fun s hs => ⟨fun x hx => scoped_reads _ _ h.input s hs x hx,
    fun _ hx => List.mem_append_right _ (List.mem_flatMap.2 ⟨s, hs, hx⟩)⟩

theorem own_output {y : Piece} (h : Own y) (ho : ∀ s ∈ y.output, declares s = []) :
    ∀ s ∈ y.output, (∀ x ∈ reads s, x ∈ scope y) ∧ ∀ x ∈ declares s, x ∈ scope y := by
  intro s hs
  refine ⟨fun x hx => ?_, fun x hx => by rw [ho s hs] at hx; exact absurd hx (by simp)⟩
  have := scoped_reads _ _ h.output s hs x hx
  have h2 : y.output.flatMap declares = [] := List.flatMap_eq_nil_iff.2 ho
  rw [h2, List.append_nil] at this
  exact this

/-- A piece with the environments of its own run. -/
structure Rec where
  y : Piece
  x : Passing
  e1 : Env
  e2 : Env
  e3 : Env
  ws : List Val

structure Rec.OK (code : Code) (sizes : Str → Option Nat) (env : Env) (z : Rec) : Prop where
  piece : PieceRun code sizes z.y z.x
  input : execAll code sizes env z.y.input = .ok z.e1
  args : evalAll code z.e1 z.y.args = .ok z.x.cpp
  changed : changedAll z.e1 z.y.args z.x.cppAfter = .ok z.e2
  output : execAll code sizes z.e2 z.y.output = .ok z.e3
  contents : contentsAll z.e3 (names z.y.news) = .ok z.ws
  wlen : z.ws.length = z.y.news.length
  seen : seen z.y.news z.x.python z.ws = z.x.pythonAfter
  returned : contentsAll z.e3 z.y.returned = .ok z.x.output

theorem recs (code : Code) (sizes : Str → Option Nat) (env : Env) {ys : List Piece} {xs : List Passing}
    (h : List.Forall₂ (PieceRun code sizes) ys xs) (hd : ∀ y ∈ ys, (scope y).Nodup)
    (hb : List.Forall₂ (fun y x => Bound env (names y.news) x.python) ys xs) :
    ∃ zs : List Rec, zs.map (·.y) = ys ∧ zs.map (·.x) = xs ∧ ∀ z ∈ zs, z.OK code sizes env := by
  induction h with
  | nil => exact ⟨[], rfl, rfl, by simp⟩
  | @cons y x ys xs h1 h2 ih =>
    cases hb with
    | cons hb1 hb2 =>
      obtain ⟨zs, hz1, hz2, hz3⟩ := ih (fun y hy => hd y (List.mem_cons_of_mem _ hy)) hb2
      obtain ⟨e1, e2, e3, ws, g1, g2, g3, g4, g5, g6, g7, g8⟩ := h1.go env (hd y List.mem_cons_self) hb1
      refine ⟨⟨y, x, e1, e2, e3, ws⟩ :: zs, by simp [hz1], by simp [hz2], ?_⟩
      intro z hz
      rcases List.mem_cons.1 hz with rfl | hz
      · exact ⟨h1, g1, g2, g3, g4, g5, g6, g7, g8⟩
      · exact hz3 z hz

/-! ### No clash -/

theorem scopes_disjoint : ∀ (ys : List Piece),
    (names (ys.flatMap (·.news)) ++ (ys.flatMap (·.input)).flatMap declares).Nodup →
    ys.Pairwise (fun y z => ∀ x ∈ scope y, x ∉ scope z) ∧ ∀ y ∈ ys, (scope y).Nodup
  | [], _ => ⟨List.Pairwise.nil, by simp⟩
  | y :: r, h => by
    rw [names_flatMap, List.flatMap_assoc, List.flatMap_cons, List.flatMap_cons] at h
    have hp : (names y.news ++ List.flatMap (fun y => names y.news) r ++ (y.input.flatMap declares ++
        List.flatMap (fun x => x.input.flatMap declares) r)).Perm
        (scope y ++ (List.flatMap (fun y => names y.news) r ++ List.flatMap (fun x => x.input.flatMap declares) r)) := by
      unfold scope
      simp only [List.append_assoc]
      refine List.Perm.append_left _ ?_
      simp only [← List.append_assoc]
      exact List.Perm.append_right _ List.perm_append_comm
    rw [hp.nodup_iff, List.nodup_append] at h
    obtain ⟨h1, h2, h3⟩ := h
    rw [← names_flatMap, ← List.flatMap_assoc] at h2
    obtain ⟨g1, g2⟩ := scopes_disjoint r h2
    refine ⟨List.pairwise_cons.2 ⟨?_, g1⟩, ?_⟩
    · intro z hz x hx hx'
      refine h3 x hx x ?_ rfl
      unfold scope at hx'
      rcases List.mem_append.1 hx' with hx' | hx'
      · exact List.mem_append_left _ (List.mem_flatMap.2 ⟨z, hz, hx'⟩)
      · exact List.mem_append_right _ (List.mem_flatMap.2 ⟨z, hz, hx'⟩)
    · intro z hz
      rcases List.mem_cons.1 hz with rfl | hz
      · exact h1
      · exact g2 z hz

/-! ### The parameters at the beginning -/

theorem params_val : ∀ (xs : List Str) (vs : List Val) (x : Str) (v : Var), params xs vs x = some v → ∃ w, v = .val w
  | [], _, _, _, h => by simp [params] at h
  | _ :: _, [], _, _, h => by simp [params] at h
  | y :: xs, w :: vs, x, v, h => by
    unfold params Env.set at h
    split at h
    · exact ⟨w, by simpa using h.symm⟩
    · exact params_val xs vs x v h

theorem params_closed (S xs : List Str) (vs : List Val) : Closed S (params xs vs) := by
  intro x _ y acc hy
  obtain ⟨w, hw⟩ := params_val xs vs x _ hy
  exact absurd hw (by simp)

theorem params_bound : ∀ (xs : List Str) (vs : List Val), xs.length = vs.length → xs.Nodup → Bound (params xs vs) xs vs
  | [], [], _, _ => .nil
  | [], _ :: _, h, _ => by simp at h
  | _ :: _, [], h, _ => by simp at h
  | x :: xs, v :: vs, h, hn => by
    rw [List.nodup_cons] at hn
    refine .cons (by simp [params, Env.set]) ?_
    have ih := params_bound xs vs (by simpa using h) hn.2
    have hm : ∀ {as : List Str} {bs : List Val}, List.Forall₂ (fun y w => params xs vs y = some (.val w)) as bs → (∀ a ∈ as, a ∈ xs) →
        List.Forall₂ (fun y w => params (x :: xs) (v :: vs) y = some (.val w)) as bs := by
      intro as bs h
      induction h with
      | nil => exact fun _ => .nil
      | @cons a b as bs h1 _ ih =>
        intro hmem
        refine .cons ?_ (ih (fun a ha => hmem a (List.mem_cons_of_mem _ ha)))
        unfold params Env.set
        rw [if_neg (fun e : a = x => hn.1 (e ▸ hmem a List.mem_cons_self))]
        exact h1
    exact hm ih (fun a ha => ha)

theorem forall2_append_split {α β : Type} {R : α → β → Prop} : ∀ {a : List α} {c : List β} {b : List α} {d : List β},
    List.Forall₂ R (a ++ b) (c ++ d) → a.length = c.length → List.Forall₂ R a c ∧ List.Forall₂ R b d
  | [], [], _, _, h, _ => ⟨.nil, h⟩
  | [], _ :: _, _, _, _, h => by simp at h
  | _ :: _, [], _, _, _, h => by simp at h
  | x :: a, y :: c, b, d, h, hl => by
    cases h with
    | cons h1 h2 =>
      obtain ⟨g1, g2⟩ := forall2_append_split h2 (by simpa using hl)
      exact ⟨.cons h1 g1, g2⟩

theorem bound_split (e : Env) {ys : List Piece} {xs : List Passing}
    (h : List.Forall₂ (fun (y : Piece) (x : Passing) => y.news.length = x.python.length) ys xs)
    (hb : Bound e (names (ys.flatMap (·.news))) (xs.flatMap (·.python))) :
    List.Forall₂ (fun y x => Bound e (names y.news) x.python) ys xs := by
  induction h with
  | nil => exact .nil
  | @cons y x ys xs h1 h2 ih =>
    rw [names_flatMap, List.flatMap_cons, List.flatMap_cons, ← names_flatMap] at hb
    obtain ⟨g1, g2⟩ := forall2_append_split hb (by simpa [names] using h1)
    exact .cons g1 (ih g2)

/-! ### The whole run -/

theorem jobs_exec (code : Code) (sizes : Str → Option Nat) (S : Rec → List Str) (b a : Rec → Env) (g : Rec → List Stmt) :
    ∀ (zs : List Rec) (e : Env), runJobs (zs.map (fun z => ⟨S z, b z, a z, fun e => execAll code sizes e (g z)⟩)) e
      = execAll code sizes e (zs.flatMap g)
  | [], e => rfl
  | z :: zs, e => by
    rw [List.map_cons, runJobs, List.flatMap_cons, execAll_append]
    simp only
    cases execAll code sizes e (g z) with
    | error f => rfl
    | ok e' => exact jobs_exec code sizes S b a g zs e'

theorem jobs_changed (S : Rec → List Str) (b a : Rec → Env) (g : Rec → List Arg) (v : Rec → List Val) :
    ∀ (zs : List Rec) (e : Env), (∀ z ∈ zs, (g z).length = (v z).length) →
      runJobs (zs.map (fun z => ⟨S z, b z, a z, fun e => changedAll e (g z) (v z)⟩)) e
      = changedAll e (zs.flatMap g) (zs.flatMap v)
  | [], e, _ => rfl
  | z :: zs, e, h => by
    rw [List.map_cons, runJobs, List.flatMap_cons, List.flatMap_cons, changedAll_append _ _ _ _ _ (h z List.mem_cons_self)]
    simp only
    cases changedAll e (g z) (v z) with
    | error f => rfl
    | ok e' => exact jobs_changed S b a g v zs e' (fun z' hz => h z' (List.mem_cons_of_mem z hz))

theorem evalAll_flatMap (code : Code) (e : Env) (g : Rec → List Arg) (v : Rec → List Val) : ∀ (zs : List Rec),
    (∀ z ∈ zs, evalAll code e (g z) = .ok (v z)) → evalAll code e (zs.flatMap g) = .ok (zs.flatMap v)
  | [], _ => rfl
  | z :: zs, h => by
    rw [List.flatMap_cons, List.flatMap_cons]
    exact evalAll_append code e _ (vs := []) _ (h z List.mem_cons_self)
      (evalAll_flatMap code e g v zs (fun z' hz => h z' (List.mem_cons_of_mem z hz)))

theorem contentsAll_flatMap (e : Env) (g : Rec → List Str) (v : Rec → List Val) : ∀ (zs : List Rec),
    (∀ z ∈ zs, contentsAll e (g z) = .ok (v z)) → contentsAll e (zs.flatMap g) = .ok (zs.flatMap v)
  | [], _ => rfl
  | z :: zs, h => by
    rw [List.flatMap_cons, List.flatMap_cons]
    exact contentsAll_append e _ _ (h z List.mem_cons_self)
      (contentsAll_flatMap e g v zs (fun z' hz => h z' (List.mem_cons_of_mem z hz)))

theorem seen_append : ∀ (ps : List Param) (vs ws : List Val) (qs : List Param) (vs' ws' : List Val),
    ps.length = vs.length → ws.length = ps.length → seen (ps ++ qs) (vs ++ vs') (ws ++ ws') = seen ps vs ws ++ seen qs vs' ws'
  | [], [], [], _, _, _, _, _ => by simp [seen]
  | [], _ :: _, _, _, _, _, h, _ => by simp at h
  | [], _, _ :: _, _, _, _, _, h => by simp at h
  | _ :: _, [], _, _, _, _, h, _ => by simp at h
  | _ :: _, _, [], _, _, _, _, h => by simp at h
  | p :: ps, v :: vs, w :: ws, qs, vs', ws', h, h' => by
    simp only [List.cons_append, seen]
    rw [seen_append ps vs ws qs vs' ws' (by simpa using h) (by simpa using h')]

theorem seen_flatMap : ∀ (zs : List Rec), (∀ z ∈ zs, z.y.news.length = z.x.python.length ∧ z.ws.length = z.y.news.length ∧
      seen z.y.news z.x.python z.ws = z.x.pythonAfter) →
    seen (zs.flatMap (fun z => z.y.news)) (zs.flatMap (fun z => z.x.python)) (zs.flatMap (·.ws)) = zs.flatMap (fun z => z.x.pythonAfter)
  | [], _ => rfl
  | z :: zs, h => by
    simp only [List.flatMap_cons]
    obtain ⟨h1, h2, h3⟩ := h z List.mem_cons_self
    rw [seen_append _ _ _ _ _ _ h1 h2, h3, seen_flatMap zs (fun z' hz => h z' (List.mem_cons_of_mem z hz))]

/-- What a lambda without dispatch on the element type returns. -/
def Result (ys : List Piece) (xs : List Passing) (ret : Ret) (r res : Val) : Prop :=
  ret = .forward ∧ res = r ∨
  ∃ w, ret = .values w (ys.flatMap (·.returned)) ∧ res = tuple (if w then r :: xs.flatMap (·.output) else xs.flatMap (·.output))

theorem run_pieces (code : Code) (sizes : Str → Option Nat) (known : List Str) (f : Callee) (l : Lambda) {ys : List Piece}
    {xs : List Passing} (h : List.Forall₂ (PieceRun code sizes) ys xs) (hm : MadeOf l ys) (hn : NoClash l) {r res : Val}
    (hret : Result ys xs l.ret r res) (hf : f (xs.flatMap (·.cpp)) = .ok (r, xs.flatMap (·.cppAfter))) :
    run code sizes known f l (xs.flatMap (·.python)) = .ok (res, xs.flatMap (·.pythonAfter)) := by
  obtain ⟨m1, m2, m3, m4⟩ := hm
  unfold NoClash at hn
  rw [m1, m3] at hn
  obtain ⟨hdis, hnd⟩ := scopes_disjoint ys hn
  have hplen : List.Forall₂ (fun (y : Piece) (x : Passing) => y.news.length = x.python.length) ys xs := by
    clear hret hf hn m1 m2 m3 m4 hdis hnd
    induction h with
    | nil => exact .nil
    | cons h1 _ ih => exact .cons h1.plen ih
  have hlen : (names (ys.flatMap (·.news))).length = (xs.flatMap (·.python)).length := by
    clear hret hf hn m1 m2 m3 m4 hdis hnd h
    induction hplen with
    | nil => rfl
    | cons h1 _ ih => simp [names] at ih ⊢; omega
  have hbound := params_bound _ _ hlen (List.nodup_append.1 hn).1
  obtain ⟨zs, z1, z2, z3⟩ := recs code sizes _ h hnd (bound_split _ hplen hbound)
  have fm : ∀ {β : Type} (g : Piece → List β), ys.flatMap g = zs.flatMap (fun z => g z.y) := by
    intro β g; rw [← z1, List.flatMap_map]
  have fx : ∀ {β : Type} (g : Passing → List β), xs.flatMap g = zs.flatMap (fun z => g z.x) := by
    intro β g; rw [← z2, List.flatMap_map]
  have hdis' : ∀ (b a : Rec → Env) (m : Rec → Env → Except Fault Env),
      (zs.map (fun z => (⟨scope z.y, b z, a z, m z⟩ : Job))).Pairwise (fun i j => ∀ x ∈ i.scope, x ∉ j.scope) := by
    intro b a m
    rw [← z1, List.pairwise_map] at hdis
    rw [List.pairwise_map]
    exact hdis
  -- the code before the call
  obtain ⟨E1, h1, h1', _⟩ := runJobs_ok
    (zs.map (fun z => ⟨scope z.y, params (names (ys.flatMap (·.news))) (xs.flatMap (·.python)), z.e1,
      fun e => execAll code sizes e z.y.input⟩))
    (params (names (ys.flatMap (·.news))) (xs.flatMap (·.python)))
    (by
      intro j hj
      obtain ⟨z, hz, rfl⟩ := List.mem_map.1 hj
      exact ⟨params_closed _ _ _, fun _ _ => rfl, execAll_framed code sizes _ (own_input (z3 z hz).piece.own), (z3 z hz).input⟩)
    (hdis' _ _ _)
  have a1 : ∀ z ∈ zs, Closed (scope z.y) z.e1 ∧ Agree (scope z.y) z.e1 E1 := fun z hz => h1' _ (List.mem_map.2 ⟨z, hz, rfl⟩)
  rw [jobs_exec] at h1
  -- the changes made by the call
  obtain ⟨E2, h2, h2', _⟩ := runJobs_ok
    (zs.map (fun z => ⟨scope z.y, z.e1, z.e2, fun e => changedAll e z.y.args z.x.cppAfter⟩)) E1
    (by
      intro j hj
      obtain ⟨z, hz, rfl⟩ := List.mem_map.1 hj
      exact ⟨(a1 z hz).1, (a1 z hz).2, changedAll_framed _ _ (z3 z hz).piece.own.args, (z3 z hz).changed⟩)
    (hdis' _ _ _)
  have a2 : ∀ z ∈ zs, Closed (scope z.y) z.e2 ∧ Agree (scope z.y) z.e2 E2 := fun z hz => h2' _ (List.mem_map.2 ⟨z, hz, rfl⟩)
  rw [jobs_changed _ _ _ _ _ _ _ (fun z hz => (z3 z hz).piece.len)] at h2
  -- the code after the call
  obtain ⟨E3, h3, h3', _⟩ := runJobs_ok
    (zs.map (fun z => ⟨scope z.y, z.e2, z.e3, fun e => execAll code sizes e z.y.output⟩)) E2
    (by
      intro j hj
      obtain ⟨z, hz, rfl⟩ := List.mem_map.1 hj
      exact ⟨(a2 z hz).1, (a2 z hz).2,
        execAll_framed code sizes _ (own_output (z3 z hz).piece.own (z3 z hz).piece.out), (z3 z hz).output⟩)
    (hdis' _ _ _)
  have a3 : ∀ z ∈ zs, Closed (scope z.y) z.e3 ∧ Agree (scope z.y) z.e3 E3 := fun z hz => h3' _ (List.mem_map.2 ⟨z, hz, rfl⟩)
  rw [jobs_exec] at h3
  have hargs : evalAll code E1 (zs.flatMap (fun z => z.y.args)) = .ok (zs.flatMap (fun z => z.x.cpp)) := by
    refine evalAll_flatMap code E1 _ _ zs (fun z hz => ?_)
    rw [← evalAll_congr code (a1 z hz).1 (a1 z hz).2 _ (z3 z hz).piece.own.args]
    exact (z3 z hz).args
  have hcont : contentsAll E3 (zs.flatMap (fun z => names z.y.news)) = .ok (zs.flatMap (·.ws)) := by
    refine contentsAll_flatMap E3 _ _ zs (fun z hz => ?_)
    rw [← contentsAll_congr (a3 z hz).1 (a3 z hz).2 _ (fun x hx => List.mem_append_left _ hx)]
    exact (z3 z hz).contents
  have hout : contentsAll E3 (zs.flatMap (fun z => z.y.returned)) = .ok (zs.flatMap (fun z => z.x.output)) := by
    refine contentsAll_flatMap E3 _ _ zs (fun z hz => ?_)
    rw [← contentsAll_congr (a3 z hz).1 (a3 z hz).2 _ (z3 z hz).piece.own.returned]
    exact (z3 z hz).returned
  have hchk : checkElements known E1 l.ret = .ok () := by
    rcases hret with ⟨hret, _⟩ | ⟨w, hret, _⟩ <;> rw [hret] <;> rfl
  have hres : returned E3 r l.ret = .ok res := by
    rcases hret with ⟨hret, rfl⟩ | ⟨w, hret, rfl⟩
    · rw [hret]; rfl
    · rw [hret]
      simp only [returned]
      rw [fm, hout, ok_bind', fx]
      rfl
  unfold run
  rw [m1, m2, m3, m4]
  simp only [names] at h1 hcont
  rw [fm (·.input), h1, ok_bind', hchk, ok_bind', fm (·.args), hargs, ok_bind', ← fx, hf, ok_bind']
  simp only
  rw [fx (·.cppAfter), h2, ok_bind', fm (·.output), h3, ok_bind', hres, ok_bind', fm (·.news)]
  rw [List.map_flatMap, hcont, ok_bind', fx (·.python), seen_flatMap, fx]
  · rfl
  · intro z hz
    exact ⟨(z3 z hz).piece.plen, (z3 z hz).wlen, (z3 z hz).seen⟩

end Verif.Adapt
