import Verif.Adapt.SpecRun
import Verif.Adapt.Scoping

/-! Running a lambda piece by piece. -/

namespace Verif.Adapt
open Verif.Py Verif.Type Spec

theorem bind_ok {α β : Type} {x : Except Fault α} {g : α → Except Fault β} {b : β} (h : (x >>= g) = .ok b) :
    ∃ a, x = .ok a ∧ g a = .ok b := by
  cases x with
  | error e => exact absurd h (by simp [bind, Except.bind])
  | ok a => exact ⟨a, rfl, h⟩

theorem ok_bind' {α β : Type} (a : α) (g : α → Except Fault β) : ((Except.ok a : Except Fault α) >>= g) = g a := rfl

theorem pure_ok {α : Type} {a b : α} (h : (pure a : Except Fault α) = .ok b) : a = b := by
  simpa [pure, Except.pure] using h

theorem throw_ok {α : Type} {e : Fault} {b : α} (h : (throw e : Except Fault α) = .ok b) : False := by
  simp [throw, throwThe, MonadExceptOf.throw] at h

/-- The variables of `S` refer to variables of `S`. -/
def Closed (S : List Str) (e : Env) : Prop := ∀ x ∈ S, ∀ y acc, e x = some (.refers y acc) → y ∈ S

/-- `e` and `e'` agree on the variables of `S`. -/
def Agree (S : List Str) (e e' : Env) : Prop := ∀ x ∈ S, e x = e' x

/-- What `m` does depends only on the variables of `S`, and changes only them. -/
def Framed (S : List Str) (m : Env → Except Fault Env) : Prop :=
  ∀ e1 e2, Closed S e1 → Agree S e1 e2 → ∀ e1', m e1 = .ok e1' →
    ∃ e2', m e2 = .ok e2' ∧ Agree S e1' e2' ∧ Closed S e1' ∧ ∀ y, y ∉ S → e2' y = e2 y

theorem closed_congr {S : List Str} {e e' : Env} (h : Agree S e e') (hc : Closed S e) : Closed S e' :=
  fun x hx y acc hy => hc x hx y acc ((h x hx).trans hy)

theorem contents_congr {S : List Str} {e e' : Env} (hc : Closed S e) (h : Agree S e e') {x : Str} (hx : x ∈ S) :
    contents e x = contents e' x := by
  unfold contents
  rw [← h x hx]
  cases hv : e x with
  | none => rfl
  | some v =>
    cases v with
    | val v => rfl
    | raw l => rfl
    | refers y acc =>
      simp only
      rw [← h y (hc x hx y acc hv)]

theorem set_agree {S : List Str} {e e' : Env} (h : Agree S e e') (x : Str) (v : Var) : Agree S (e.set x v) (e'.set x v) := by
  intro y hy
  unfold Env.set
  split
  · rfl
  · exact h y hy

theorem set_closed {S : List Str} {e : Env} (h : Closed S e) (x : Str) {v : Var} (hv : ∀ y acc, v = .refers y acc → y ∈ S) :
    Closed S (e.set x v) := by
  intro y hy z acc hz
  unfold Env.set at hz
  split at hz
  · exact hv z acc (by simpa using hz)
  · exact h y hy z acc hz

theorem set_outside {S : List Str} (e : Env) {x : Str} (hx : x ∈ S) (v : Var) : ∀ y, y ∉ S → (e.set x v) y = e y := by
  intro y hy
  unfold Env.set
  rw [if_neg (fun h : y = x => hy (h ▸ hx))]

/-- A framed computation that sets one variable. -/
theorem set_framed {S : List Str} {e1 e2 : Env} (hc : Closed S e1) (h : Agree S e1 e2) {x : Str} (hx : x ∈ S) {v : Var}
    (hv : ∀ y acc, v = .refers y acc → y ∈ S) :
    ∃ e2', (Except.ok (e2.set x v) : Except Fault Env) = .ok e2' ∧ Agree S (e1.set x v) e2' ∧ Closed S (e1.set x v) ∧
      ∀ y, y ∉ S → e2' y = e2 y :=
  ⟨_, rfl, set_agree h x v, set_closed hc x hv, set_outside e2 hx v⟩

theorem store_framed {S : List Str} {x : Str} (hx : x ∈ S) (new : Val) : Framed S (fun e => store e x new) := by
  intro e1 e2 hc h e1' h1
  simp only [store] at h1 ⊢
  rw [← h x hx]
  cases hv : e1 x with
  | none => rw [hv] at h1; exact absurd h1 (by simp)
  | some v =>
    rw [hv] at h1
    cases v with
    | val v =>
      simp only [Except.ok.injEq] at h1 ⊢
      subst h1
      simpa using set_framed hc h hx (v := .val new) (by simp)
    | raw l =>
      simp only at h1 ⊢
      split at h1
      · simp only [Except.ok.injEq] at h1 ⊢
        subst h1
        simpa using set_framed hc h hx (v := .raw _) (by simp)
      · exact absurd h1 (by simp)
    | refers y acc =>
      have hy := hc x hx y acc hv
      simp only at h1 ⊢
      rw [← h y hy]
      cases hw : e1 y with
      | none => rw [hw] at h1; exact absurd h1 (by simp)
      | some w =>
        rw [hw] at h1
        cases w with
        | raw l => exact absurd h1 (by simp)
        | refers _ _ => exact absurd h1 (by simp)
        | val v =>
          simp only at h1 ⊢
          obtain ⟨v', hv', h2⟩ := bind_ok h1
          rw [hv', ok_bind']
          have := pure_ok h2
          subst this
          exact set_framed hc h hy (v := .val v') (by simp)

theorem reading_congr {S : List Str} {e e' : Env} (hc : Closed S e) (h : Agree S e e') {x : Str} (hx : x ∈ S) (acc : Access) :
    reading e x acc = reading e' x acc := by
  unfold reading; rw [contents_congr hc h hx]

theorem writing_framed {S : List Str} {x : Str} (hx : x ∈ S) (acc : Access) (new : Val) :
    Framed S (fun e => writing e x acc new) := by
  intro e1 e2 hc h e1' h1
  simp only [writing] at h1 ⊢
  rw [← contents_congr hc h hx]
  obtain ⟨v, hv, h1⟩ := bind_ok h1
  obtain ⟨v', hv', h1⟩ := bind_ok h1
  rw [hv, ok_bind', hv', ok_bind']
  exact store_framed hx v' e1 e2 hc h e1' h1

theorem declare_framed {S : List Str} {l x : Str} (hl : l ∈ S) (hx : x ∈ S) (type : Str) (acc : Access) :
    Framed S (fun e => declare e type l x acc) := by
  intro e1 e2 hc h e1' h1
  simp only [declare] at h1 ⊢
  rw [← reading_congr hc h hx]
  obtain ⟨v, hv, h1⟩ := bind_ok h1
  rw [hv, ok_bind']
  have := pure_ok h1
  subst this
  refine set_framed hc h hl ?_
  intro y acc' hy
  split at hy
  · simp only [Var.refers.injEq] at hy; exact hy.1 ▸ hx
  · exact absurd hy (by simp)

theorem exec_framed (code : Code) (sizes : Str → Option Nat) {S : List Str} (s : Stmt) (hr : ∀ x ∈ reads s, x ∈ S)
    (hd : ∀ x ∈ declares s, x ∈ S) : Framed S (fun e => exec code sizes e s) := by
  intro e1 e2 hc h e1' h1
  cases s with
  | stringPtrs l x =>
    simp only [exec, reads, declares, List.mem_singleton, forall_eq] at *
    rw [← contents_congr hc h hr]
    obtain ⟨v, hv, h1⟩ := bind_ok h1
    obtain ⟨v', hv', h1⟩ := bind_ok h1
    rw [hv, ok_bind', hv', ok_bind']
    have := pure_ok h1; subst this
    exact set_framed hc h hd (by simp)
  | sizeOf _ l x =>
    simp only [exec, reads, declares, List.mem_singleton, forall_eq] at *
    rw [← contents_congr hc h hr]
    obtain ⟨v, hv, h1⟩ := bind_ok h1
    obtain ⟨v', hv', h1⟩ := bind_ok h1
    rw [hv, ok_bind', hv', ok_bind']
    have := pure_ok h1; subst this
    exact set_framed hc h hd (by simp)
  | bind type l x acc =>
    simp only [exec, reads, declares, List.mem_singleton, forall_eq] at *
    exact declare_framed hd hr type acc e1 e2 hc h e1' h1
  | bindOrNull type l x acc =>
    simp only [exec, reads, declares, List.mem_singleton, forall_eq] at *
    rw [← contents_congr hc h hr]
    obtain ⟨v, hv, h1⟩ := bind_ok h1
    rw [hv, ok_bind']
    split at h1
    · exact (throw_ok h1).elim
    · rename_i ht
      rw [if_neg ht]
      split at h1
      · have := pure_ok h1; subst this
        exact set_framed hc h hd (by simp)
      · have := pure_ok h1; subst this
        exact set_framed hc h hd (by simp)
      · exact declare_framed hd hr type acc e1 e2 hc h e1' h1
  | orDefault type l x d =>
    simp only [exec, reads, declares, List.mem_singleton, forall_eq] at *
    rw [← contents_congr hc h hr]
    obtain ⟨v, hv, h1⟩ := bind_ok h1
    rw [hv, ok_bind']
    split at h1
    · have := pure_ok h1; subst this
      exact set_framed hc h hd (by simp)
    · have := pure_ok h1; subst this
      exact set_framed hc h hd (by simp)
    · exact (throw_ok h1).elim
  | rawArray type l c d =>
    simp only [exec, reads, declares, List.mem_singleton, forall_eq] at *
    obtain ⟨n, hn, h1⟩ := bind_ok h1
    rw [hn, ok_bind']
    have := pure_ok h1; subst this
    exact set_framed hc h hd (by simp)
  | setItem l i x acc =>
    simp only [exec, reads, declares, List.mem_cons, List.not_mem_nil, or_false, forall_eq_or_imp, forall_eq] at *
    rw [← reading_congr hc h hr.2, ← h l hr.1]
    obtain ⟨v, hv, h1⟩ := bind_ok h1
    rw [hv, ok_bind']
    split at h1
    · rename_i vs hvs
      split at h1
      · rename_i hi
        rw [if_pos hi]
        have := pure_ok h1; subst this
        exact set_framed hc h hr.1 (by simp)
      · exact (throw_ok h1).elim
    · exact (throw_ok h1).elim
  | getItem x acc l i =>
    simp only [exec, reads, declares, List.mem_cons, List.not_mem_nil, or_false, forall_eq_or_imp, forall_eq] at *
    rw [← h l hr.2]
    split at h1
    · obtain ⟨v, hv, h1⟩ := bind_ok h1
      rw [hv, ok_bind']
      exact writing_framed hr.1 acc v e1 e2 hc h e1' h1
    · exact (throw_ok h1).elim
  | bufferData k l count x =>
    simp only [exec, reads, declares, List.mem_cons, List.not_mem_nil, or_false, forall_eq_or_imp, forall_eq] at *
    rw [← contents_congr hc h hr]
    obtain ⟨v, hv, h1⟩ := bind_ok h1
    rw [hv, ok_bind']
    split at h1
    · have := pure_ok h1; subst this
      have h2 := set_framed (v := .refers x .data) hc h hd.1 (by rintro y acc h; simp only [Var.refers.injEq] at h; exact h.1 ▸ hr)
      obtain ⟨e, he, ha, hc', hout⟩ := h2
      simp only [Except.ok.injEq] at he
      subst he
      refine ⟨_, rfl, set_agree ha _ _, set_closed hc' _ (by simp), ?_⟩
      intro y hy
      rw [set_outside _ hd.2 _ y hy, hout y hy]
    · exact (throw_ok h1).elim
    · exact (throw_ok h1).elim
  | checkType x t =>
    simp only [exec, reads, List.mem_singleton, forall_eq] at *
    rw [← contents_congr hc h hr]
    obtain ⟨v, hv, h1⟩ := bind_ok h1
    rw [hv, ok_bind']
    split at h1
    · split at h1
      · rename_i ht
        rw [if_pos ht]
        have := pure_ok h1; subst this
        exact ⟨e2, rfl, h, hc, fun _ _ => rfl⟩
      · exact (throw_ok h1).elim
    · exact (throw_ok h1).elim
  | stride l x b =>
    simp only [exec, reads, declares, List.mem_cons, List.not_mem_nil, or_false, forall_eq_or_imp, forall_eq] at *
    rw [← contents_congr hc h hr.1, ← contents_congr hc h hr.2]
    obtain ⟨v, hv, h1⟩ := bind_ok h1
    obtain ⟨w, hw, h1⟩ := bind_ok h1
    rw [hv, ok_bind', hw, ok_bind']
    split at h1
    · have := pure_ok h1; subst this
      exact set_framed hc h hd (by simp)
    · exact (throw_ok h1).elim

theorem framed_bind {S : List Str} {m n : Env → Except Fault Env} (hm : Framed S m) (hn : Framed S n) :
    Framed S (fun e => m e >>= n) := by
  intro e1 e2 hc h e1' h1
  obtain ⟨e, he, h1⟩ := bind_ok h1
  obtain ⟨e', he', ha, hc', ho⟩ := hm e1 e2 hc h e he
  obtain ⟨e'', h2, ha2, hc2, ho2⟩ := hn e e' hc' ha e1' h1
  exact ⟨e'', by simp only [he', ok_bind', h2], ha2, hc2, fun y hy => (ho2 y hy).trans (ho y hy)⟩

theorem framed_ok {S : List Str} : Framed S .ok := by
  intro e1 e2 hc h e1' h1
  simp only [Except.ok.injEq] at h1
  subst h1
  exact ⟨e2, rfl, h, hc, fun _ _ => rfl⟩

theorem execAll_framed (code : Code) (sizes : Str → Option Nat) {S : List Str} : ∀ (l : List Stmt)
    (_ : ∀ s ∈ l, (∀ x ∈ reads s, x ∈ S) ∧ ∀ x ∈ declares s, x ∈ S), Framed S (fun e => execAll code sizes e l)
  | [], _ => by simpa [execAll] using framed_ok
  | s :: r, h => by
    have h1 := exec_framed code sizes s (h s List.mem_cons_self).1 (h s List.mem_cons_self).2
    have h2 := execAll_framed code sizes r (fun t ht => h t (List.mem_cons_of_mem s ht))
    simpa [execAll] using framed_bind h1 h2

theorem changed_framed {S : List Str} (a : Arg) (ha : ∀ x ∈ argReads a, x ∈ S) (v : Val) : Framed S (fun e => changed e a v) := by
  cases a with
  | code c => exact framed_ok
  | var x => exact store_framed (ha x (by simp [argReads])) v
  | data x => exact writing_framed (ha x (by simp [argReads])) _ v
  | cast t x => exact store_framed (ha x (by simp [argReads])) v
  | castElem t x => exact store_framed (ha x (by simp [argReads])) v

theorem changedAll_framed {S : List Str} : ∀ (l : List Arg) (vs : List Val) (_ : ∀ a ∈ l, ∀ x ∈ argReads a, x ∈ S),
    Framed S (fun e => changedAll e l vs)
  | [], _, _ => by simpa [changedAll] using framed_ok
  | a :: r, [], _ => by simpa [changedAll] using framed_ok
  | a :: r, v :: vs, h => by
    have h1 := changed_framed a (h a List.mem_cons_self) v
    have h2 := changedAll_framed r vs (fun t ht => h t (List.mem_cons_of_mem a ht))
    simpa [changedAll] using framed_bind h1 h2

theorem eval_congr (code : Code) {S : List Str} {e e' : Env} (hc : Closed S e) (h : Agree S e e') (a : Arg)
    (ha : ∀ x ∈ argReads a, x ∈ S) : eval code e a = eval code e' a := by
  cases a with
  | code c => rfl
  | var x => exact contents_congr hc h (ha x (by simp [argReads]))
  | data x => exact reading_congr hc h (ha x (by simp [argReads])) _
  | cast t x => exact contents_congr hc h (ha x (by simp [argReads]))
  | castElem t x => exact contents_congr hc h (ha x (by simp [argReads]))

theorem evalAll_congr (code : Code) {S : List Str} {e e' : Env} (hc : Closed S e) (h : Agree S e e') : ∀ (l : List Arg)
    (_ : ∀ a ∈ l, ∀ x ∈ argReads a, x ∈ S), evalAll code e l = evalAll code e' l
  | [], _ => rfl
  | a :: r, ha => by
    unfold evalAll
    rw [eval_congr code hc h a (ha a List.mem_cons_self),
      evalAll_congr code hc h r (fun t ht => ha t (List.mem_cons_of_mem a ht))]

theorem contentsAll_congr {S : List Str} {e e' : Env} (hc : Closed S e) (h : Agree S e e') : ∀ (l : List Str)
    (_ : ∀ x ∈ l, x ∈ S), contentsAll e l = contentsAll e' l
  | [], _ => rfl
  | x :: r, hx => by
    unfold contentsAll
    rw [contents_congr hc h (hx x List.mem_cons_self),
      contentsAll_congr hc h r (fun t ht => hx t (List.mem_cons_of_mem x ht))]

theorem execAll_append (code : Code) (sizes : Str → Option Nat) (b : List Stmt) : ∀ (a : List Stmt) (e : Env),
    execAll code sizes e (a ++ b) = execAll code sizes e a >>= fun e' => execAll code sizes e' b
  | [], e => rfl
  | s :: r, e => by
    simp only [List.cons_append, execAll]
    cases exec code sizes e s with
    | error f => rfl
    | ok e' => exact execAll_append code sizes b r e'

theorem evalAll_append (code : Code) (e : Env) (b : List Arg) {vs ws : List Val} : ∀ (a : List Arg) {vs : List Val},
    evalAll code e a = .ok vs → evalAll code e b = .ok ws → evalAll code e (a ++ b) = .ok (vs ++ ws)
  | [], vs, h1, h2 => by
    simp only [evalAll, Except.ok.injEq] at h1
    subst h1
    exact h2
  | s :: r, vs, h1, h2 => by
    simp only [evalAll] at h1
    obtain ⟨v, hv, h1⟩ := bind_ok h1
    obtain ⟨us, hus, h1⟩ := bind_ok h1
    have := pure_ok h1; subst this
    simp only [List.cons_append, evalAll]
    rw [hv, ok_bind', evalAll_append code e b (vs := vs) r hus h2]
    rfl

theorem contentsAll_append (e : Env) (b : List Str) {ws : List Val} : ∀ (a : List Str) {vs : List Val},
    contentsAll e a = .ok vs → contentsAll e b = .ok ws → contentsAll e (a ++ b) = .ok (vs ++ ws)
  | [], vs, h1, h2 => by
    simp only [contentsAll, Except.ok.injEq] at h1
    subst h1
    exact h2
  | s :: r, vs, h1, h2 => by
    simp only [contentsAll] at h1
    obtain ⟨v, hv, h1⟩ := bind_ok h1
    obtain ⟨us, hus, h1⟩ := bind_ok h1
    have := pure_ok h1; subst this
    simp only [List.cons_append, contentsAll]
    rw [hv, ok_bind', contentsAll_append e b r hus h2]
    rfl

theorem changedAll_append (b : List Arg) (ws : List Val) : ∀ (a : List Arg) (vs : List Val) (e : Env), a.length = vs.length →
    changedAll e (a ++ b) (vs ++ ws) = changedAll e a vs >>= fun e' => changedAll e' b ws
  | [], [], e, _ => by simp [changedAll, ok_bind']
  | [], _ :: _, _, h => by simp at h
  | _ :: _, [], _, h => by simp at h
  | s :: r, v :: vs, e, h => by
    simp only [List.cons_append, changedAll]
    cases changed e s v with
    | error f => rfl
    | ok e' => exact changedAll_append b ws r vs e' (by simpa using h)

/-! ### Several pieces -/

/-- A piece during a call: its variables, a local environment before and after, and what is run. -/
structure Job where
  scope : List Str
  before : Env
  after : Env
  act : Env → Except Fault Env

structure Job.OK (j : Job) (e : Env) : Prop where
  closed : Closed j.scope j.before
  agree : Agree j.scope j.before e
  framed : Framed j.scope j.act
  runs : j.act j.before = .ok j.after

def runJobs : List Job → Env → Except Fault Env
  | [], e => .ok e
  | j :: r, e => j.act e >>= runJobs r

theorem runJobs_ok : ∀ (js : List Job) (e : Env), (∀ j ∈ js, j.OK e) →
    js.Pairwise (fun i j => ∀ x ∈ i.scope, x ∉ j.scope) →
    ∃ e', runJobs js e = .ok e' ∧ (∀ j ∈ js, Closed j.scope j.after ∧ Agree j.scope j.after e') ∧
      ∀ y, (∀ j ∈ js, y ∉ j.scope) → e' y = e y
  | [], e, _, _ => ⟨e, rfl, by simp, fun _ _ => rfl⟩
  | j :: r, e, h, hp => by
    rw [List.pairwise_cons] at hp
    have hj := h j List.mem_cons_self
    obtain ⟨e1, h1, ha, hc, ho⟩ := hj.framed j.before e hj.closed hj.agree j.after hj.runs
    have hr : ∀ k ∈ r, k.OK e1 := by
      intro k hk
      have hk' := h k (List.mem_cons_of_mem j hk)
      refine ⟨hk'.closed, ?_, hk'.framed, hk'.runs⟩
      intro x hx
      rw [hk'.agree x hx, ho x (fun hx' => hp.1 k hk x hx' hx)]
    obtain ⟨e', h2, h3, h4⟩ := runJobs_ok r e1 hr hp.2
    refine ⟨e', by rw [runJobs, h1, ok_bind', h2], ?_, ?_⟩
    · intro k hk
      rcases List.mem_cons.1 hk with rfl | hk
      · refine ⟨hc, ?_⟩
        intro x hx
        rw [ha x hx, h4 x (fun i hi hx' => hp.1 i hi x hx hx')]
      · exact h3 k hk
    · intro y hy
      rw [h4 y (fun i hi => hy i (List.mem_cons_of_mem j hi)), ho y (hy j List.mem_cons_self)]

end Verif.Adapt
