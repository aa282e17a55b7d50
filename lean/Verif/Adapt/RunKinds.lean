import Verif.Adapt.RunPieces
import Verif.Adapt.SpecCall
import Verif.Adapt.Buffers
import Verif.Adapt.Exclude
import Verif.Type.Lemmas

/-! What each kind of piece does during a call. -/

namespace Verif.Adapt
open Verif.Py Verif.Type Spec

theorem set_self (e : Env) (x : Str) (v : Var) : (e.set x v) x = some v := by simp [Env.set]
theorem set_ne (e : Env) {x y : Str} (v : Var) (h : y ≠ x) : (e.set x v) y = e y := by simp [Env.set, h]

theorem contents_val {e : Env} {x : Str} {v : Val} (h : e x = some (.val v)) : contents e x = .ok v := by
  unfold contents; rw [h]
theorem contents_raw {e : Env} {x : Str} {l : List Val} (h : e x = some (.raw l)) : contents e x = .ok (.ptr (.list l)) := by
  unfold contents; rw [h]
theorem contents_refers {e : Env} {x y : Str} {acc : Access} {v w : Val} (h : e x = some (.refers y acc)) (h2 : e y = some (.val v))
    (h3 : access acc v = some w) : contents e x = .ok w := by
  unfold contents; rw [h]; simp only; rw [h2]; simp only; rw [h3]; rfl
theorem store_val {e : Env} {x : Str} {v : Val} (h : e x = some (.val v)) (new : Val) : store e x new = .ok (e.set x (.val new)) := by
  unfold store; rw [h]
theorem store_refers {e : Env} {x y : Str} {acc : Access} {v w new : Val} (h : e x = some (.refers y acc)) (h2 : e y = some (.val v))
    (h3 : update acc v new = some w) : store e x new = .ok (e.set y (.val w)) := by
  unfold store; rw [h]; simp only; rw [h2]; simp only; rw [h3]; rfl

theorem bound_one {e : Env} {x : Str} {vs : List Val} (h : Bound e [x] vs) : ∃ v, vs = [v] ∧ e x = some (.val v) := by
  cases h with
  | cons h1 h2 => cases h2; exact ⟨_, rfl, h1⟩

theorem evalAll_one {code : Code} {e : Env} {a : Arg} {v : Val} (h : eval code e a = .ok v) : evalAll code e [a] = .ok [v] := by
  simp only [evalAll]; rw [h]; rfl
theorem changedAll_one {e e' : Env} {a : Arg} {v : Val} (h : changed e a v = .ok e') : changedAll e [a] [v] = .ok e' := by
  simp only [changedAll]; rw [h]; rfl
theorem contentsAll_one {e : Env} {x : Str} {v : Val} (h : contents e x = .ok v) : contentsAll e [x] = .ok [v] := by
  simp only [contentsAll]; rw [h]; rfl
theorem execAll_one {code : Code} {sizes : Str → Option Nat} {e e' : Env} {s : Stmt} (h : exec code sizes e s = .ok e') :
    execAll code sizes e [s] = .ok e' := by
  simp only [execAll]; rw [h]; rfl

variable {code : Code} {sizes : Str → Option Nat}

theorem keep_run {p : Param} {x : Passing} (h : Kept p x) : PieceRun code sizes (keep p) x := by
  obtain ⟨v, v', h⟩ := h
  refine ⟨keep_own p, by simp [keep], rfl, rfl, ?_⟩
  intro env _ hb
  obtain ⟨w, hw, hv⟩ := bound_one hb
  simp only [List.cons.injEq, and_true] at hw
  subst hw
  refine ⟨env, env.set p.name (.val v'), env.set p.name (.val v'), [v'], rfl, evalAll_one (contents_val hv),
    changedAll_one (store_val hv v'), rfl, contentsAll_one (contents_val (set_self _ _ _)), rfl, ?_, rfl⟩
  simp only [keep, seen]
  split
  · rfl
  · rename_i hr
    rw [h.1 (.inr hr)]

/-- A piece with one new parameter `q`, one local variable and one argument, that declares another name for a part of
the parameter. -/
theorem refers_run {y : Piece} {p q : Param} {l type : Str} {acc : Access} {s : Stmt} {v w v' w' : Val} {outs : List Val}
    (hy : Own y) (h1 : y.news = [q]) (hq : q.name = p.name) (h2 : y.args = [.var l]) (h3 : y.input = [s]) (h4 : y.output = [])
    (hs : s = .bind type l p.name acc ∨ s = .bindOrNull type l p.name acc ∧ v ≠ .null ∧ v ≠ .none_)
    (ht : refersTo type = true) (hv : access acc v = some w) (hu : update acc v w' = some v')
    (hr : y.returned = [] ∧ outs = [] ∨ y.returned = [p.name] ∧ outs = [v']) :
    PieceRun code sizes y { python := [v], cpp := [w], cppAfter := [w'], pythonAfter := [if ByReference q then v' else v], output := outs } := by
  have hdecl : declares s = [l] := by rcases hs with rfl | ⟨rfl, _⟩ <;> rfl
  refine ⟨hy, by simp [h4], by simp [h2], by simp [h1], ?_⟩
  intro env hn hb
  rw [h1] at hb
  obtain ⟨v0, hv0, he⟩ := bound_one hb
  simp only [List.cons.injEq, and_true] at hv0
  subst hv0
  change env q.name = _ at he
  rw [hq] at he
  have hne : p.name ≠ l := by
    simp only [scope, names, h1, h3, List.map_cons, List.map_nil, List.flatMap_cons, List.flatMap_nil, hdecl, List.append_nil,
      List.singleton_append, List.nodup_cons, List.mem_singleton] at hn
    rw [hq] at hn
    exact hn.1
  have hdec : declare env type l p.name acc = .ok (env.set l (.refers p.name acc)) := by
    unfold declare reading
    rw [contents_val he, ok_bind', hv]
    simp only [valid, ok_bind', ht, if_true]
    rfl
  have hex : exec code sizes env s = .ok (env.set l (.refers p.name acc)) := by
    rcases hs with rfl | ⟨rfl, hn1, hn2⟩
    · exact hdec
    · simp only [exec, contents_val he, ok_bind', ht, Bool.not_true, Bool.false_eq_true, if_false]
      first
        | exact hdec
        | (split
           · exact absurd rfl hn2
           · exact absurd rfl hn1
           · exact hdec)
  have e1l : (env.set l (.refers p.name acc)) l = some (.refers p.name acc) := set_self _ _ _
  have e1p : (env.set l (.refers p.name acc)) p.name = some (.val v) := (set_ne _ _ hne).trans he
  refine ⟨_, (env.set l (.refers p.name acc)).set p.name (.val v'), (env.set l (.refers p.name acc)).set p.name (.val v'), [v'],
    by rw [h3]; exact execAll_one hex, by rw [h2]; exact evalAll_one (contents_refers e1l e1p hv),
    by rw [h2]; exact changedAll_one (store_refers e1l e1p hu), by rw [h4]; rfl, ?_, by simp [h1], ?_, ?_⟩
  · rw [h1]
    show contentsAll _ [q.name] = _
    rw [hq]
    exact contentsAll_one (contents_val (set_self _ _ _))
  · rw [h1]; rfl
  · rcases hr with ⟨hr, rfl⟩ | ⟨hr, rfl⟩
    · rw [hr]; rfl
    · rw [hr]; exact contentsAll_one (contents_val (set_self _ _ _))

/-- A piece with one new parameter `q`, one local variable with its own contents, and one argument. -/
theorem local_run {y : Piece} {p q : Param} {l : Str} {s : Stmt} {v w w' : Val} {outs : List Val} {a : Arg} {b : Val}
    (hy : Own y) (h1 : y.news = [q]) (hq : q.name = p.name) (h2 : y.args = [a]) (h3 : y.input = [s]) (h4 : y.output = [])
    (hdecl : declares s = [l]) (hs : ∀ env : Env, env p.name = some (.val v) → exec code sizes env s = .ok (env.set l (.val b)))
    (ha : a = .var l ∧ w = b ∨ a = .data l ∧ access .data b = some w ∧ (∃ b', update .data b w' = some b'))
    (hr : y.returned = [] ∧ outs = [] ∨ y.returned = [p.name] ∧ outs = [v]) :
    PieceRun code sizes y { python := [v], cpp := [w], cppAfter := [w'], pythonAfter := [v], output := outs } := by
  refine ⟨hy, by simp [h4], by simp [h2], by simp [h1], ?_⟩
  intro env hn hb
  rw [h1] at hb
  obtain ⟨v0, hv0, he⟩ := bound_one hb
  simp only [List.cons.injEq, and_true] at hv0
  subst hv0
  change env q.name = _ at he
  rw [hq] at he
  have hne : p.name ≠ l := by
    simp only [scope, names, h1, h3, List.map_cons, List.map_nil, List.flatMap_cons, List.flatMap_nil, hdecl, List.append_nil,
      List.singleton_append, List.nodup_cons, List.mem_singleton] at hn
    rw [hq] at hn
    exact hn.1
  have e1l : (env.set l (.val b)) l = some (.val b) := set_self _ _ _
  have e1p : (env.set l (.val b)) p.name = some (.val v) := (set_ne _ _ hne).trans he
  have hfin : ∀ b' : Val, ((env.set l (.val b)).set l (.val b')) p.name = some (.val v) := fun b' => (set_ne _ _ hne).trans e1p
  obtain ⟨b', g1, g2⟩ : ∃ b', evalAll code (env.set l (.val b)) [a] = .ok [w] ∧
      changedAll (env.set l (.val b)) [a] [w'] = .ok ((env.set l (.val b)).set l (.val b')) := by
    rcases ha with ⟨rfl, rfl⟩ | ⟨rfl, hw, b', hb'⟩
    · exact ⟨w', evalAll_one (contents_val e1l), changedAll_one (store_val e1l w')⟩
    · refine ⟨b', evalAll_one ?_, changedAll_one ?_⟩
      · simp only [eval, reading]
        rw [contents_val e1l, ok_bind', hw]; rfl
      · simp only [changed, writing]
        rw [contents_val e1l, ok_bind', hb']
        exact store_val e1l b'
  refine ⟨_, _, (env.set l (.val b)).set l (.val b'), [v],
    by rw [h3]; exact execAll_one (hs env he), by rw [h2]; exact g1, by rw [h2]; exact g2, by rw [h4]; rfl, ?_, by simp [h1], ?_, ?_⟩
  · rw [h1]
    show contentsAll _ [q.name] = _
    rw [hq]
    exact contentsAll_one (contents_val (hfin b'))
  · rw [h1]; simp [seen]
  · rcases hr with ⟨hr, rfl⟩ | ⟨hr, rfl⟩
    · rw [hr]; rfl
    · rw [hr]; exact contentsAll_one (contents_val (hfin b'))

/-! ### The kinds -/

theorem exclude_run {o : Options} {p : Param} {x : Passing} (h : ExcludeCall code o p x) :
    PieceRun code sizes (excludePiece o p) x := by
  cases h with
  | kept _ hx hk =>
    have : shallExclude o p = false := Bool.eq_false_iff.2 fun h => hx ((shallExclude_iff o p).1 h)
    unfold excludePiece
    rw [this]
    exact keep_run hk
  | hidden v' hx =>
    have : shallExclude o p = true := (shallExclude_iff o p).2 hx
    have ho := excludePiece_own o p
    unfold excludePiece at ho ⊢
    rw [this] at ho ⊢
    simp only [if_true] at ho ⊢
    refine ⟨ho, by simp, rfl, rfl, ?_⟩
    intro env _ _
    exact ⟨env, env, env, [], rfl, evalAll_one rfl, changedAll_one rfl, rfl, rfl, rfl, rfl, rfl⟩

theorem seemsMutable_iff (o : Options) (p : Param) : seemsMutable o p = true ↔ MutableDefault o p := by
  unfold seemsMutable MutableDefault isVoidType isConst const_ star ellipsis amp
  simp only [List.length_eq_zero_iff]
  generalize "&&".toList = t1
  generalize "...".toList = t2
  generalize "void".toList = t3
  generalize "const".toList = t4
  generalize "constexpr".toList = t5
  have e1 : "*".toList = ['*'] := rfl
  have e2 : "&".toList = ['&'] := rfl
  rw [e1, e2]
  generalize ['*'] = t6
  generalize ['&'] = t7
  by_cases h1 : strip p.default = []
  · simp [h1]
  by_cases h2 : t1 ∈ p.type.modifiers
  · simp [h2]
  by_cases h3 : t6 ∈ p.type.modifiers
  · simp [h3]
  by_cases h4 : t2 ∈ p.type.modifiers
  · simp [h4]
  by_cases h5 : p.type.typenames = [t3] ∧ p.type.specifiers = [] ∧ p.type.modifiers = []
  · simp [h5]
  by_cases h6 : t7 ∈ p.type.modifiers <;> by_cases h7 : t4 ∈ p.type.specifiers <;> by_cases h8 : t5 ∈ p.type.specifiers <;>
    simp only [h1, h2, h3, h4, h6, h7, h8, if_false, Bool.and_eq_true, decide_eq_true_eq, and_assoc, h5, decide_true,
      decide_false, Bool.or_true, Bool.or_false, Bool.not_true, Bool.and_false, Bool.false_eq_true, not_false_eq_true, true_and,
      false_and, ne_eq, and_true, implies_true, false_implies, or_true, true_or, or_false, false_or, if_true, Bool.not_false,
      Bool.and_true, Bool.and_self, Bool.or_self, and_false, not_true_eq_false, true_implies, imp_false]

theorem mutable_run {o : Options} {p : Param} {x : Passing} (h : MutableCall code o p x) :
    PieceRun code sizes (mutablePiece o p) x := by
  have ho := mutablePiece_own o p
  cases h with
  | kept _ hx hk =>
    have : seemsMutable o p = false := Bool.eq_false_iff.2 fun h => hx ((seemsMutable_iff o p).1 h)
    unfold mutablePiece
    rw [this]
    exact keep_run hk
  | missing v' hx =>
    have : seemsMutable o p = true := (seemsMutable_iff o p).2 hx
    unfold mutablePiece at ho ⊢
    rw [this] at ho ⊢
    exact local_run (p := p) (b := code p.default) ho rfl rfl rfl rfl rfl rfl
      (fun env he => by simp only [exec]; rw [contents_val he]; rfl) (.inl ⟨rfl, rfl⟩) (.inl ⟨rfl, rfl⟩)
  | given v v' hx =>
    have : seemsMutable o p = true := (seemsMutable_iff o p).2 hx
    unfold mutablePiece at ho ⊢
    rw [this] at ho ⊢
    exact local_run (p := p) (b := v) ho rfl rfl rfl rfl rfl rfl
      (fun env he => by simp only [exec]; rw [contents_val he]; rfl) (.inl ⟨rfl, rfl⟩) (.inl ⟨rfl, rfl⟩)

end Verif.Adapt
