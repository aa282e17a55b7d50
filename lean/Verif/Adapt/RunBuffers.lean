import Verif.Adapt.RunKinds
import Verif.Adapt.RunArrays
import Verif.Adapt.SpecCall
import Verif.Adapt.PropsBuffers

/-! The lambda of the buffers keeps its promise about a call. -/

namespace Verif.Adapt
open Verif.Py Verif.Type Spec

/-! ### Sequences of assignments -/

def setAll (e : Env) : List (Str × Var) → Env
  | [] => e
  | kv :: r => setAll (e.set kv.1 kv.2) r

theorem setAll_append (e : Env) (a b : List (Str × Var)) : setAll e (a ++ b) = setAll (setAll e a) b := by
  induction a generalizing e with
  | nil => rfl
  | cons kv r ih => exact ih _

theorem setAll_other (e : Env) (l : List (Str × Var)) {x : Str} (h : ∀ kv ∈ l, kv.1 ≠ x) : setAll e l x = e x := by
  induction l generalizing e with
  | nil => rfl
  | cons kv r ih =>
    rw [setAll, ih _ fun kv' h' => h kv' (List.mem_cons_of_mem _ h')]
    exact set_ne _ _ (Ne.symm (h kv List.mem_cons_self))

theorem setAll_get (e : Env) (l : List (Str × Var)) {x : Str} {v : Var} (h : (x, v) ∈ l) (hu : ∀ kv ∈ l, kv.1 = x → kv.2 = v) :
    setAll e l x = some v := by
  induction l generalizing e with
  | nil => simp at h
  | cons kv r ih =>
    rw [setAll]
    by_cases hr : ∃ w, (x, w) ∈ r
    · obtain ⟨w, hw⟩ := hr
      have : w = v := hu _ (List.mem_cons_of_mem _ hw) rfl
      subst this
      exact ih _ hw fun kv' h' => hu kv' (List.mem_cons_of_mem _ h')
    · rcases List.mem_cons.1 h with h1 | h1
      · subst h1
        rw [setAll_other _ _ fun kv' h' hx => hr ⟨kv'.2, by rw [← hx]; exact h'⟩]
        exact set_self _ _ _
      · exact absurd ⟨v, h1⟩ hr

/-- Statements that read only names that they do not declare. -/
theorem execAll_setAll {α : Type} (code : Code) (sizes : Str → Option Nat) (P : Env → Prop) (g : α → List Stmt) (ef : α → List (Str × Var)) :
    ∀ (zs : List α), (∀ z ∈ zs, ∀ e, P e → execAll code sizes e (g z) = .ok (setAll e (ef z)) ∧ P (setAll e (ef z))) →
    ∀ e, P e → execAll code sizes e (zs.flatMap g) = .ok (setAll e (zs.flatMap ef)) ∧ P (setAll e (zs.flatMap ef)) := by
  intro zs
  induction zs with
  | nil => intro _ e he; exact ⟨rfl, he⟩
  | cons z r ih =>
    intro h e he
    obtain ⟨h1, h2⟩ := h z List.mem_cons_self e he
    obtain ⟨h3, h4⟩ := ih (fun z' hz => h z' (List.mem_cons_of_mem _ hz)) _ h2
    rw [List.flatMap_cons, List.flatMap_cons, setAll_append]
    rw [execAll_append, h1, ok_bind']
    exact ⟨h3, h4⟩

/-- Changes of the arguments that do not disturb each other. -/
theorem changedAll_setAll {α : Type} (C : α → Env → Prop) (arg : α → Arg) (new : α → Val) (tgt : α → Str) (val : α → Val) :
    ∀ (zs : List α), (∀ z ∈ zs, ∀ e, C z e → changed e (arg z) (new z) = .ok (e.set (tgt z) (.val (val z)))) →
    zs.Pairwise (fun z z' => ∀ e, C z' e → C z' (e.set (tgt z) (.val (val z)))) →
    ∀ e, (∀ z ∈ zs, C z e) → changedAll e (zs.map arg) (zs.map new) = .ok (setAll e (zs.map fun z => (tgt z, .val (val z)))) := by
  intro zs
  induction zs with
  | nil => intro _ _ e _; rfl
  | cons z r ih =>
    intro h hp e hC
    obtain ⟨hp1, hp2⟩ := List.pairwise_cons.1 hp
    simp only [List.map_cons, changedAll]
    rw [h z List.mem_cons_self e (hC z List.mem_cons_self), ok_bind']
    exact ih (fun z' hz => h z' (List.mem_cons_of_mem _ hz)) hp2 _ (fun z' hz => hp1 z' hz e (hC z' (List.mem_cons_of_mem _ hz)))

theorem evalAll_map {α : Type} (code : Code) (e : Env) (arg : α → Arg) (v : α → Val) : ∀ (zs : List α),
    (∀ z ∈ zs, eval code e (arg z) = .ok (v z)) → evalAll code e (zs.map arg) = .ok (zs.map v)
  | [], _ => rfl
  | z :: r, h => by
    simp only [List.map_cons, evalAll]
    rw [h z List.mem_cons_self, ok_bind', evalAll_map code e arg v r fun z' hz => h z' (List.mem_cons_of_mem _ hz)]
    rfl

/-! ### The names -/

theorem last_append (x s : Str) (hs : s ≠ []) : (x ++ s).getLast? = s.getLast? := by
  rw [List.getLast?_append]
  cases h : s.getLast? with
  | none => simp at h; exact absurd h hs
  | some c => rfl

theorem from_ne_count (x y : Str) : fromPyarray x ≠ countOf y := by
  intro h
  have := congrArg List.getLast? h
  unfold fromPyarray countOf at this
  rw [last_append _ _ (by decide +kernel), last_append _ _ (by decide +kernel)] at this
  exact absurd this (by decide +kernel)

theorem from_ne_stride (x y : Str) : fromPyarray x ≠ strideOf y := by
  intro h
  have := congrArg List.getLast? h
  unfold fromPyarray strideOf at this
  rw [last_append _ _ (by decide +kernel), last_append _ _ (by decide +kernel)] at this
  exact absurd this (by decide +kernel)

theorem count_ne_stride (x y : Str) : countOf x ≠ strideOf y := by
  intro h
  have := congrArg List.getLast? h
  unfold countOf strideOf at this
  rw [last_append _ _ (by decide +kernel), last_append _ _ (by decide +kernel)] at this
  exact absurd this (by decide +kernel)

/-! ### One record per parameter -/

structure BRec where
  i : Nat
  p : Param
  y : Piece
  x : Passing

theorem brecs {o : Options} {ps : List Param} {all : List Passing} : ∀ (suf : List Param) (i : Nat) (ys : List Piece) (xs : List Passing),
    List.Forall₂ (fun z y => bufferPiece o ps z.2 z.1 = .ok y) (suf.zipIdx i) ys → xs.length = suf.length →
    ps.drop i = suf → all.drop i = xs →
    ∃ zs : List BRec, zs.map (·.p) = suf ∧ zs.map (·.y) = ys ∧ zs.map (·.x) = xs ∧
      (∀ z ∈ zs, ps[z.i]? = some z.p ∧ all[z.i]? = some z.x ∧ bufferPiece o ps z.i z.p = .ok z.y) ∧
      (∀ j q, i ≤ j → ps[j]? = some q → ∃ z ∈ zs, z.i = j ∧ z.p = q) := by
  intro suf
  induction suf with
  | nil =>
    intro i ys xs hf hl hd _
    cases hf
    have hxs : xs = [] := List.length_eq_zero_iff.1 hl
    subst hxs
    refine ⟨[], rfl, rfl, rfl, by simp, ?_⟩
    intro j q hj hq
    have : ps.length ≤ i := List.drop_eq_nil_iff.1 hd
    rw [List.getElem?_eq_none (by omega)] at hq
    simp at hq
  | cons p r ih =>
    intro i ys xs hf hl hd ha
    rw [List.zipIdx_cons] at hf
    cases hf with
    | cons hy hf =>
      rename_i y ys
      cases xs with
      | nil => simp at hl
      | cons x xs =>
        have hd1 : ps.drop (i + 1) = r := by rw [← List.drop_drop, hd]; rfl
        have ha1 : all.drop (i + 1) = xs := by rw [← List.drop_drop, ha]; rfl
        obtain ⟨zs, z0, z1, z2, z3, z4⟩ := ih (i + 1) ys xs hf (by simpa using hl) hd1 ha1
        have hp : ps[i]? = some p := by have := congrArg (fun l => l[0]?) hd; simpa using this
        have hx : all[i]? = some x := by have := congrArg (fun l => l[0]?) ha; simpa using this
        refine ⟨⟨i, p, y, x⟩ :: zs, by simp [z0], by simp [z1], by simp [z2], ?_, ?_⟩
        · intro z hz
          rcases List.mem_cons.1 hz with rfl | hz
          · exact ⟨hp, hx, hy⟩
          · exact z3 z hz
        · intro j q hj hq
          by_cases hij : j = i
          · subst hij
            rw [hp] at hq
            exact ⟨_, List.mem_cons_self, rfl, by simpa using hq⟩
          · obtain ⟨z, hz, h1⟩ := z4 j q (by omega) hq
            exact ⟨z, List.mem_cons_of_mem _ hz, h1⟩

/-! ### What happens to one parameter -/

def lenOf (x : Passing) : Int :=
  match x.python with
  | [.array _ _ _ l] => l.length
  | _ => 0

def lastName (o : Options) (ps : List Param) (i : Nat) : Str := (lastBufferBefore o ps i).getD []

/-- The variables that the statements of a parameter declare. -/
def effsOf (o : Options) (ps : List Param) (z : BRec) : List (Str × Var) :=
  if isBuffer o ps z.i then
    [(fromPyarray z.p.name, .refers z.p.name .data), (countOf z.p.name, .val (.data (lenOf z.x)))]
  else if isStride z.p then [(strideOf (lastName o ps z.i), .val (z.x.cpp.headD .undef))]
  else []

/-- The variable that the callee may change through the argument of a parameter. -/
def tgtOf (o : Options) (ps : List Param) (z : BRec) : Str :=
  if isBuffer o ps z.i then z.p.name
  else if isBufferSize o ps z.i then countOf (lastName o ps z.i)
  else if isStride z.p then strideOf (lastName o ps z.i)
  else z.p.name

def newOf (z : BRec) : Val := z.x.cppAfter.headD .undef

def valOf (o : Options) (ps : List Param) (z : BRec) : Val :=
  if isBuffer o ps z.i then z.x.pythonAfter.headD .undef else newOf z

def argOf (z : BRec) : Arg := z.y.args.headD (.var [])

def cOf (z : BRec) : Val := z.x.cpp.headD .undef

def Ready (o : Options) (ps : List Param) (z : BRec) (e : Env) : Prop :=
  if isBuffer o ps z.i then
    e (fromPyarray z.p.name) = some (.refers z.p.name .data) ∧
      ∃ t s l, e z.p.name = some (.val (.array t s true l)) ∧ z.x.python = [.array t s true l]
  else ∃ v, e (tgtOf o ps z) = some (.val v)

structure BFacts (code : Code) (sizes : Str → Option Nat) (o : Options) (ps : List Param) (E0 : Env) (N D : List Str)
    (All : List (Str × Var)) (z : BRec) : Prop where
  args : z.y.args = [argOf z]
  cpp : z.x.cpp = [cOf z]
  after : z.x.cppAfter = [newOf z]
  plen : z.y.news.length = z.x.python.length
  input : ∀ e, Agree N E0 e → execAll code sizes e z.y.input = .ok (setAll e (effsOf o ps z))
  keys : (effsOf o ps z).map (·.1) = z.y.input.flatMap declares
  eval : ∀ e, Agree N E0 e → (∀ kv ∈ All, e kv.1 = some kv.2) → eval code e (argOf z) = .ok (cOf z)
  ready : ∀ e, Agree N E0 e → (∀ kv ∈ All, e kv.1 = some kv.2) → Ready o ps z e
  change : ∀ e, Ready o ps z e → changed e (argOf z) (newOf z) = .ok (e.set (tgtOf o ps z) (.val (valOf o ps z)))
  tgt : tgtOf o ps z ∈ names z.y.news ∨
    ∃ b, (tgtOf o ps z = countOf b ∨ tgtOf o ps z = strideOf b) ∧ ∃ v, (tgtOf o ps z, v) ∈ All
  buffer : isBuffer o ps z.i = true → tgtOf o ps z = z.p.name ∧ z.p.name ∈ names z.y.news
  seen : ∀ e, (∀ x ∈ names z.y.news, e x = if tgtOf o ps z = x then some (.val (valOf o ps z)) else E0 x) →
    ∃ ws, contentsAll e (names z.y.news) = .ok ws ∧ ws.length = z.y.news.length ∧ seen z.y.news z.x.python ws = z.x.pythonAfter

theorem bound_head {E0 : Env} {q : Param} {v : Val} (h : Bound E0 (names [q]) [v]) : E0 q.name = some (.val v) := by
  cases h with
  | cons h _ => exact h

theorem lastName_of {o : Options} {ps : List Param} {i : Nat} {b : Str} (h : lastBufferBefore o ps i = some b) :
    lastName o ps i = b := by
  unfold lastName; rw [h]; rfl

theorem not_recognised {o : Options} {ps : List Param} {i : Nat} (h : ¬ Recognised o ps i) : isBuffer o ps i = false :=
  Bool.eq_false_iff.2 fun hc => h ((isBuffer_iff o ps i).1 hc)

theorem not_size {o : Options} {ps : List Param} {i : Nat} (h : ¬ IsSizeAt o ps i) : isBufferSize o ps i = false :=
  Bool.eq_false_iff.2 fun hc => h ((Props.bufferSize_iff o ps i).1 hc)

theorem not_stride {p : Param} (h : ¬ LooksLikeStride p) : isStride p = false :=
  Bool.eq_false_iff.2 fun hc => h ((isStride_iff p).1 hc)

theorem facts_kept {code : Code} {sizes : Str → Option Nat} {o : Options} {ps : List Param} {E0 : Env} {N D : List Str}
    {All : List (Str × Var)} {z : BRec} (hpiece : bufferPiece o ps z.i z.p = .ok z.y)
    (hb : isBuffer o ps z.i = false) (ht : o.templateBuffer z.p.type = false) (hs : isBufferSize o ps z.i = false)
    (hst : isStride z.p = false) (hk : Kept z.p z.x) (hbound : Bound E0 (names z.y.news) z.x.python)
    (hN : ∀ x ∈ names z.y.news, x ∈ N) : BFacts code sizes o ps E0 N D All z := by
  obtain ⟨i, p, y, x⟩ := z
  simp only at *
  obtain ⟨input, arg, h1, h2, rfl⟩ := bufferPiece_inv hpiece
  have hi : input = [] := by
    rcases bufferInput_inv h1 with ⟨h, _⟩ | ⟨_, h, _⟩ | ⟨h, _⟩ | ⟨_, _, h⟩
    · rw [hb] at h; simp at h
    · rw [hst] at h; simp at h
    · rw [hb] at h; simp at h
    · exact h
  have ha : arg = .var p.name := by
    rcases bufferArgs_inv h2 with ⟨h, _⟩ | ⟨_, h, _⟩ | ⟨_, _, h, _⟩ | ⟨_, _, _, h, _⟩ | ⟨_, _, _, _, h⟩
    · rw [ht] at h; simp at h
    · rw [hb] at h; simp at h
    · rw [hs] at h; simp at h
    · rw [hst] at h; simp at h
    · exact h
  subst hi; subst ha
  have hnews : bufferNews o ps i p = [p] := by unfold bufferNews; rw [hb, hst, hs]; rfl
  rw [hnews] at hbound hN ⊢
  have htgt : ∀ y x, tgtOf o ps ⟨i, p, y, x⟩ = p.name := fun y x => by unfold tgtOf; simp only; rw [hb, hst, hs]; rfl
  have heff : ∀ y x, effsOf o ps ⟨i, p, y, x⟩ = [] := fun y x => by unfold effsOf; simp only; rw [hb, hst]; rfl
  cases hk with
  | mk v v' hm =>
    have hE : E0 p.name = some (.val v) := bound_head hbound
    have hNp : p.name ∈ N := hN _ (by simp [names])
    refine ⟨rfl, rfl, rfl, rfl, ?_, ?_, ?_, ?_, ?_, ?_, ?_, ?_⟩
    · intro e _; rw [heff]; rfl
    · rw [heff]; rfl
    · intro e hA _
      exact contents_val ((hA _ hNp).symm.trans hE)
    · intro e hA _
      unfold Ready
      simp only
      rw [hb, htgt]
      exact ⟨v, (hA _ hNp).symm.trans hE⟩
    · intro e hr
      unfold Ready at hr
      simp only at hr
      rw [hb, htgt] at hr
      obtain ⟨w, hw⟩ := hr
      rw [htgt]
      show store e p.name v' = _
      rw [store_val hw]
      unfold valOf; simp only; rw [hb]; rfl
    · exact .inl (by rw [htgt]; simp [names])
    · intro h; rw [hb] at h; simp at h
    · intro e he
      have := he p.name (by simp [names])
      rw [htgt, if_pos rfl] at this
      unfold valOf at this; simp only at this; rw [hb] at this
      refine ⟨[v'], contentsAll_one (contents_val this), rfl, ?_⟩
      simp only [seen]
      split
      · rfl
      · rename_i hr
        rw [hm.1 (.inr hr)]

def bufPass (t : Str) (s : Int) (l l' : List Val) : Passing :=
  { python := [.array t s true l], cpp := [.ptr (.list l)], cppAfter := [.ptr (.list l')], pythonAfter := [.array t s true l'] }

theorem facts_buffer {code : Code} {sizes : Str → Option Nat} {o : Options} {ps : List Param} {E0 : Env} {N D : List Str}
    {All : List (Str × Var)} {i : Nat} {p : Param} {y : Piece} {t : Str} {s : Int} {l l' : List Val}
    (hc : ClearBuffers o ps) (hp : ps[i]? = some p) (hpiece : bufferPiece o ps i p = .ok y) (hb : isBuffer o ps i = true)
    (ht : o.templateBuffer p.type = true ∨ p.type.typenames.head? = some t)
    (hbound : Bound E0 (names y.news) [.array t s true l]) (hN : ∀ x ∈ names y.news, x ∈ N)
    (hD : ∀ x ∈ y.input.flatMap declares, x ∉ N)
    (hAll : ∀ kv ∈ effsOf o ps ⟨i, p, y, bufPass t s l l'⟩, kv ∈ All) :
    BFacts code sizes o ps E0 N D All ⟨i, p, y, bufPass t s l l'⟩ := by
  obtain ⟨p', hp', hl⟩ := isBufferLoop_looks hb
  rw [hp] at hp'; simp only [Option.some.injEq] at hp'; subst hp'
  have hst := (hc.clear' p (List.mem_of_getElem? hp) hl).2
  have hlast := lastBufferBefore_self hp hl
  obtain ⟨input, arg, h1, h2, rfl⟩ := bufferPiece_inv hpiece
  have hnews : bufferNews o ps i p = [bufferParam o p] := by unfold bufferNews; rw [hb]; rfl
  simp only [hnews] at *
  have hnm : names [bufferParam o p] = [p.name] := by simp [names, bufferParam_name]
  have hE : E0 p.name = some (.val (.array t s true l)) := by
    have := bound_head hbound
    rw [bufferParam_name] at this
    exact this
  have hNp : p.name ∈ N := hN _ (by rw [hnm]; simp)
  have heff : ∀ y, effsOf o ps ⟨i, p, y, bufPass t s l l'⟩ =
      [(fromPyarray p.name, .refers p.name .data), (countOf p.name, .val (.data l.length))] := fun y => by
    unfold effsOf; simp only; rw [hb]; rfl
  have htgt : ∀ y x, tgtOf o ps ⟨i, p, y, x⟩ = p.name := fun y x => by unfold tgtOf; simp only; rw [hb]; rfl
  rw [heff] at hAll
  have hd := buffer_declares hc hp hb h1
  have hne1 : p.name ≠ fromPyarray p.name := fun h => hD _ hd.1 (h ▸ hNp)
  have hne2 : p.name ≠ countOf p.name := fun h => hD _ hd.2 (h ▸ hNp)
  have hdata : ∀ (e : Env) (c : Bool), e p.name = some (.val (.array t s true l)) →
      exec code sizes e (.bufferData c (fromPyarray p.name) (countOf p.name) p.name) =
        .ok (setAll e [(fromPyarray p.name, .refers p.name .data), (countOf p.name, .val (.data l.length))]) := by
    intro e c he
    simp only [exec, contents_val he, ok_bind']
    rfl
  have harg : ∃ c, (arg = .cast c (fromPyarray p.name) ∨ ∃ k, arg = .castElem k (fromPyarray p.name)) := by
    rcases bufferArgs_inv h2 with ⟨_, h⟩ | ⟨_, _, ty, _, h⟩ | ⟨_, h, _⟩ | ⟨_, h, _⟩ | ⟨_, h, _⟩
    · exact ⟨[], .inr ⟨_, h⟩⟩
    · exact ⟨_, .inl h⟩
    · rw [hb] at h; simp at h
    · rw [hb] at h; simp at h
    · rw [hb] at h; simp at h
  have hin : ∀ e, Agree N E0 e → execAll code sizes e input = .ok (setAll e
      [(fromPyarray p.name, .refers p.name .data), (countOf p.name, .val (.data l.length))]) := by
    intro e hA
    have he : e p.name = some (.val (.array t s true l)) := (hA _ hNp).symm.trans hE
    rcases bufferInput_inv h1 with ⟨_, h3, b, ty, h4, h5, rfl⟩ | ⟨_, h, _⟩ | ⟨_, h3, _, b, h4, rfl⟩ | ⟨h, _⟩
    · rw [hlast] at h4; simp only [Option.some.injEq] at h4; subst h4
      have hty : t = ty := by
        rcases ht with h | h
        · rw [h3] at h; simp at h
        · rw [h] at h5; simpa using h5
      subst hty
      simp only [execAll]
      rw [hdata e _ he, ok_bind']
      simp only [exec]
      rw [contents_val (v := .array t s true l)]
      · simp [ok_bind']
      · simp only [setAll]
        rw [set_ne _ _ hne2, set_ne _ _ hne1]
        exact he
    · rw [hst] at h; simp at h
    · rw [hlast] at h4; simp only [Option.some.injEq] at h4; subst h4
      simp only [execAll]
      rw [hdata e _ he]
      rfl
    · rw [hb] at h; simp at h
  have hkeys : [(fromPyarray p.name, Var.refers p.name .data), (countOf p.name, .val (.data l.length))].map (·.1) =
      input.flatMap declares := by
    rcases bufferInput_inv h1 with ⟨_, h3, b, ty, h4, h5, rfl⟩ | ⟨_, h, _⟩ | ⟨_, h3, _, b, h4, rfl⟩ | ⟨h, _⟩
    · rw [hlast] at h4; simp only [Option.some.injEq] at h4; subst h4; rfl
    · rw [hst] at h; simp at h
    · rw [hlast] at h4; simp only [Option.some.injEq] at h4; subst h4; rfl
    · rw [hb] at h; simp at h
  have hev : ∀ e, Agree N E0 e → e (fromPyarray p.name) = some (.refers p.name .data) →
      contents e (fromPyarray p.name) = .ok (.ptr (.list l)) := by
    intro e hA h
    unfold contents
    rw [h]
    simp only
    rw [(hA _ hNp).symm.trans hE]
    rfl
  refine ⟨rfl, rfl, rfl, rfl, ?_, ?_, ?_, ?_, ?_, ?_, ?_, ?_⟩
  · intro e hA; rw [heff]; exact hin e hA
  · rw [heff]; exact hkeys
  · intro e hA hall
    have := hev e hA (hall _ (hAll _ List.mem_cons_self))
    obtain ⟨c, rfl | ⟨k, rfl⟩⟩ := harg
    · exact this
    · exact this
  · intro e hA hall
    unfold Ready
    simp only
    rw [hb]
    exact ⟨hall _ (hAll _ List.mem_cons_self), t, s, l, (hA _ hNp).symm.trans hE, rfl⟩
  · intro e hr
    unfold Ready at hr
    simp only at hr
    rw [hb] at hr
    obtain ⟨hr1, t', s', l2, hr2, hr3⟩ := hr
    simp only [bufPass, List.cons.injEq, Val.array.injEq, and_true, true_and] at hr3
    obtain ⟨rfl, rfl, rfl⟩ := hr3
    rw [htgt]
    have : store e (fromPyarray p.name) (.ptr (.list l')) = .ok (e.set p.name (.val (.array t s true l'))) := by
      unfold store
      rw [hr1]
      simp only
      rw [hr2]
      rfl
    have hv : ∀ y, valOf o ps ⟨i, p, y, bufPass t s l l'⟩ = .array t s true l' :=
      fun y => by unfold valOf; simp only; rw [hb]; rfl
    rw [hv]
    obtain ⟨c, rfl | ⟨k, rfl⟩⟩ := harg
    · exact this
    · exact this
  · exact .inl (by rw [htgt, hnm]; simp)
  · intro _; exact ⟨htgt _ _, by rw [hnm]; simp⟩
  · intro e he
    have := he p.name (by rw [hnm]; simp)
    rw [htgt, if_pos rfl] at this
    unfold valOf at this; simp only at this; rw [hb] at this
    refine ⟨[.array t s true l'], ?_, rfl, ?_⟩
    · rw [hnm]
      exact contentsAll_one (contents_val this)
    · simp only [seen, bufPass]
      rw [if_pos]
      refine .inl ?_
      unfold bufferParam
      split <;> exact List.mem_singleton.2 rfl

/-- The values of the buffers at the beginning. -/
def BufBound (o : Options) (ps : List Param) (xs : List Passing) (E0 : Env) (N : List Str) (All : List (Str × Var)) : Prop :=
  ∀ j b x t s l, ps[j]? = some b → xs[j]? = some x → looksLikeBuffer o b = true → x.python = [.array t s true l] →
    E0 b.name = some (.val (.array t s true l)) ∧ b.name ∈ N ∧
    (isBuffer o ps j = true → (countOf b.name, .val (.data l.length)) ∈ All)

theorem arrayBefore_last {o : Options} {ps : List Param} {xs : List Passing} {i : Nat} {t : Str} {s : Int} {l : List Val}
    (h : ArrayBefore o ps xs i t s l) {b : Str} (hb : lastBufferBefore o ps i = some b) :
    ∃ j q x, j ≤ i ∧ ps[j]? = some q ∧ q.name = b ∧ looksLikeBuffer o q = true ∧ xs[j]? = some x ∧
      x.python = [.array t s true l] ∧ ∀ k q, j < k → k ≤ i → ps[k]? = some q → ¬ LooksLikeBuffer o q := by
  obtain ⟨j, hj, ⟨q, hq, hl⟩, hno, x, hx, hpy⟩ := h
  obtain ⟨q', ⟨j', hj', hq', hl', hno'⟩, hname⟩ := lastBuffer_spec hb
  have : j = j' := by
    rcases Nat.lt_trichotomy j j' with h | h | h
    · exact absurd hl' (hno j' q' h hj' hq')
    · exact h
    · exact absurd hl (hno' j q h hj hq)
  subst this
  rw [hq] at hq'
  simp only [Option.some.injEq] at hq'
  subst hq'
  exact ⟨j, q, x, hj, hq, hname, (looksLikeBuffer_iff o q).2 hl, hx, hpy, hno⟩

theorem size_input {o : Options} {ps : List Param} (hc : ClearBuffers o ps) {i : Nat} {p : Param} (hp : ps[i]? = some p)
    (hs : isBufferSize o ps i = true) : looksLikeBuffer o p = false ∧ isBuffer o ps i = false ∧ ∃ j q, i = j + 1 ∧ ps[j]? = some q ∧
      isBuffer o ps j = true ∧ lastBufferBefore o ps i = some q.name ∧ looksLikeBuffer o q = true := by
  obtain ⟨j, q, p', rfl, hq, hp', hlq, hsp, hbj⟩ := size_inv hs
  rw [hp] at hp'; simp only [Option.some.injEq] at hp'; subst hp'
  have hnl : looksLikeBuffer o p = false := Bool.eq_false_iff.2 fun hcon => by
    have := (hc.clear' p (List.mem_of_getElem? hp) hcon).1
    rw [this] at hsp; simp at hsp
  refine ⟨hnl, Bool.eq_false_iff.2 fun hb => ?_, j, q, rfl, hq, hbj, ?_, hlq⟩
  · obtain ⟨p', hp', hl⟩ := isBufferLoop_looks hb
    rw [hp] at hp'; simp only [Option.some.injEq] at hp'; subst hp'
    rw [hnl] at hl; simp at hl
  · rw [lastBufferBefore_skip hp hnl, lastBufferBefore_self hq hlq]

theorem facts_size {code : Code} {sizes : Str → Option Nat} {o : Options} {ps : List Param} {xs : List Passing} {E0 : Env} {N D : List Str}
    {All : List (Str × Var)} {i : Nat} {p : Param} {y : Piece} {t : Str} {s : Int} {l : List Val} {w : Val}
    (hc : ClearBuffers o ps) (hp : ps[i]? = some p) (hpiece : bufferPiece o ps i p = .ok y) (hs : isBufferSize o ps i = true)
    (hst : isStride p = false) (hbefore : ArrayBefore o ps xs i t s l) (hbb : BufBound o ps xs E0 N All) :
    BFacts code sizes o ps E0 N D All ⟨i, p, y, { python := [], cpp := [.data l.length], cppAfter := [w], pythonAfter := [] }⟩ := by
  obtain ⟨hnl, hb, j, q, rfl, hq, hbj, hlast, hlq⟩ := size_input hc hp hs
  obtain ⟨input, arg, h1, h2, rfl⟩ := bufferPiece_inv hpiece
  have ht : o.templateBuffer p.type = false := Bool.eq_false_iff.2 fun h => by
    simp [looksLikeBuffer, h] at hnl
  have hi : input = [] := by
    rcases bufferInput_inv h1 with ⟨h, _⟩ | ⟨_, h, _⟩ | ⟨h, _⟩ | ⟨_, _, h⟩
    · rw [hb] at h; simp at h
    · rw [hst] at h; simp at h
    · rw [hb] at h; simp at h
    · exact h
  have ha : ∃ ty, arg = .cast ty (countOf q.name) := by
    rcases bufferArgs_inv h2 with ⟨h, _⟩ | ⟨_, h, _⟩ | ⟨_, _, _, b, ty, hb', _, h⟩ | ⟨_, _, h, _⟩ | ⟨_, _, h, _⟩
    · rw [ht] at h; simp at h
    · rw [hb] at h; simp at h
    · rw [hlast] at hb'; simp only [Option.some.injEq] at hb'; subst hb'; exact ⟨ty, h⟩
    · rw [hs] at h; simp at h
    · rw [hs] at h; simp at h
  obtain ⟨ty, rfl⟩ := ha
  subst hi
  have hnews : bufferNews o ps (j + 1) p = [] := by unfold bufferNews; rw [hb, hst, hs]; rfl
  simp only [hnews]
  have htgt : ∀ y x, tgtOf o ps ⟨j + 1, p, y, x⟩ = countOf q.name := fun y x => by
    unfold tgtOf; simp only; rw [hb, hs, lastName_of hlast]; rfl
  have heff : ∀ y x, effsOf o ps ⟨j + 1, p, y, x⟩ = [] := fun y x => by unfold effsOf; simp only; rw [hb, hst]; rfl
  obtain ⟨j', q', x, _, hq', hname, hlq', hx, hpy, hno⟩ := arrayBefore_last hbefore hlast
  have hjj : j' = j := by
    rcases Nat.lt_trichotomy j' j with h | h | h
    · exact absurd ((looksLikeBuffer_iff o q).1 hlq) (hno j q h (by omega) hq)
    · exact h
    · have : j' = j + 1 := by omega
      subst this
      rw [hp] at hq'; simp only [Option.some.injEq] at hq'; subst hq'
      rw [hnl] at hlq'; simp at hlq'
  subst hjj
  obtain ⟨_, _, hall⟩ := hbb j' q x t s l hq hx hlq hpy
  have hmem := hall hbj
  refine ⟨rfl, rfl, rfl, rfl, ?_, ?_, ?_, ?_, ?_, ?_, ?_, ?_⟩
  · intro e _; rw [heff]; rfl
  · rw [heff]; rfl
  · intro e _ ha
    exact contents_val (ha _ hmem)
  · intro e _ ha
    unfold Ready
    simp only
    rw [hb, htgt]
    exact ⟨_, ha _ hmem⟩
  · intro e hr
    unfold Ready at hr
    simp only at hr
    rw [hb, htgt] at hr
    obtain ⟨v, hv⟩ := hr
    rw [htgt]
    show store e (countOf q.name) w = _
    rw [store_val hv]
    unfold valOf; simp only; rw [hb]; rfl
  · exact .inr ⟨q.name, .inl (htgt _ _), _, by rw [htgt]; exact hmem⟩
  · intro h; rw [hb] at h; simp at h
  · intro e _
    exact ⟨[], rfl, rfl, rfl⟩

def stridePass (k s : Int) (w : Val) : Passing :=
  { python := [.data k], cpp := [.data (if k = -1 then s else k)], cppAfter := [w], pythonAfter := [.data k] }

theorem facts_stride {code : Code} {sizes : Str → Option Nat} {o : Options} {ps : List Param} {xs : List Passing} {E0 : Env} {N D : List Str}
    {All : List (Str × Var)} {i : Nat} {p : Param} {y : Piece} {t : Str} {s k : Int} {l : List Val} {w : Val}
    (hc : ClearBuffers o ps) (hp : ps[i]? = some p) (hpiece : bufferPiece o ps i p = .ok y) (hs : isBufferSize o ps i = false)
    (hst : isStride p = true) (hbefore : ArrayBefore o ps xs i t s l) (hbb : BufBound o ps xs E0 N All)
    (hbound : Bound E0 (names y.news) [.data k]) (hN : ∀ x ∈ names y.news, x ∈ N)
    (hD : ∀ x ∈ y.input.flatMap declares, x ∉ N)
    (hAll : ∀ kv ∈ effsOf o ps ⟨i, p, y, stridePass k s w⟩, kv ∈ All) :
    BFacts code sizes o ps E0 N D All ⟨i, p, y, stridePass k s w⟩ := by
  have hnl : looksLikeBuffer o p = false := Bool.eq_false_iff.2 fun hcon => by
    rw [(hc.clear' p (List.mem_of_getElem? hp) hcon).2] at hst; simp at hst
  have hb : isBuffer o ps i = false := Bool.eq_false_iff.2 fun hb => by
    obtain ⟨p', hp', hl⟩ := isBufferLoop_looks hb
    rw [hp] at hp'; simp only [Option.some.injEq] at hp'; subst hp'
    rw [hnl] at hl; simp at hl
  have ht : o.templateBuffer p.type = false := Bool.eq_false_iff.2 fun h => by
    simp [looksLikeBuffer, h] at hnl
  obtain ⟨input, arg, h1, h2, rfl⟩ := bufferPiece_inv hpiece
  have hi : ∃ b, lastBufferBefore o ps i = some b ∧ input = [.stride (strideOf b) p.name b] := by
    rcases bufferInput_inv h1 with ⟨h, _⟩ | ⟨_, _, b, h, h'⟩ | ⟨h, _⟩ | ⟨_, h, _⟩
    · rw [hb] at h; simp at h
    · exact ⟨b, h, h'⟩
    · rw [hb] at h; simp at h
    · rw [hst] at h; simp at h
  obtain ⟨b, hlast, rfl⟩ := hi
  have ha : ∃ ty, arg = .cast ty (strideOf b) ∨ arg = .var (strideOf b) := by
    rcases bufferArgs_inv h2 with ⟨h, _⟩ | ⟨_, h, _⟩ | ⟨_, _, h, _⟩ | ⟨_, _, _, _, b', ty, hb', _, h⟩ | ⟨_, _, _, h, _⟩
    · rw [ht] at h; simp at h
    · rw [hb] at h; simp at h
    · rw [hs] at h; simp at h
    · rw [hlast] at hb'; simp only [Option.some.injEq] at hb'; subst hb'
      refine ⟨ty, ?_⟩
      split at h
      · exact .inl h
      · exact .inr h
    · rw [hst] at h; simp at h
  have hnews : bufferNews o ps i p = [strideParam p] := by unfold bufferNews; rw [hb, hst]; rfl
  simp only [hnews] at *
  have hnm : names [strideParam p] = [p.name] := rfl
  have hE : E0 p.name = some (.val (.data k)) := bound_head hbound
  have hNp : p.name ∈ N := hN _ (by rw [hnm]; simp)
  have htgt : ∀ y x, tgtOf o ps ⟨i, p, y, x⟩ = strideOf b := fun y x => by
    unfold tgtOf; simp only; rw [hb, hs, hst, lastName_of hlast]; rfl
  have heff : ∀ y x, effsOf o ps ⟨i, p, y, x⟩ = [(strideOf b, .val (x.cpp.headD .undef))] := fun y x => by
    unfold effsOf; simp only; rw [hb, hst, lastName_of hlast]; rfl
  rw [heff] at hAll
  have hmem := hAll _ List.mem_cons_self
  have hne : p.name ≠ strideOf b := fun h => hD (strideOf b) (by simp [declares]) (h ▸ hNp)
  obtain ⟨j, q, x, _, hq, rfl, hlq, hx, hpy, _⟩ := arrayBefore_last hbefore hlast
  obtain ⟨hEb, hNb, _⟩ := hbb j q x t s l hq hx hlq hpy
  refine ⟨rfl, rfl, rfl, rfl, ?_, ?_, ?_, ?_, ?_, ?_, ?_, ?_⟩
  · intro e hA
    rw [heff]
    simp only [execAll, exec]
    rw [contents_val ((hA _ hNp).symm.trans hE)]
    simp only [ok_bind']
    rw [contents_val ((hA _ hNb).symm.trans hEb)]
    rfl
  · rw [heff]; rfl
  · intro e _ hall
    obtain ⟨ty, rfl | rfl⟩ := ha
    · exact contents_val (hall _ hmem)
    · exact contents_val (hall _ hmem)
  · intro e _ hall
    unfold Ready
    simp only
    rw [hb, htgt]
    exact ⟨_, hall _ hmem⟩
  · intro e hr
    unfold Ready at hr
    simp only at hr
    rw [hb, htgt] at hr
    obtain ⟨v, hv⟩ := hr
    rw [htgt]
    have : store e (strideOf q.name) w = .ok (e.set (strideOf q.name) (.val w)) := store_val hv w
    have hvv : ∀ y, valOf o ps ⟨i, p, y, stridePass k s w⟩ = w :=
      fun y => by unfold valOf; simp only; rw [hb]; rfl
    rw [hvv]
    obtain ⟨ty, rfl | rfl⟩ := ha
    · exact this
    · exact this
  · exact .inr ⟨q.name, .inr (htgt _ _), _, by rw [htgt]; exact hmem⟩
  · intro h; rw [hb] at h; simp at h
  · intro e he
    have := he p.name (by rw [hnm]; simp)
    rw [htgt, if_neg (Ne.symm hne), hE] at this
    refine ⟨[.data k], ?_, rfl, ?_⟩
    · rw [hnm]; exact contentsAll_one (contents_val this)
    · simp only [seen, stridePass]
      rw [ite_self]

end Verif.Adapt
