import Verif.Exclude.Model
import Verif.Unit.Model
import Verif.Ignore.Props
import Verif.Fn.StubText

/-! C120: what the option `comments_exclude` takes out. -/

namespace Verif.Exclude.Props
open Verif.Py Verif.Exclude

def cls : Node → Cls | .mk c _ _ _ _ => c
def comments : Node → Comments | .mk _ c _ _ _ => c
def text : Node → Str | .mk _ _ t _ _ => t
def head : Node → List Node | .mk _ _ _ h _ => h
def parts : Node → List Node | .mk _ _ _ _ p => p

/-- `m` is `n`, or is met below it; what the head of a function with a body holds is not counted. -/
inductive Below : Node → Node → Prop
  | self (n : Node) : Below n n
  | part {n p m : Node} : p ∈ parts n → Below p m → Below n m
  | head {n p m : Node} : p ∈ head n → cls n ≠ .body → Below p m → Below n m

theorem removeList_eq : ∀ l : List Node, removeList l = l.map removeAll
  | [] => rfl
  | n :: l => by rw [removeList, removeList_eq l]; rfl

theorem cls_removeAll (n : Node) : cls (removeAll n) = cls n := by
  cases n; rw [removeAll]; rfl

theorem parts_removeAll (n : Node) : parts (removeAll n) = (parts n).map removeAll := by
  cases n; rw [removeAll]; exact removeList_eq _

theorem head_removeAll (n : Node) (h : cls n ≠ .body) : head (removeAll n) = (head n).map removeAll := by
  cases n with
  | mk c k t hd p =>
    rw [removeAll, if_neg (show ¬ c = .body from h)]; exact removeList_eq _

/-- C120: no element has a comment before it or at the end of its line. -/
theorem C120_removed (n m : Node) (h : Below (unitToAdapt true n) m) (hm : cls m ≠ .bare) :
    comments m = ⟨[], []⟩ := by
  have key : ∀ k m : Node, Below k m → ∀ n, k = removeAll n → ∃ n', m = removeAll n' := by
    intro k m h
    induction h with
    | self k => intro n e; exact ⟨n, e⟩
    | part hp _ ih =>
      intro n e
      rw [e, parts_removeAll] at hp
      obtain ⟨p, _, e'⟩ := List.mem_map.1 hp
      exact ih p e'.symm
    | head hp hc _ ih =>
      intro n e
      rw [e] at hp hc
      rw [cls_removeAll] at hc
      rw [head_removeAll n hc] at hp
      obtain ⟨p, _, e'⟩ := List.mem_map.1 hp
      exact ih p e'.symm
  obtain ⟨n', e⟩ := key _ m h n rfl
  rw [e] at hm ⊢
  rw [cls_removeAll] at hm
  cases n' with
  | mk c k t hd p => rw [removeAll]; exact if_neg hm

mutual
/-- An element without regard to its comments. -/
def forget : Node → Node
  | .mk c _ t h p => .mk c ⟨[], []⟩ t (forgetList h) (forgetList p)
def forgetList : List Node → List Node
  | [] => []
  | n :: l => forget n :: forgetList l
end

mutual
theorem forget_removeAll : ∀ n : Node, forget (removeAll n) = forget n
  | .mk c k t h p => by
    rw [removeAll, forget, forget, forget_removeList p]
    by_cases hc : c = .body
    · rw [if_pos hc]
    · rw [if_neg hc, forget_removeList h]
theorem forget_removeList : ∀ l : List Node, forgetList (removeList l) = forgetList l
  | [] => rfl
  | n :: l => by rw [removeList, forgetList, forgetList, forget_removeAll n, forget_removeList l]
end

/-- C120: nothing but comments changes: the same elements, in the same order, with the same text. -/
theorem C120_rest (exclude : Bool) (n : Node) : forget (unitToAdapt exclude n) = forget n := by
  cases exclude with
  | false => rfl
  | true => exact forget_removeAll n

/-- C120: without the option the unit is adapted as it is. -/
theorem C120_off (n : Node) : unitToAdapt false n = n := rfl

/-- C120: the comments of the parameters, the returned type and the template of a function with a body are left. -/
theorem C120_head_of_body (n : Node) (h : cls n = .body) : head (unitToAdapt true n) = head n := by
  cases n with
  | mk c k t hd p =>
    show head (removeAll _) = _
    rw [removeAll, if_pos (show c = .body from h)]; rfl

/-! ### Lonely comments -/

mutual
/-- The texts of the lonely comments, in order. -/
def lonely : Node → List Str
  | .mk c _ t _ p => (if c = .comment then [t] else []) ++ lonelyList p
def lonelyList : List Node → List Str
  | [] => []
  | n :: l => lonely n ++ lonelyList l
end

mutual
theorem lonely_removeAll : ∀ n : Node, lonely (removeAll n) = lonely n
  | .mk c k t h p => by rw [removeAll, lonely, lonely, lonely_removeList p]
theorem lonely_removeList : ∀ l : List Node, lonelyList (removeList l) = lonelyList l
  | [] => rfl
  | n :: l => by rw [removeList, lonelyList, lonelyList, lonely_removeAll n, lonely_removeList l]
end

/-- The lines of the stub for a lonely comment. -/
def stubOf (o : Unit.Options) (text : Str) : List Str :=
  match Unit.commentEl o text with
  | .leaf _ _ s _ => s.stubLines
  | .ns .. => []

/-- Full statement: with the option, the stub has no line for a comment. -/
def C120_lonely_statement : Prop :=
  ∀ (o : Unit.Options) (n : Node), (lonely (unitToAdapt true n)).flatMap (stubOf o) = []

/-- C120: the lonely comments are all still there. -/
theorem C120_lonely_kept (exclude : Bool) (n : Node) : lonely (unitToAdapt exclude n) = lonely n := by
  cases exclude with
  | false => rfl
  | true => exact lonely_removeAll n

theorem stubOf_eq (o : Unit.Options) (t : Str) : stubOf o t = (lines (o.comment t)).map (Unit.addHash o) := rfl

/-- C120: the stub has no line for a comment exactly when the code has no lonely comment. -/
theorem C120_lonely_partial (o : Unit.Options) (n : Node) :
    (lonely (unitToAdapt true n)).flatMap (stubOf o) = [] ↔ lonely n = [] := by
  rw [C120_lonely_kept]
  constructor
  · intro h
    cases hl : lonely n with
    | nil => rfl
    | cons t l =>
      rw [hl, List.flatMap_cons, List.append_eq_nil_iff, stubOf_eq, List.map_eq_nil_iff] at h
      exact absurd h.1 (lines_ne_nil _)
  · intro h; rw [h]; rfl

def demoU : Unit.Options where
  nanobind := false
  roots := []
  cppIndent := "    ".toList
  pyIndent := "    ".toList
  reproduceLayout := true
  nsName := id
  comment := id
  custom := fun _ _ _ => none
  main := fun _ => none
  excludeClass := fun _ => false
  excludeEnum := fun _ => false
  excludeNs := fun _ => false
  includeMacro := fun _ => false
  includeGlobal := fun _ => false

/-- C120: the full statement is false: a lonely comment is in the stub. -/
theorem C120_lonely_fails : ¬ C120_lonely_statement := by
  intro h
  have := (C120_lonely_partial demoU (.mk .comment ⟨[], []⟩ "Section".toList [] [])).1 (h demoU _)
  rw [lonely, if_pos rfl] at this
  cases this

def demo : Node := .mk .other ⟨[], []⟩ [] []
  [.mk .comment ⟨[], []⟩ " A section".toList [] [],
   .mk .body ⟨" Adds".toList, " reference".toList⟩ [] [.mk .other ⟨[], " the number".toList⟩ [] [] []] [],
   .mk .other ⟨" A class".toList, []⟩ [] [.mk .other ⟨[], " of numbers".toList⟩ [] [] []] []]

example : (parts (unitToAdapt true demo)).map comments = [⟨[], []⟩, ⟨[], []⟩, ⟨[], []⟩] ∧
    ((parts (unitToAdapt true demo)).map head).map (·.map comments) = [[], [⟨[], " the number".toList⟩], [⟨[], []⟩]] ∧
    lonely (unitToAdapt true demo) = [" A section".toList] := by decide +kernel

example : Below (unitToAdapt true demo) (.mk .other ⟨[], []⟩ [] [] []) ∧ cls (.mk .other ⟨[], []⟩ [] [] []) ≠ .bare :=
  ⟨.part (p := .mk .other ⟨[], []⟩ [] [.mk .other ⟨[], []⟩ [] [] []] [])
      (by simp [demo, unitToAdapt, removeAll, removeList, parts, visitor])
      (.head (p := .mk .other ⟨[], []⟩ [] [] []) (by simp [head]) (by decide) (.self _)), by decide⟩

/-! ### What functions ask for in their comments -/

open Verif.Fn in
/-- The function without its comments. -/
def bare (f : Func) : Func := { f with previous := [], eol := [] }

theorem fromToken_nil {t : Str} (h : t ≠ []) : Fn.fromToken t [] = none := by rw [Fn.fromToken, if_neg h]

theorem fromToken_absent {t s : Str} (hne : t ≠ []) (h : ¬ t <:+: s) : Fn.fromToken t s = none := by
  cases e : Fn.fromToken t s with
  | none => rfl
  | some u =>
    obtain ⟨b, a, _, h2, _⟩ := Fn.Props.fromToken_some t s u hne e
    exact absurd ⟨b, a, h2.symm⟩ h

theorem word_absent {t s : Str} (hne : t ≠ []) (h : ¬ t <:+: s) : Fn.findWordAfterToken s t = none := by
  rw [Fn.findWordAfterToken, fromToken_absent hne h]; rfl

/-- The words that ask for something, in a comment. -/
def asks : List Str :=
  ["return_value_policy::".toList, "rv_policy::".toList, "py::keep_alive".toList, "nb::keep_alive".toList,
   "py::call_guard".toList, "nb::call_guard".toList]

theorem asks_ne : ∀ t ∈ asks, t ≠ [] := by decide +kernel

theorem infix_nil_of {t : Str} (h : t ≠ []) : ¬ t <:+: [] := fun e => h (List.infix_nil.1 e)

theorem policy_absent {previous eol : Str} (h1 : ∀ t ∈ asks, ¬ t <:+: previous) (h2 : ∀ t ∈ asks, ¬ t <:+: eol) :
    Fn.policyFromComments previous eol = none := by
  have a1 : "return_value_policy::".toList ∈ asks := List.mem_cons_self ..
  have a2 : "rv_policy::".toList ∈ asks := List.mem_cons_of_mem _ (List.mem_cons_self ..)
  unfold Fn.policyFromComments Fn.policyInComments
  generalize "return_value_policy::".toList = t at a1 ⊢
  generalize "rv_policy::".toList = u at a2 ⊢
  rw [word_absent (asks_ne t a1) (h2 t a1), word_absent (asks_ne t a1) (h1 t a1), word_absent (asks_ne u a2) (h2 u a2),
    word_absent (asks_ne u a2) (h1 u a2)]

theorem named_absent {o : Fn.Options} {s what : Str} (h1 : ¬ "py::".toList ++ what <:+: s) (h2 : ¬ "nb::".toList ++ what <:+: s) :
    Fn.policyNamed o s what = none := by
  have n1 : "py::".toList ++ what ≠ [] := fun e => by
    have := (List.append_eq_nil_iff.1 e).1
    revert this; decide
  have n2 : "nb::".toList ++ what ≠ [] := fun e => by
    have := (List.append_eq_nil_iff.1 e).1
    revert this; decide
  unfold Fn.policyNamed Fn.callPolicy
  rw [fromToken_absent n1 h1, fromToken_absent n2 h2]
  rfl

/-- What the comments of a function ask for: the policy of the returned value, what keeps objects alive, guards around the call, and
`# type: ignore`. -/
def requests (o : Fn.Options) (f : Fn.Func) : Str × Option Str × Option Str × Bool :=
  (Fn.fillPolicy o f.previous f.eol f.name f.ret, Fn.keepAlive o f, Fn.callGuard o f,
    (Ignore.adapt (f.ret.map (·.typenames)) f.eol).1)

/-- Full statement: taking the comments out does not change how a function is called. -/
def C120_requests_statement : Prop := ∀ (o : Fn.Options) (f : Fn.Func), requests o (bare f) = requests o f

/-- C120: nothing changes for the functions whose comments ask for nothing. -/
theorem C120_requests_partial (o : Fn.Options) (f : Fn.Func) (h1 : ∀ t ∈ asks, ¬ t <:+: f.previous)
    (h2 : ∀ t ∈ asks, ¬ t <:+: f.eol) (h3 : ∀ t ∈ asks, ¬ t <:+: Fn.commentsAsStr f) (h4 : ¬ "type: ignore".toList <:+: f.eol) :
    requests o (bare f) = requests o f := by
  have p0 : Fn.policyFromComments (bare f).previous (bare f).eol = none :=
    policy_absent (fun t ht => infix_nil_of (asks_ne t ht)) (fun t ht => infix_nil_of (asks_ne t ht))
  have p1 : Fn.fillPolicy o (bare f).previous (bare f).eol (bare f).name (bare f).ret =
      Fn.fillPolicy o f.previous f.eol f.name f.ret := by
    unfold Fn.fillPolicy
    rw [policy_absent h1 h2, p0]; rfl
  have named : ∀ what s, ("py::".toList ++ what) ∈ asks → ("nb::".toList ++ what) ∈ asks → (∀ t ∈ asks, ¬ t <:+: s) →
      Fn.policyNamed o s what = none := fun what s m1 m2 hs => named_absent (hs _ m1) (hs _ m2)
  have empty : ∀ t ∈ asks, ¬ t <:+: Fn.commentsAsStr (bare f) := fun t ht => infix_nil_of (asks_ne t ht)
  have k1 : "py::".toList ++ "keep_alive".toList ∈ asks := by decide +kernel
  have k2 : "nb::".toList ++ "keep_alive".toList ∈ asks := by decide +kernel
  have g1 : "py::".toList ++ "call_guard".toList ∈ asks := by decide +kernel
  have g2 : "nb::".toList ++ "call_guard".toList ∈ asks := by decide +kernel
  have p2 : Fn.keepAlive o (bare f) = Fn.keepAlive o f := by
    unfold Fn.keepAlive
    rw [named _ _ k1 k2 empty, named _ _ k1 k2 h3]
  have p3 : Fn.callGuard o (bare f) = Fn.callGuard o f := by
    unfold Fn.callGuard
    rw [named _ _ g1 g2 empty, named _ _ g1 g2 h3]
    rfl
  have p4 : (Ignore.adapt ((bare f).ret.map (·.typenames)) (bare f).eol).1 = (Ignore.adapt (f.ret.map (·.typenames)) f.eol).1 := by
    have a : (Ignore.adapt ((bare f).ret.map (·.typenames)) (bare f).eol).1 = false := rfl
    have b : (Ignore.adapt (f.ret.map (·.typenames)) f.eol).1 = false := by
      cases e : (Ignore.adapt (f.ret.map (·.typenames)) f.eol).1 with
      | false => rfl
      | true => exact absurd ((Ignore.Props.C118_flag _ _).1 e) h4
    rw [a, b]
  unfold requests
  rw [p1, p2, p3, p4]

/-- C120: what is left is what the options and the returned type ask for. -/
theorem C120_requests_lost (o : Fn.Options) (f : Fn.Func) :
    Fn.policyFromComments (bare f).previous (bare f).eol = none ∧ Fn.keepAlive o (bare f) = none ∧
      (o.gilGuard f.name = false → Fn.callGuard o (bare f) = none) ∧
      (Ignore.adapt (f.ret.map (·.typenames)) (bare f).eol).1 = false := by
  have empty : ∀ t ∈ asks, ¬ t <:+: Fn.commentsAsStr (bare f) := fun t ht => infix_nil_of (asks_ne t ht)
  refine ⟨policy_absent (fun t ht => infix_nil_of (asks_ne t ht)) (fun t ht => infix_nil_of (asks_ne t ht)), ?_, ?_, rfl⟩
  · unfold Fn.keepAlive
    exact named_absent (empty _ (by decide +kernel)) (empty _ (by decide +kernel))
  · intro hg
    unfold Fn.callGuard
    have : o.gilGuard (bare f).name = false := hg
    rw [this, named_absent (empty _ (by decide +kernel)) (empty _ (by decide +kernel))]
    rfl

def asking : Fn.Func := { Fn.demoF with eol := " return_value_policy::reference".toList }

/-- C120: the full statement is false: the policy of the returned value is a comment. -/
theorem C120_requests_fails : ¬ C120_requests_statement := by
  intro h
  have := congrArg Prod.fst (h Fn.demoO asking)
  revert this
  decide +kernel

theorem no_infix {s t : Str} (h : contains s t = false) : ¬ t <:+: s := by
  rintro ⟨a, b, e⟩
  rw [(contains_iff s t).2 ⟨a, b, e.symm⟩] at h
  cases h

example : (∀ t ∈ asks, ¬ t <:+: Fn.demoF.previous) ∧ (∀ t ∈ asks, ¬ t <:+: Fn.demoF.eol) ∧
    (∀ t ∈ asks, ¬ t <:+: Fn.commentsAsStr Fn.demoF) ∧ ¬ "type: ignore".toList <:+: Fn.demoF.eol :=
  ⟨fun t ht => no_infix ((by decide +kernel : ∀ t ∈ asks, contains Fn.demoF.previous t = false) t ht),
    fun t ht => no_infix ((by decide +kernel : ∀ t ∈ asks, contains Fn.demoF.eol t = false) t ht),
    fun t ht => no_infix ((by decide +kernel : ∀ t ∈ asks, contains (Fn.commentsAsStr Fn.demoF) t = false) t ht),
    no_infix (by decide +kernel)⟩

example : (requests Fn.demoO Fn.demoF).1 = [] ∧ (requests Fn.demoO asking).1 = "reference".toList := by decide +kernel

end Verif.Exclude.Props
