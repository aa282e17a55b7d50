import Verif.Adapt.Model

/-! Vocabulary of the properties C33 to C36. -/

namespace Verif.Adapt.Spec
open Verif.Py Verif.Type
open scoped List

/-- The parameters of what the lambda number `i` of an adapted function calls: the C++ function for the first lambda, the
previous lambda for the others. -/
def calledParams (cppParams : List Param) (lambdas : List Lambda) : Nat → List Param
  | 0 => cppParams
  | i + 1 => match lambdas[i]? with
    | some l => l.params
    | none => cppParams

/-- The name of what the lambda number `i` calls (`none` for the C++ function). -/
def calledName (lambdas : List Lambda) : Nat → Option Str
  | 0 => none
  | i + 1 => (lambdas[i]?).map (·.name)

/-- The parameter has a default value. -/
def HasDefault (p : Param) : Prop := p.default ≠ []

/-- Every parameter after one that has a default value has a default value. -/
def TrailingDefaults (ps : List Param) : Prop :=
  ∀ (i j : Nat) (p q : Param), i < j → ps[i]? = some p → ps[j]? = some q → HasDefault p → HasDefault q

/-- `const char *items[]` or `const char **items`, without default value or with a null one. -/
def IsStringList (p : Param) : Prop :=
  "const".toList ∈ p.type.specifiers ∧ p.type.typenames = ["char".toList] ∧
  (p.type.modifiers.count "*".toList = 2 ∧ p.arrayCode = [] ∨ p.type.modifiers.count "*".toList = 1 ∧ p.arrayCode ≠ []) ∧
  (p.default = [] ∨ p.default = "NULL".toList ∨ p.default = "nullptr".toList)

/-- The user asked to hide the parameter, and it has a default value. -/
def Excluded (o : Options) (p : Param) : Prop :=
  (o.excludeName p.name = true ∨ o.excludeType p.type = true) ∧ HasDefault p

/-- The variables that an argument reads. -/
def argReads : Arg → List Str
  | .var x => [x]
  | .data x => [x]
  | .code _ => []
  | .cast _ x => [x]
  | .castElem _ x => [x]

/-- The variables that a statement declares. -/
def declares : Stmt → List Str
  | .stringPtrs l _ => [l]
  | .sizeOf _ l _ => [l]
  | .bind _ l _ _ => [l]
  | .bindOrNull _ l _ _ => [l]
  | .orDefault _ l _ _ => [l]
  | .rawArray _ l _ _ => [l]
  | .setItem _ _ _ _ => []
  | .getItem _ _ _ _ => []
  | .bufferData _ l count _ => [l, count]
  | .checkType _ _ => []
  | .stride l _ _ => [l]

/-- The variables that a statement reads or changes. -/
def reads : Stmt → List Str
  | .stringPtrs _ x => [x]
  | .sizeOf _ _ x => [x]
  | .bind _ _ x _ => [x]
  | .bindOrNull _ _ x _ => [x]
  | .orDefault _ _ x _ => [x]
  | .rawArray _ _ _ _ => []
  | .setItem l _ x _ => [l, x]
  | .getItem x _ l _ => [x, l]
  | .bufferData _ _ _ x => [x]
  | .checkType x _ => [x]
  | .stride _ x b => [x, b]

/-- The variables that the end of the lambda reads. -/
def retReads : Ret → List Str
  | .forward => []
  | .values _ outs => outs
  | .dispatch x others => x :: others

/-- Every variable that a sequence of statements reads is in `scope` or declared by a previous statement. -/
def Scoped : List Str → List Stmt → Prop
  | _, [] => True
  | scope, s :: r => (∀ x ∈ reads s, x ∈ scope) ∧ Scoped (scope ++ declares s) r

/-- Every variable that the lambda reads is one of its parameters or was declared before. -/
def WellScoped (l : Lambda) : Prop :=
  let params := l.params.map (·.name)
  let locals := l.input.flatMap declares
  Scoped params l.input ∧
  (∀ a ∈ l.args, ∀ x ∈ argReads a, x ∈ params ++ locals) ∧
  Scoped (params ++ locals) l.output ∧
  (∀ x ∈ retReads l.ret, x ∈ params ++ locals)

/-! ### Conditions on the C++ parameters -/

/-- No C string list has a name that looks like the name of a size. -/
def NoListNamedSize (o : Options) (ps : List Param) : Prop := ∀ p ∈ ps, IsStringList p → o.bufferSizeName p.name = false

/-- If the parameter has a default value then it is neither an array nor a C string list. -/
def NoArrayDefault (p : Param) : Prop := HasDefault p → p.arrayCode = [] ∧ ¬ IsStringList p

/-- The name of the item `i` of an array. -/
def item (x : Str) (i : Nat) : Str := x ++ '_' :: (toString i).toList

/-- Names are non-empty, distinct, and none is the name of an item of another array. -/
structure GoodNames (ps : List Param) : Prop where
  nonempty : ∀ p ∈ ps, p.name ≠ []
  nodup : (ps.map (·.name)).Nodup
  noItem : ∀ p ∈ ps, ∀ q ∈ ps, q.arrayCode ≠ [] → ∀ i, p.name ≠ item q.name i

/-- The type of the parameter is one of the types of buffers of the options. -/
def LooksLikeBuffer (o : Options) (p : Param) : Prop := o.standardBuffer p.type = true ∨ o.templateBuffer p.type = true

/-- A parameter whose default value starts with `sizeof`. -/
def LooksLikeStride (p : Param) : Prop := "sizeof".toList <+: strip p.default

/-- The parameter number `i` is the first of at most five buffers which are followed by a size. -/
def Recognised (o : Options) (ps : List Param) (i : Nat) : Prop :=
  ∃ k < 5, (∀ j ≤ k, ∃ p, ps[i + j]? = some p ∧ LooksLikeBuffer o p) ∧
    ∃ q, ps[i + k + 1]? = some q ∧ o.bufferSizeName q.name = true

/-- The buffers are recognised without ambiguity: a parameter that looks like a buffer looks neither like a size nor
like a stride, and a pointer to a template type is always followed by a size. -/
structure ClearBuffers (o : Options) (ps : List Param) : Prop where
  clear : ∀ p ∈ ps, LooksLikeBuffer o p → o.bufferSizeName p.name = false ∧ ¬ LooksLikeStride p
  template : ∀ i p, ps[i]? = some p → o.templateBuffer p.type = true → Recognised o ps i

end Verif.Adapt.Spec
