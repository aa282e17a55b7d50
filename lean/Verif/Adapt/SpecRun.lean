import Verif.Adapt.Spec

/-! What the generated lambdas do when they are called: the vocabulary of the property C54.

A C++ function is seen from the outside: it is given the contents of its arguments, and it gives back its result and
the contents of its arguments after the call (a reference or a pointer lets it change what it refers to). The
arguments of one call do not overlap. The expressions that are copied from the user's code (default values) are
evaluated by an arbitrary function `Code`. -/

namespace Verif.Adapt.Spec
open Verif.Py Verif.Type
open scoped List

/-- The contents of a variable. -/
inductive Val
  | data (d : Int)                -- a number, a string, an object
  | null                          -- a null pointer
  | ptr (v : Val)                 -- a pointer to `v`
  | box (v : Val)                 -- an object of a boxed type, that is, a structure with one member `value`
  | none_                         -- an empty `std::optional`
  | some_ (v : Val)               -- a `std::optional` that contains `v`
  | list (l : List Val)           -- a `std::array`, a `std::vector` or a C array
  | array (type : Str) (itemsize : Int) (contiguous : Bool) (l : List Val)  -- a Python array of numbers
  | undef                         -- an uninitialised variable

/-- `v'` may be obtained from `v` by changes that keep the type of the contents and the size of the arrays. -/
inductive SameShape : Val → Val → Prop
  | refl (v : Val) : SameShape v v
  | data (d d' : Int) : SameShape (.data d) (.data d')
  | ptr {v v' : Val} : SameShape v v' → SameShape (.ptr v) (.ptr v')
  | box {v v' : Val} : SameShape v v' → SameShape (.box v) (.box v')
  | some_ {v v' : Val} : SameShape v v' → SameShape (.some_ v) (.some_ v')
  | list {l l' : List Val} : l.length = l'.length → SameShape (.list l) (.list l')
  | array (t : Str) (z : Int) (c : Bool) {l l' : List Val} :
      l.length = l'.length → SameShape (.array t z c l) (.array t z c l')

/-- The parameter is a reference, a pointer or an array. -/
def ByReference (p : Param) : Prop :=
  "&".toList ∈ p.type.modifiers ∨ "*".toList ∈ p.type.modifiers ∨ p.arrayCode ≠ []

instance (p : Param) : Decidable (ByReference p) :=
  inferInstanceAs (Decidable ("&".toList ∈ p.type.modifiers ∨ "*".toList ∈ p.type.modifiers ∨ p.arrayCode ≠ []))

/-- What a function may do to the contents `v` of its parameter `p`: nothing if `p` is constant or passed by value. -/
def MayBecome (p : Param) (v v' : Val) : Prop :=
  (("const".toList ∈ p.type.specifiers ∨ ¬ ByReference p) → v' = v) ∧ SameShape v v'

/-- A failure: a C++ exception, or something that is not a valid C++ program. -/
inductive Fault
  | thrown
  | invalid
deriving DecidableEq

/-- A function: from the contents of the arguments to the result and the contents of the arguments afterwards. -/
abbrev Callee := List Val → Except Fault (Val × List Val)

/-- The value of a C++ expression of the user. -/
abbrev Code := Str → Val

/-- A variable of a lambda: it has its own contents, or it refers to (a part of) another variable, or it is a local C
array. -/
inductive Var
  | val (v : Val)
  | refers (x : Str) (access : Access)
  | raw (l : List Val)

abbrev Env := Str → Option Var

def Env.set (e : Env) (x : Str) (v : Var) : Env := fun y => if y = x then some v else e y

/-- The value of `<access x>`, where `v` is the contents of `x`. -/
def access : Access → Val → Option Val
  | .self, v => some v
  | .addr, v => some (.ptr v)
  | .value, .box v => some v
  | .addrValue, .box v => some (.ptr v)
  | .addrDeref, .some_ v => some (.ptr v)
  | .addrArrowValue, .ptr (.box v) => some (.ptr v)
  | .cStr, .some_ v => some (.ptr v)
  | .data, .list l => some (.ptr (.list l))
  | .data, .array _ _ _ l => some (.ptr (.list l))
  | _, _ => none

/-- The contents of `x` after `<access x>` (or what it points to) has become `new`, where `v` was the contents of `x`. -/
def update : Access → Val → Val → Option Val
  | .self, _, new => some new
  | .addr, _, .ptr new => some new
  | .value, .box _, new => some (.box new)
  | .addrValue, .box _, .ptr new => some (.box new)
  | .addrDeref, .some_ _, .ptr new => some (.some_ new)
  | .addrArrowValue, .ptr (.box _), .ptr new => some (.ptr (.box new))
  | .cStr, .some_ _, .ptr new => some (.some_ new)
  | .data, .list _, .ptr (.list l) => some (.list l)
  | .data, .array t z c _, .ptr (.list l) => some (.array t z c l)
  | _, _, _ => none

def valid {α : Type} : Option α → Except Fault α
  | some a => .ok a
  | none => .error .invalid

/-- The value of the variable `x` in an expression (an array is converted to a pointer). -/
def contents (e : Env) (x : Str) : Except Fault Val :=
  match e x with
  | some (.val v) => .ok v
  | some (.raw l) => .ok (.ptr (.list l))
  | some (.refers y acc) =>
    match e y with
    | some (.val v) => valid (access acc v)
    | _ => .error .invalid
  | none => .error .invalid

/-- `new` is stored in what `x` denotes. -/
def store (e : Env) (x : Str) (new : Val) : Except Fault Env :=
  match e x with
  | some (.val _) => .ok (e.set x (.val new))
  | some (.raw _) =>
    match new with
    | .ptr (.list l) => .ok (e.set x (.raw l))
    | _ => .error .invalid
  | some (.refers y acc) =>
    match e y with
    | some (.val v) => do
      let v' ← valid (update acc v new)
      return e.set y (.val v')
    | _ => .error .invalid
  | none => .error .invalid

/-- The value of `<access x>`. -/
def reading (e : Env) (x : Str) (acc : Access) : Except Fault Val := do
  let v ← contents e x
  valid (access acc v)

/-- `<access x> = new;` -/
def writing (e : Env) (x : Str) (acc : Access) (new : Val) : Except Fault Env := do
  let v ← contents e x
  let v' ← valid (update acc v new)
  store e x v'

/-- A variable of the type `type` is a reference or a pointer. -/
def refersTo (type : Str) : Bool := type.getLast? = some '&' || type.getLast? = some '*'

/-- `type l = <access x>;` declares a name for a part of `x` if the type is a reference or a pointer, and copies it
otherwise. -/
def declare (e : Env) (type l x : Str) (acc : Access) : Except Fault Env := do
  let v ← reading e x acc
  return e.set l (if refersTo type then .refers x acc else .val v)

def asList : Val → Except Fault (List Val)
  | .list l => .ok l
  | _ => .error .invalid

/-- The meaning of the statements. `sizes` gives the value of the size of an array from its code. -/
def exec (code : Code) (sizes : Str → Option Nat) (e : Env) : Stmt → Except Fault Env
  | .stringPtrs l x => do
    let v ← contents e x
    let ss ← asList v
    return e.set l (.val (.list (ss.map .ptr)))
  | .sizeOf _ l x => do
    let v ← contents e x
    let ss ← asList v
    return e.set l (.val (.data ss.length))
  | .bind type l x acc => declare e type l x acc
  | .bindOrNull type l x acc => do
    let v ← contents e x
    if !refersTo type then throw .invalid
    else match v with
      | .none_ => return e.set l (.val .null)
      | .null => return e.set l (.val .null)
      | _ => declare e type l x acc
  | .orDefault _ l x default => do
    let v ← contents e x
    match v with
    | .none_ => return e.set l (.val (code default))
    | .some_ w => return e.set l (.val w)
    | _ => throw .invalid
  | .rawArray _ l arrayCode _ => do
    let n ← valid (sizes arrayCode)
    return e.set l (.raw (List.replicate n .undef))
  | .setItem l i x acc => do
    let v ← reading e x acc
    match e l with
    | some (.raw vs) => if i < vs.length then return e.set l (.raw (vs.set i v)) else throw .invalid
    | _ => throw .invalid
  | .getItem x acc l i =>
    match e l with
    | some (.raw vs) => do
      let v ← valid vs[i]?
      writing e x acc v
    | _ => throw .invalid
  | .bufferData _ l count x => do
    let v ← contents e x
    match v with
    | .array _ _ true vs => return (e.set l (.refers x .data)).set count (.val (.data vs.length))
    | .array _ _ false _ => throw .thrown
    | _ => throw .invalid
  | .checkType x type => do
    let v ← contents e x
    match v with
    | .array t _ _ _ => if t = type then return e else throw .thrown
    | _ => throw .invalid
  | .stride l x buffer => do
    let v ← contents e x
    let b ← contents e buffer
    match v, b with
    | .data k, .array _ z _ _ => return e.set l (.val (.data (if k = -1 then z else k)))
    | _, _ => throw .invalid

def execAll (code : Code) (sizes : Str → Option Nat) : Env → List Stmt → Except Fault Env
  | e, [] => .ok e
  | e, s :: r => do
    let e' ← exec code sizes e s
    execAll code sizes e' r

/-- The value of an argument. -/
def eval (code : Code) (e : Env) : Arg → Except Fault Val
  | .var x => contents e x
  | .data x => reading e x .data
  | .code c => .ok (code c)
  | .cast _ x => contents e x
  | .castElem _ x => contents e x

def evalAll (code : Code) (e : Env) : List Arg → Except Fault (List Val)
  | [] => .ok []
  | a :: r => do
    let v ← eval code e a
    let vs ← evalAll code e r
    return v :: vs

/-- The variables after the callee has changed the contents of an argument to `new`. -/
def changed (e : Env) : Arg → Val → Except Fault Env
  | .var x, new => store e x new
  | .data x, new => writing e x .data new
  | .code _, _ => .ok e
  | .cast _ x, new => store e x new
  | .castElem _ x, new => store e x new

def changedAll : Env → List Arg → List Val → Except Fault Env
  | e, a :: r, v :: vs => do
    let e' ← changed e a v
    changedAll e' r vs
  | e, _, _ => .ok e

/-- A tuple, unless there is only one value. -/
def tuple : List Val → Val
  | [v] => v
  | l => .list l

def contentsAll (e : Env) : List Str → Except Fault (List Val)
  | [] => .ok []
  | x :: r => do
    let v ← contents e x
    let vs ← contentsAll e r
    return v :: vs

/-- The element type of an array. -/
def elementType (e : Env) (x : Str) : Except Fault Str := do
  let v ← contents e x
  match v with
  | .array t _ _ _ => return t
  | _ => throw .invalid

/-- The checks on the element types before the call (`known` are the element types for which there is a call). -/
def checkElements (known : List Str) (e : Env) : Ret → Except Fault Unit
  | .dispatch x others => do
    let t ← elementType e x
    if t ∉ known then throw .thrown
    others.forM fun y => do
      let t' ← elementType e y
      if t' = t then return () else throw .thrown
  | _ => .ok ()

/-- What the lambda returns. -/
def returned (e : Env) (r : Val) : Ret → Except Fault Val
  | .values withResult outs => do
    let vs ← contentsAll e outs
    return tuple (if withResult then r :: vs else vs)
  | _ => .ok r

/-- The variables at the beginning of a lambda. -/
def params : List Str → List Val → Env
  | x :: xs, v :: vs => (params xs vs).set x (.val v)
  | _, _ => fun _ => none

/-- What the caller sees of the contents of a parameter afterwards: what is passed by value is not changed. -/
def seen : List Param → List Val → List Val → List Val
  | p :: ps, v :: vs, v' :: vs' => (if ByReference p then v' else v) :: seen ps vs vs'
  | _, _, _ => []

/-- The call of a lambda that calls `f`. -/
def run (code : Code) (sizes : Str → Option Nat) (known : List Str) (f : Callee) (l : Lambda) : Callee := fun vs => do
  let e1 ← execAll code sizes (params (l.params.map (·.name)) vs) l.input
  checkElements known e1 l.ret
  let cs ← evalAll code e1 l.args
  let (r, cs') ← f cs
  let e2 ← changedAll e1 l.args cs'
  let e3 ← execAll code sizes e2 l.output
  let res ← returned e3 r l.ret
  let vs' ← contentsAll e3 (l.params.map (·.name))
  return (res, seen l.params vs vs')

/-- No name is declared twice in the lambda. -/
def NoClash (l : Lambda) : Prop := (l.params.map (·.name) ++ l.input.flatMap declares).Nodup

/-- What becomes of one parameter of a function during a call. -/
structure Passing where
  python : List Val       -- what the caller of the lambda gives
  cpp : List Val          -- what the function receives
  cppAfter : List Val     -- what the function leaves
  pythonAfter : List Val  -- what the caller of the lambda sees afterwards
  output : List Val := [] -- what is added to the result

end Verif.Adapt.Spec
