import Verif.Type.Model

/-! Model of the adaptation of function parameters (`/repo/src/litgen/internal/adapt_function_params/`).

An adapter looks at the parameters of a function and may produce a C++ lambda: the lambda has new parameters, it runs
some glue code and then calls the function (or the lambda made by the previous adapter).
The glue code is kept as a list of statements (`Stmt`) and the arguments of the call as a list of expressions (`Arg`)
instead of text; the comment of each constructor gives the C++ text it stands for.
Simplifications: the user's regular expressions and matchers are arbitrary predicates of the options; the indentation
of the generated text is not modelled; types with more than two `const` (for which printing raises `ValueError`, see
C29) print as the empty string; custom adapters of the user (`fn_custom_adapters`) are not modelled. -/

namespace Verif.Adapt
open Verif.Py Verif.Type

/-- `/repo/src/srcmlcpp/cpp_types/functions/cpp_parameter.py:169-183` and
`/repo/src/srcmlcpp/cpp_types/decls_types/cpp_decl.py`: a parameter, with `decl_name`, `cpp_type`, `c_array_code` and
`initial_value_code`. -/
structure Param where
  name : Str
  type : CppType
  arrayCode : Str
  default : Str
deriving DecidableEq

/-- The parts of `/repo/src/litgen/options.py` that the adapters read. Each `Str → Bool` applied to a function name or to
a parameter name stands for `does_match_regex_or_matcher` with the corresponding option. -/
structure Options where
  nanobind : Bool
  replaceBuffers : Str → Bool
  bufferSizeName : Str → Bool
  /-- `_looks_like_param_buffer_standard` (`_adapt_c_buffers.py:30-35`): the type is a pointer to a listed type -/
  standardBuffer : CppType → Bool
  /-- `_looks_like_param_template_buffer` (`_adapt_c_buffers.py:38-43`) -/
  templateBuffer : CppType → Bool
  excludeName : Str → Bool
  excludeType : CppType → Bool
  mutableDefault : Str → Bool
  /-- the end of `seems_mutable_param_with_default_value` (`cpp_parameter.py:252-262`): type and value look mutable -/
  looksMutable : CppType → Str → Bool
  boxedArrays : Str → Bool
  stdArrays : Str → Bool
  boxedArrayMaxSize : Nat
  constCharNull : Bool
  toReturn : Str → Bool
  boxed : Str → Bool
  stringList : Str → Bool
  forceLambda : Str → Bool
  /-- `cpp_to_python.is_cpp_type_immutable_for_python` -/
  immutable : Str → Bool
  /-- `boxed_python_type.registered_boxed_type_name` -/
  boxedName : Str → Str
  /-- value of the size between brackets, given the code of the array (`cpp_decl.py:180-196`) -/
  arraySize : Str → Option Nat

def star : Str := ['*']
def amp : Str := ['&']
def ellipsis : Str := "...".toList
def null1 : Str := "NULL".toList
def null2 : Str := "nullptr".toList
def nullopt : Str := "std::nullopt".toList

/-- `/repo/src/srcmlcpp/cpp_types/decls_types/cpp_type.py:102-127`, see the simplifications above. -/
def print (t : CppType) : Str := (strCode t).getD []

/-- `/repo/src/srcmlcpp/cpp_types/decls_types/cpp_type.py:129-131` -/
def nameOnly (t : CppType) : Str := join blank t.typenames

/-- Ways in which the glue code reads a variable `x`. -/
inductive Access
  | self            -- `x`
  | addr            -- `& x`
  | value           -- `x.value`
  | addrValue       -- `& (x.value)`
  | addrDeref       -- `& (*x)`
  | addrArrowValue  -- `& (x->value)`
  | cStr            -- `x.value().c_str()`
  | data            -- `x.data()`
deriving DecidableEq

/-- The statements of the glue code. -/
inductive Stmt
  /-- `std::vector<const char *> l; for (const auto& v: x) l.push_back(v.c_str());` -/
  | stringPtrs (l x : Str)
  /-- `type l = static_cast<type>(x.size());` -/
  | sizeOf (type l x : Str)
  /-- `type l = <access x>;` -/
  | bind (type l x : Str) (access : Access)
  /-- `type l = nullptr; if (x has a value) l = <access x>;` -/
  | bindOrNull (type l x : Str) (access : Access)
  /-- `type& l = [&]() -> type { if (x.has_value()) return x.value(); else return default; }();` -/
  | orDefault (type l x default : Str)
  /-- `type l[n];` (with the initial value of the parameter, if any) -/
  | rawArray (type l arrayCode default : Str)
  /-- `l[i] = <access x>;` -/
  | setItem (l : Str) (i : Nat) (x : Str) (access : Access)
  /-- `<access x> = l[i];` -/
  | getItem (x : Str) (access : Access) (l : Str) (i : Nat)
  /-- check that `x` is 1D and contiguous; `[const ]void * l = x.data(); size_t count = x.shape(0);` -/
  | bufferData (const : Bool) (l count x : Str)
  /-- throw if the element type of the array `x` is not `type` -/
  | checkType (x type : Str)
  /-- `int l = x; if (l == -1) l = (int)buffer.itemsize();` -/
  | stride (l x buffer : Str)
deriving DecidableEq

/-- The arguments of the call at the end of the lambda. -/
inductive Arg
  | var (x : Str)                    -- `x`
  | data (x : Str)                   -- `x.data()`
  | code (c : Str)                   -- the C++ expression `c`
  | cast (type x : Str)              -- `static_cast<type>(x)`
  | castElem (const : Bool) (x : Str) -- `static_cast<[const ]T *>(x)`, where `T` is the element type that was found
deriving DecidableEq

/-- What a lambda returns. -/
inductive Ret
  /-- the result of the call, if it is not void (`apply_all_adapters.py:151-223`) -/
  | forward
  /-- `[r = ]call; return r and the listed variables` as a tuple if there is more than one value
  (`adapt_modifiable_immutable_to_return.py:196-275`) -/
  | values (withResult : Bool) (outputs : List Str)
  /-- one call for each possible element type of the array `x`, and a throw if none matches
  (`_adapt_c_buffers.py:244-466`); the other listed arrays must have the same element type -/
  | dispatch (x : Str) (others : List Str)
deriving DecidableEq

/-- `/repo/src/litgen/internal/adapt_function_params/_lambda_adapter.py:7-21` `LambdaAdapter`. `newVoid` is whether
`new_function_infos` returns void. -/
structure Adapter where
  suffix : Str
  newParams : List Param
  args : List Arg
  input : List Stmt
  output : List Stmt
  ret : Ret
  newVoid : Bool
deriving DecidableEq

/-- A lambda of `cpp_adapter_code` (`apply_all_adapters.py:226-303`). `callee` is the lambda that it calls, or `none` for
the C++ function itself. -/
structure Lambda where
  name : Str
  captures : List Str
  callee : Option Str
  params : List Param
  args : List Arg
  input : List Stmt
  output : List Stmt
  ret : Ret
deriving DecidableEq

/-- `/repo/src/litgen/internal/adapted_types/adapted_function.py:222-227`: the adapted function: name, current
parameters, whether it returns void, whether it is a method, `lambda_to_call` and `cpp_adapter_code`. -/
structure Fn where
  name : Str
  isMethod : Bool
  params : List Param
  isVoid : Bool
  lambdaToCall : Option Str
  lambdas : List Lambda
deriving DecidableEq

inductive Err
  | twoStrides        -- SrcmlcppException("More than one stride param found!")
  | noBufferBefore    -- AssertionError or SrcmlcppException("No previous buffer param!")
  | noTypename        -- IndexError on `typenames[0]`
deriving DecidableEq

/-- What one iteration of the loop of an adapter adds to the new parameters, to the arguments, to the code before and
after the call, and to the returned parameters. -/
structure Piece where
  news : List Param := []
  args : List Arg := []
  input : List Stmt := []
  output : List Stmt := []
  returned : List Str := []

/-- The parameter is not touched: `new_function_params.append(old_param)` and
`adapted_cpp_parameter_list.append(old_param.decl.decl_name)`. -/
def keep (p : Param) : Piece := { news := [p], args := [.var p.name] }

/-- The end of an adapter: what the iterations have added, in order. -/
def collect (suffix : Str) (isVoid : Bool) (l : List Piece) : Adapter :=
  { suffix := suffix
    newParams := l.flatMap (·.news)
    args := l.flatMap (·.args)
    input := l.flatMap (·.input)
    output := l.flatMap (·.output)
    ret := .forward
    newVoid := isVoid }

/-! ### Buffers -/

/-- `/repo/src/litgen/internal/adapt_function_params/_adapt_c_buffers.py:46-47` -/
def looksLikeBuffer (o : Options) (p : Param) : Bool := o.standardBuffer p.type || o.templateBuffer p.type

/-- `/repo/src/litgen/internal/adapt_function_params/_adapt_c_buffers.py:50-52` -/
def looksLikeSize (o : Options) (p : Param) : Bool := o.bufferSizeName p.name

/-- `/repo/src/litgen/internal/adapt_function_params/_adapt_c_buffers.py:190-215` `_is_buffer_template_or_not`: the while
loop, `fuel` is the number of iterations left. -/
def isBufferLoop (o : Options) (ps : List Param) : Nat → Nat → Bool
  | 0, _ => false
  | fuel + 1, i =>
    match ps[i]?, ps[i + 1]? with
    | some p, some q =>
      if !looksLikeBuffer o p then false
      else if looksLikeSize o q then true
      else isBufferLoop o ps fuel (i + 1)
    | _, _ => false

/-- `/repo/src/litgen/internal/adapt_function_params/_adapt_c_buffers.py:190-215` -/
def isBuffer (o : Options) (ps : List Param) (i : Nat) : Bool := isBufferLoop o ps 5 i

/-- `/repo/src/litgen/internal/adapt_function_params/_adapt_c_buffers.py:161-171` `_is_buffer_size` -/
def isBufferSize (o : Options) (ps : List Param) (i : Nat) : Bool :=
  match i with
  | 0 => false
  | j + 1 => (ps[j + 1]?).any (looksLikeSize o) && (ps[j]?).any (looksLikeBuffer o)

def sizeof_ : Str := "sizeof".toList

/-- `/repo/src/litgen/internal/adapt_function_params/_adapt_c_buffers.py:173-177` `_is_stride_param` -/
def isStride (p : Param) : Bool := startsWith (strip p.default) sizeof_

/-- `/repo/src/litgen/internal/adapt_function_params/_adapt_c_buffers.py:508-513` `_last_idx_buffer_param_before`, as the
name of that parameter. -/
def lastBufferBefore (o : Options) (ps : List Param) (i : Nat) : Option Str :=
  (((ps.take (i + 1)).filter (looksLikeBuffer o)).getLast?).map (·.name)

/-- `/repo/src/litgen/internal/adapt_function_params/_adapt_c_buffers.py:136-145` `shall_adapt` -/
def shallAdaptBuffers (o : Options) (f : Fn) : Bool :=
  o.replaceBuffers f.name && (List.range f.params.length).any (isBuffer o f.params)

def isConst (t : CppType) : Bool := const_ ∈ t.specifiers

/-- `/repo/src/litgen/internal/adapt_function_params/_adapt_c_buffers.py:468-489` `_new_param_buffer_standard` -/
def bufferParam (o : Options) (p : Param) : Param :=
  if o.nanobind then
    { p with type :=
      { specifiers := []
        typenames := [if isConst p.type then "nb::ndarray<nb::ro>".toList else "nb::ndarray<>".toList]
        modifiers := [amp] } }
  else
    { p with type :=
      { specifiers := if isConst p.type then [const_] else []
        typenames := ["py::array".toList]
        modifiers := [amp] } }

/-- `/repo/src/litgen/internal/adapt_function_params/_adapt_c_buffers.py:660-665` `_new_param_stride` -/
def strideParam (p : Param) : Param :=
  { p with type := { p.type with typenames := ["int".toList] }, default := "-1".toList }

def fromPyarray (x : Str) : Str := x ++ "_from_pyarray".toList
def countOf (x : Str) : Str := x ++ "_count".toList
def strideOf (x : Str) : Str := x ++ "_stride".toList

/-- `const ` or nothing -/
def constSpace (t : CppType) : Str := if isConst t then "const ".toList else []

def orRaise {α : Type} (e : Err) : Option α → Except Err α
  | some a => .ok a
  | none => .error e

/-- `/repo/src/litgen/internal/adapt_function_params/_adapt_c_buffers.py:107-116` `new_visible_interface_param` -/
def bufferNews (o : Options) (ps : List Param) (i : Nat) (p : Param) : List Param :=
  if isBuffer o ps i then [bufferParam o p]
  else if isStride p then [strideParam p]
  else if isBufferSize o ps i then []
  else [p]

/-- `/repo/src/litgen/internal/adapt_function_params/_adapt_c_buffers.py:491-496` -/
def bufferSizeArg (o : Options) (ps : List Param) (i : Nat) (p : Param) : Except Err Arg := do
  let ty ← orRaise .noTypename p.type.typenames.head?
  let b ← orRaise .noBufferBefore (lastBufferBefore o ps i)
  return .cast ty (countOf b)

/-- `/repo/src/litgen/internal/adapt_function_params/_adapt_c_buffers.py:633-641` -/
def strideArg (o : Options) (ps : List Param) (i : Nat) (p : Param) : Except Err Arg := do
  let b ← orRaise .noBufferBefore (lastBufferBefore o ps i)
  let ty ← orRaise .noTypename p.type.typenames.head?
  if ty ≠ "int".toList then return .cast ty (strideOf b) else return .var (strideOf b)

/-- `/repo/src/litgen/internal/adapt_function_params/_adapt_c_buffers.py:527-530` -/
def bufferArg (p : Param) : Except Err Arg := do
  let ty ← orRaise .noTypename p.type.typenames.head?
  return .cast (constSpace p.type ++ ty ++ " *".toList) (fromPyarray p.name)

/-- `/repo/src/litgen/internal/adapt_function_params/_adapt_c_buffers.py:118-134` `adapted_inner_param`, completed by
229-242 `_adapted_cpp_parameters_template_static_cast`, whose list of arguments replaces this one in the generated
code as soon as one parameter looks like a template buffer: such a parameter is cast to the element type that was
found, whether or not it is followed by a size. -/
def bufferArgs (o : Options) (ps : List Param) (i : Nat) (p : Param) : Except Err Arg :=
  if o.templateBuffer p.type then .ok (.castElem (isConst p.type) (fromPyarray p.name))
  else if isBuffer o ps i then bufferArg p
  else if isBufferSize o ps i then bufferSizeArg o ps i p
  else if isStride p then strideArg o ps i p
  else .ok (.var p.name)

/-- `/repo/src/litgen/internal/adapt_function_params/_adapt_c_buffers.py:532-561`; the count is named after the last
buffer before (and including) the parameter, which is the parameter itself for a buffer. -/
def bufferConvert (o : Options) (ps : List Param) (i : Nat) (p : Param) : Except Err Stmt := do
  let b ← orRaise .noBufferBefore (lastBufferBefore o ps i)
  return .bufferData (isConst p.type) (fromPyarray p.name) (countOf b) p.name

/-- `/repo/src/litgen/internal/adapt_function_params/_adapt_c_buffers.py:643-658` -/
def strideStmt (o : Options) (ps : List Param) (i : Nat) (p : Param) : Except Err Stmt := do
  let b ← orRaise .noBufferBefore (lastBufferBefore o ps i)
  return .stride (strideOf b) p.name b

/-- `/repo/src/litgen/internal/adapt_function_params/_adapt_c_buffers.py:580-625` -/
def bufferCheck (p : Param) : Except Err Stmt := do
  let ty ← orRaise .noTypename p.type.typenames.head?
  return .checkType p.name ty

/-- `/repo/src/litgen/internal/adapt_function_params/_adapt_c_buffers.py:93-105` `lambda_input` -/
def bufferInput (o : Options) (ps : List Param) (i : Nat) (p : Param) : Except Err (List Stmt) := do
  if isBuffer o ps i && !o.templateBuffer p.type then
    let c ← bufferConvert o ps i p
    let k ← bufferCheck p
    return [c, k]
  else if isStride p then
    let s ← strideStmt o ps i p
    return [s]
  else if isBuffer o ps i && o.templateBuffer p.type then
    let c ← bufferConvert o ps i p
    return [c]
  else return []

/-- `/repo/src/litgen/internal/adapt_function_params/_adapt_c_buffers.py:714-727`: one iteration. -/
def bufferPiece (o : Options) (ps : List Param) (i : Nat) (p : Param) : Except Err Piece := do
  let input ← bufferInput o ps i p
  let arg ← bufferArgs o ps i p
  return { news := bufferNews o ps i p, args := [arg], input := input }

/-- The loop on the parameters. -/
def bufferPieces (o : Options) (ps : List Param) : List (Param × Nat) → Except Err (List Piece)
  | [] => .ok []
  | (p, i) :: r => do
    let x ← bufferPiece o ps i p
    let xs ← bufferPieces o ps r
    return x :: xs

/-- `/repo/src/litgen/internal/adapt_function_params/_adapt_c_buffers.py:366-403`: the reference buffer is the last one;
the others are those with another name. -/
def bufferRet (o : Options) (ps : List Param) : Ret :=
  match (ps.filter (fun p => o.templateBuffer p.type)).getLast? with
  | none => .forward
  | some p => .dispatch p.name
      (((ps.filter (fun p => o.templateBuffer p.type)).map (·.name)).filter (fun n => n ≠ p.name))

def countStrides (ps : List Param) : Nat := ps.countP isStride

/-- `/repo/src/litgen/internal/adapt_function_params/_adapt_c_buffers.py:668-736` `adapt_c_buffers` (with the constructor
of the helper, 60-76). -/
def adaptBuffers (o : Options) (f : Fn) : Except Err (Option Adapter) :=
  if !shallAdaptBuffers o f then .ok none
  else if countStrides f.params > 1 then .error .twoStrides
  else do
    let l ← bufferPieces o f.params f.params.zipIdx
    return some { collect "_adapt_c_buffers".toList f.isVoid l with ret := bufferRet o f.params }

/-! ### Excluded parameters -/

/-- `/repo/src/litgen/internal/adapt_function_params/_adapt_exclude_params.py:21-30` `shall_exclude` -/
def shallExclude (o : Options) (p : Param) : Bool :=
  (o.excludeName p.name || o.excludeType p.type) && p.default.length > 0

/-- `/repo/src/litgen/internal/adapt_function_params/_adapt_exclude_params.py:46-62`: one iteration. -/
def excludePiece (o : Options) (p : Param) : Piece :=
  if shallExclude o p then { args := [.code p.default] } else keep p

/-- `/repo/src/litgen/internal/adapt_function_params/_adapt_exclude_params.py:13-69` -/
def adaptExclude (o : Options) (f : Fn) : Except Err (Option Adapter) :=
  if f.params.any (shallExclude o) then
    .ok (some (collect "_adapt_exclude_params".toList f.isVoid (f.params.map (excludePiece o))))
  else .ok none

/-! ### Mutable default values -/

/-- `/repo/src/srcmlcpp/cpp_types/decls_types/cpp_type.py:145-146` -/
def isVoidType (t : CppType) : Bool := t.typenames = ["void".toList] && t.specifiers = [] && t.modifiers = []

/-- `/repo/src/srcmlcpp/cpp_types/functions/cpp_parameter.py:219-262` `seems_mutable_param_with_default_value` -/
def seemsMutable (o : Options) (p : Param) : Bool :=
  if (strip p.default).length = 0 then false
  else if "&&".toList ∈ p.type.modifiers then false
  else if star ∈ p.type.modifiers then false
  else if ellipsis ∈ p.type.modifiers then false
  else if isVoidType p.type then false
  else if amp ∈ p.type.modifiers && !(isConst p.type || "constexpr".toList ∈ p.type.specifiers) then false
  else o.looksMutable p.type p.default

/-- `/repo/src/litgen/internal/adapt_function_params/_adapt_mutable_param_with_default_value.py:160-167`
`_fn_optional_to_const_noref`; it changes the lists of the type of the parameter, so that the type which is made
optional afterwards (line 199) is this one too. -/
def constNoRef (t : CppType) : CppType :=
  { t with
    modifiers := t.modifiers.erase amp
    specifiers := if isConst t then t.specifiers else t.specifiers ++ [const_] }

/-- `/repo/src/litgen/internal/adapt_function_params/_adapt_mutable_param_with_default_value.py:150-158` (the text
`const std::optional<T> &` is parsed by srcML). -/
def toOptional (t : CppType) : CppType :=
  { specifiers := [const_]
    typenames := ["std::optional<".toList ++ print (constNoRef t) ++ [ '>' ]]
    modifiers := [amp] }

def orDefaultName (x : Str) : Str := x ++ "_or_default".toList

/-- `/repo/src/litgen/internal/adapt_function_params/_adapt_mutable_param_with_default_value.py:176-220`: one iteration. -/
def mutablePiece (o : Options) (p : Param) : Piece :=
  if seemsMutable o p then
    { news := [{ p with default := nullopt, type := toOptional p.type }]
      input := [.orDefault (print (constNoRef p.type)) (orDefaultName p.name) p.name p.default]
      args := [.var (orDefaultName p.name)] }
  else keep p

/-- `/repo/src/litgen/internal/adapt_function_params/_adapt_mutable_param_with_default_value.py:115-248`, where
`o.mutableDefault` includes the case of the generated constructors (lines 121-129). -/
def adaptMutable (o : Options) (f : Fn) : Except Err (Option Adapter) :=
  if o.mutableDefault f.name && f.params.any (seemsMutable o) then
    .ok (some (collect "_adapt_mutable_param_with_default_value".toList f.isVoid (f.params.map (mutablePiece o))))
  else .ok none

/-! ### C arrays -/

/-- `/repo/src/srcmlcpp/cpp_types/decls_types/cpp_decl.py:180-196` `c_array_size_as_int` -/
def arraySize (o : Options) (p : Param) : Option Nat :=
  if p.arrayCode = [] then none else o.arraySize p.arrayCode

/-- `/repo/src/litgen/internal/adapt_function_params/_adapt_c_arrays.py:60-67` -/
def shallBoxArray (o : Options) (f : Fn) (p : Param) : Bool :=
  !isConst p.type && (arraySize o p).isSome && o.boxedArrays f.name

/-- `/repo/src/litgen/internal/adapt_function_params/_adapt_c_arrays.py:69-76` -/
def shallStdArray (o : Options) (f : Fn) (p : Param) : Bool :=
  isConst p.type && (arraySize o p).isSome && o.stdArrays f.name

/-- `/repo/src/litgen/internal/adapted_types/adapted_decl.py:57-84` `c_array_fixed_size_to_const_std_array` -/
def stdArrayParam (p : Param) (n : Nat) : Param :=
  { p with
    arrayCode := []
    type := { p.type with
      specifiers := p.type.specifiers.erase const_ ++ [const_]
      typenames := ["std::array<".toList ++ print { p.type with specifiers := p.type.specifiers.erase const_ }
        ++ ", ".toList ++ (toString n).toList ++ ">&".toList] } }

def itemName (x : Str) (i : Nat) : Str := x ++ ['_'] ++ (toString i).toList

/-- `/repo/src/litgen/internal/adapted_types/adapted_decl.py:86-120` `c_array_fixed_size_to_mutable_new_boxed_decls`: the
decl number `i`. -/
def boxedItem (o : Options) (p : Param) (i : Nat) : Param :=
  { p with
    name := itemName p.name i
    arrayCode := []
    type := { p.type with
      typenames := [if o.immutable (print p.type) then o.boxedName (print p.type) else print p.type]
      modifiers := [amp] } }

def rawName (x : Str) : Str := x ++ "_raw".toList

/-- `/repo/src/litgen/internal/adapt_function_params/_adapt_c_arrays.py:145` -/
def itemAccess (o : Options) (p : Param) : Access := if o.immutable (nameOnly p.type) then .value else .self

/-- `/repo/src/litgen/internal/adapt_function_params/_adapt_c_arrays.py:117-151` -/
def boxedArrayPiece (o : Options) (p : Param) (n : Nat) : Piece :=
  { news := (List.range n).map (boxedItem o p)
    args := [.var (rawName p.name)]
    input := .rawArray (print p.type) (rawName p.name) p.arrayCode p.default ::
      (List.range n).map (fun i => .setItem (rawName p.name) i (itemName p.name i) (itemAccess o p))
    output := (List.range n).map (fun i => .getItem (itemName p.name i) (itemAccess o p) (rawName p.name) i) }

/-- `/repo/src/litgen/internal/adapt_function_params/_adapt_c_arrays.py:98-155`: one iteration. -/
def arrayPiece (o : Options) (f : Fn) (p : Param) : Piece :=
  match arraySize o p with
  | none => keep p
  | some n =>
    if shallStdArray o f p then { news := [stdArrayParam p n], args := [.data p.name] }
    else if shallBoxArray o f p && n ≤ o.boxedArrayMaxSize then boxedArrayPiece o p n
    else keep p

/-- `/repo/src/litgen/internal/adapt_function_params/_adapt_c_arrays.py:13-161` -/
def adaptArrays (o : Options) (f : Fn) : Except Err (Option Adapter) :=
  if f.params.any (fun p => shallBoxArray o f p || shallStdArray o f p) then
    .ok (some (collect "_adapt_fixed_size_c_arrays".toList f.isVoid (f.params.map (arrayPiece o f))))
  else .ok none

/-! ### `const char *` with a null default value -/

def isNull (s : Str) : Bool := s = null1 || s = null2

/-- `/repo/src/litgen/internal/adapted_types/adapted_function.py:70-82` -/
def constCharNull (p : Param) : Bool :=
  p.type.modifiers = [star] && isConst p.type && p.type.typenames = ["char".toList] && isNull p.default

def defaultNullName (x : Str) : Str := x ++ "_adapt_default_null".toList

/-- `/repo/src/litgen/internal/adapt_function_params/adapt_const_char_pointer_with_default_null.py:38-71`: one iteration. -/
def constCharPiece (p : Param) : Piece :=
  if constCharNull p then
    { news := [{ p with
        type := { specifiers := [], typenames := ["std::optional<std::string>".toList], modifiers := [] }
        default := nullopt }]
      input := [.bindOrNull (print p.type) (defaultNullName p.name) p.name .cStr]
      args := [.var (defaultNullName p.name)] }
  else keep p

/-- `/repo/src/litgen/internal/adapt_function_params/adapt_const_char_pointer_with_default_null.py:10-78`; the function
name is matched against the option of another adapter (line 18). -/
def adaptConstChar (o : Options) (f : Fn) : Except Err (Option Adapter) :=
  if o.constCharNull && o.toReturn f.name && f.params.any constCharNull then
    .ok (some (collect "_adapt_const_char_pointer_with_default_null".toList f.isVoid (f.params.map constCharPiece)))
  else .ok none

/-! ### Modifiable parameters of an immutable Python type -/

/-- `/repo/src/litgen/internal/adapted_types/adapted_function.py:45-56` -/
def modifiableArray (o : Options) (p : Param) : Bool :=
  p.type.modifiers = [] && (arraySize o p).isSome && o.immutable (nameOnly p.type) && !isConst p.type

/-- `/repo/src/litgen/internal/adapted_types/adapted_function.py:58-67` -/
def modifiableRef (o : Options) (p : Param) : Bool :=
  (p.type.modifiers = [star] || p.type.modifiers = [amp]) && !isConst p.type && o.immutable (nameOnly p.type)

/-- `/repo/src/litgen/internal/adapt_function_params/adapt_modifiable_immutable_to_return.py:72-82` -/
def isPointer (p : Param) : Bool := p.type.modifiers = [star]

/-- `/repo/src/litgen/internal/adapt_function_params/adapt_modifiable_immutable_to_return.py:77-82` -/
def isOptional (p : Param) : Bool := isPointer p && isNull p.default

def modifiableName (x : Str) : Str := x ++ "_adapt_modifiable".toList

/-- `/repo/src/litgen/internal/adapt_function_params/adapt_modifiable_immutable_to_return.py:87-95` -/
def returnedParam (p : Param) : Param :=
  if isOptional p then
    { p with
      type := { specifiers := [], modifiers := []
                typenames := ["std::optional<".toList ++ nameOnly p.type ++ ['>']] }
      default := nullopt }
  else { p with type := { specifiers := [], typenames := p.type.typenames, modifiers := [] } }

/-- `/repo/src/litgen/internal/adapt_function_params/adapt_modifiable_immutable_to_return.py:110-124` -/
def returnedStmt (p : Param) : Stmt :=
  if isOptional p then .bindOrNull (print p.type) (modifiableName p.name) p.name .addrDeref
  else if isPointer p then .bind (print p.type) (modifiableName p.name) p.name .addr
  else .bind (print p.type) (modifiableName p.name) p.name .self

/-- `/repo/src/litgen/internal/adapt_function_params/adapt_modifiable_immutable_to_return.py:144-152`; the new decl is
parsed from `std::array<type, size> name`. -/
def returnedArray (p : Param) (n : Nat) : Param :=
  { name := p.name
    type := { specifiers := [], modifiers := []
              typenames := ["std::array<".toList ++ nameOnly p.type ++ ", ".toList ++ (toString n).toList ++ ['>']] }
    arrayCode := []
    default := [] }

/-- `/repo/src/litgen/internal/adapt_function_params/adapt_modifiable_immutable_to_return.py:140-179` -/
def returnedArrayPiece (o : Options) (p : Param) : Piece :=
  match arraySize o p with
  | none => keep p
  | some n =>
    { news := [returnedArray p n]
      input := [.bind (print p.type ++ " *".toList) (modifiableName p.name) p.name .data]
      args := [.var (modifiableName p.name)]
      returned := [p.name] }

/-- `/repo/src/litgen/internal/adapt_function_params/adapt_modifiable_immutable_to_return.py:70-183`: one iteration. -/
def toReturnPiece (o : Options) (p : Param) : Piece :=
  if modifiableRef o p then
    { news := [returnedParam p]
      input := [returnedStmt p]
      args := [.var (modifiableName p.name)]
      returned := [p.name] }
  else if modifiableArray o p then returnedArrayPiece o p
  else keep p

/-- `/repo/src/litgen/internal/adapt_function_params/adapt_modifiable_immutable_to_return.py:15-279` -/
def adaptToReturn (o : Options) (f : Fn) : Except Err (Option Adapter) :=
  if o.toReturn f.name && f.params.any (fun p => modifiableRef o p || modifiableArray o p) then
    .ok (some { collect "_adapt_modifiable_immutable_to_return".toList false (f.params.map (toReturnPiece o)) with
      ret := .values (!f.isVoid) ((f.params.map (toReturnPiece o)).flatMap (·.returned)) })
  else .ok none

def boxedValueName (x : Str) : Str := x ++ "_boxed_value".toList

/-- `/repo/src/litgen/internal/adapt_function_params/adapt_modifiable_immutable.py:89-103` -/
def boxedParam (o : Options) (p : Param) : Param :=
  if isOptional p then
    { p with type := { specifiers := [], typenames := [o.boxedName (nameOnly p.type)], modifiers := [star] }, default := null2 }
  else { p with type := { specifiers := [], typenames := [o.boxedName (nameOnly p.type)], modifiers := [amp] } }

/-- `/repo/src/litgen/internal/adapt_function_params/adapt_modifiable_immutable.py:113-127` -/
def boxedStmt (p : Param) : Stmt :=
  if isOptional p then .bindOrNull (print p.type) (boxedValueName p.name) p.name .addrArrowValue
  else if isPointer p then .bind (print p.type) (boxedValueName p.name) p.name .addrValue
  else .bind (print p.type) (boxedValueName p.name) p.name .value

/-- `/repo/src/litgen/internal/adapt_function_params/adapt_modifiable_immutable.py:68-140`: one iteration. -/
def boxedPiece (o : Options) (p : Param) : Piece :=
  if modifiableRef o p then
    { news := [boxedParam o p], input := [boxedStmt p], args := [.var (boxedValueName p.name)] }
  else keep p

/-- `/repo/src/litgen/internal/adapt_function_params/adapt_modifiable_immutable.py:14-146` -/
def adaptBoxed (o : Options) (f : Fn) : Except Err (Option Adapter) :=
  if o.boxed f.name && f.params.any (modifiableRef o) then
    .ok (some (collect "_adapt_modifiable_immutable".toList f.isVoid (f.params.map (boxedPiece o))))
  else .ok none

/-! ### C string lists -/

/-- `/repo/src/srcmlcpp/cpp_types/decls_types/cpp_decl.py:133-154` `is_c_string_list_ptr` -/
def isStringList (p : Param) : Bool :=
  isConst p.type && p.type.typenames = ["char".toList]
  && p.type.modifiers.count star + (if p.arrayCode.length > 0 then 1 else 0) = 2
  && (p.default = [] || isNull p.default)

/-- `/repo/src/litgen/internal/adapt_function_params/_adapt_c_string_list.py:62-68` -/
def isStringListAt (o : Options) (ps : List Param) (i : Nat) : Bool :=
  match ps[i]?, ps[i + 1]? with
  | some p, some q => isStringList p && looksLikeSize o q
  | _, _ => false

/-- `/repo/src/litgen/internal/adapt_function_params/_adapt_c_string_list.py:70-76` -/
def isStringListSizeAt (o : Options) (ps : List Param) (i : Nat) : Bool :=
  match i with
  | 0 => false
  | j + 1 => isStringListAt o ps j

def ptrsName (x : Str) : Str := x ++ "_ptrs".toList

/-- `/repo/src/litgen/internal/adapt_function_params/_adapt_c_string_list.py:86-94` -/
def vectorParam (p : Param) : Param :=
  { p with
    arrayCode := []
    default := []
    type := { specifiers := [const_], typenames := ["std::vector<std::string>".toList], modifiers := [amp] } }

/-- `/repo/src/litgen/internal/adapt_function_params/_adapt_c_string_list.py:86-126`, where `q` is the next parameter. -/
def stringListWithSize (p q : Param) : Except Err Piece := do
  let ty ← orRaise .noTypename q.type.typenames.head?
  return { news := [vectorParam p]
           input := [.stringPtrs (ptrsName p.name) p.name, .sizeOf ty q.name p.name]
           args := [.data (ptrsName p.name), .var q.name] }

/-- `/repo/src/litgen/internal/adapt_function_params/_adapt_c_string_list.py:78-133`: one iteration. -/
def stringListPiece (o : Options) (ps : List Param) (i : Nat) (p : Param) : Except Err Piece :=
  match isStringListAt o ps i, ps[i + 1]? with
  | true, some q => stringListWithSize p q
  | _, _ => if isStringListSizeAt o ps i then .ok {} else .ok (keep p)

/-- The loop on the parameters. -/
def stringListPieces (o : Options) (ps : List Param) : List (Param × Nat) → Except Err (List Piece)
  | [] => .ok []
  | (p, i) :: r => do
    let x ← stringListPiece o ps i p
    let xs ← stringListPieces o ps r
    return x :: xs

/-- `/repo/src/litgen/internal/adapt_function_params/_adapt_c_string_list.py:15-139` -/
def adaptStringList (o : Options) (f : Fn) : Except Err (Option Adapter) :=
  if o.stringList f.name && (List.range f.params.length).any (isStringListAt o f.params) then do
    let l ← stringListPieces o f.params f.params.zipIdx
    return some (collect "_adapt_c_string_list".toList f.isVoid l)
  else .ok none

/-- `/repo/src/litgen/internal/adapt_function_params/_adapt_c_string_list.py:192-233`: one iteration. -/
def stringListNoCountPiece (p : Param) : Piece :=
  if isStringList p then
    { news := [vectorParam p]
      input := [.stringPtrs (ptrsName p.name) p.name]
      args := [.data (ptrsName p.name)] }
  else keep p

/-- `/repo/src/litgen/internal/adapt_function_params/_adapt_c_string_list.py:142-239` -/
def adaptStringListNoCount (o : Options) (f : Fn) : Except Err (Option Adapter) :=
  if o.stringList f.name && f.params.any isStringList then
    .ok (some (collect "_adapt_c_string_list_no_count".toList f.isVoid (f.params.map stringListNoCountPiece)))
  else .ok none

/-! ### Variadic format -/

/-- `/repo/src/litgen/internal/adapt_function_params/_adapt_variadic_format.py:11-12` -/
def isVariadic (p : Param) : Bool := p.type.typenames = [] && p.type.modifiers = [ellipsis]

/-- `/repo/src/litgen/internal/adapt_function_params/_adapt_variadic_format.py:32` -/
def isFormat (p : Param) : Bool :=
  print p.type = "const char *".toList || print p.type = "const char * const".toList

def percentS : Str := "\"%s\"".toList

/-- `/repo/src/litgen/internal/adapt_function_params/_adapt_variadic_format.py:40-48`: the last two parameters are
`fmt` and the ellipsis. -/
def variadicPieces (first : List Param) (fmt : Param) : List Piece :=
  first.map keep ++ [{ news := [fmt], args := [.code percentS, .var fmt.name] }]

/-- `/repo/src/litgen/internal/adapt_function_params/_adapt_variadic_format.py:15-53` -/
def adaptVariadic (_ : Options) (f : Fn) : Except Err (Option Adapter) :=
  match f.params.reverse with
  | last :: fmt :: first =>
    if isVariadic last && isFormat fmt then
      .ok (some (collect "_adapt_variadic_format".toList f.isVoid (variadicPieces first.reverse fmt)))
    else .ok none
  | _ => .ok none

/-! ### All adapters -/

/-- `/repo/src/litgen/internal/adapt_function_params/_adapt_force_lambda.py:10-29` -/
def forceLambda (f : Fn) : Adapter := collect "_adapt_force_lambda".toList f.isVoid (f.params.map keep)

/-- `/repo/src/litgen/internal/adapt_function_params/apply_all_adapters.py:243-249` -/
def captures (f : Fn) : List Str :=
  match f.lambdaToCall with
  | some l => [l]
  | none => if f.isMethod then ["self".toList] else []

/-- `/repo/src/litgen/internal/adapt_function_params/apply_all_adapters.py:226-318` `_make_adapted_lambda_code` and
`_apply_lambda_adapter` -/
def applyAdapter (f : Fn) (a : Adapter) : Fn :=
  { f with
    lambdas := f.lambdas ++ [{ name := f.name ++ a.suffix, captures := captures f, callee := f.lambdaToCall
                               params := a.newParams, args := a.args, input := a.input, output := a.output, ret := a.ret }]
    params := a.newParams
    isVoid := a.newVoid
    lambdaToCall := some (f.name ++ a.suffix) }

/-- `/repo/src/litgen/internal/adapt_function_params/apply_all_adapters.py:51-62` -/
def adapters (o : Options) : List (Fn → Except Err (Option Adapter)) :=
  [adaptBuffers o, adaptExclude o, adaptMutable o, adaptArrays o, adaptConstChar o, adaptToReturn o, adaptBoxed o,
   adaptStringList o, adaptStringListNoCount o, adaptVariadic o]

/-- `/repo/src/litgen/internal/adapt_function_params/apply_all_adapters.py:66-68` -/
def applyOne (g : Fn → Except Err (Option Adapter)) (f : Fn) : Except Err Fn :=
  match g f with
  | .error e => .error e
  | .ok none => .ok f
  | .ok (some a) => .ok (applyAdapter f a)

/-- `/repo/src/litgen/internal/adapt_function_params/apply_all_adapters.py:65-68`: the loop. -/
def applyList : List (Fn → Except Err (Option Adapter)) → Fn → Except Err Fn
  | [], f => .ok f
  | g :: r, f =>
    match applyOne g f with
    | .error e => .error e
    | .ok f' => applyList r f'

/-- `/repo/src/litgen/internal/adapt_function_params/apply_all_adapters.py:70-75` -/
def maybeForceLambda (o : Options) (f : Fn) : Fn :=
  if o.forceLambda f.name && f.lambdaToCall.isNone then applyAdapter f (forceLambda f) else f

/-- `/repo/src/litgen/internal/adapt_function_params/apply_all_adapters.py:14-75` `apply_all_adapters`, for a function
that is not a constructor. -/
def applyAll (o : Options) (f : Fn) : Except Err Fn :=
  match applyList (adapters o) f with
  | .error e => .error e
  | .ok f' => .ok (maybeForceLambda o f')

/-- `/repo/src/litgen/internal/adapted_types/adapted_function.py:397-407` `add_names_to_unnamed_params` -/
def nameParam (p : Param) (i : Nat) : Param :=
  if p.name = [] then { p with name := "param_".toList ++ (toString i).toList } else p

def nameParams (ps : List Param) : List Param := ps.zipIdx.map (fun x => nameParam x.1 x.2)

/-- `/repo/src/litgen/internal/adapted_types/adapted_function.py:239-283`: a function as it enters the adapters. -/
def start (name : Str) (isMethod isVoid : Bool) (ps : List Param) : Fn :=
  { name := name, isMethod := isMethod, params := nameParams ps, isVoid := isVoid, lambdaToCall := none, lambdas := [] }

end Verif.Adapt
