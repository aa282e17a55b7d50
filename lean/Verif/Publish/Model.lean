import Verif.Py.Str
import Verif.Py.Dict

/-! Model of the decision to publish a function: `/repo/src/litgen/internal/adapted_types/adapted_function.py`
(`init_is_function_publishable`, `init_add_warning_if_non_published_api`),
`/repo/src/litgen/internal/adapted_types/operators.py`, and of the loops that collect the functions in
`/repo/src/litgen/internal/adapted_types/adapted_block.py` and `adapted_class.py`. -/

namespace Verif.Publish
open Verif.Py

/-- The type of a parameter: its `str_code()`. -/
structure Ty where
  code : Str
  specifiers : List Str
deriving DecidableEq

/-- The parts of a `CppFunctionDecl` used by the decision
(`/repo/src/srcmlcpp/cpp_types/functions/cpp_function_decl.py:34-67`). `returnType` is `none` when the attribute does not
exist (constructors and destructors). `method` is `is_method()` (312-317). -/
structure Func where
  name : Str
  specifiers : List Str
  params : List Ty
  returnType : Option Ty
  method : Bool
deriving DecidableEq

/-- The options used by the decision. Regular expressions (or callables) are given by the texts they match, and
`class_template_options.shall_exclude_type` (see `Verif.Tpl`) by the types it excludes. -/
structure Options where
  excludeTemplateType : Ty → Bool
  excludeName : Str → Bool
  excludeType : Str → Bool
  excludeSignature : List (Str × Str)
  apiPrefixes : Str
  excludeNonApi : Bool
  nonApiComment : Str

/-- `/repo/src/codemanip/code_utils.py:803-806` `split_string_by_pipe_char` -/
def splitPipe (s : Str) : List Str := (splitOn '|' s).filter (fun x => decide (x.length > 0))

/-- `/repo/src/srcmlcpp/srcmlcpp_options.py:113-115` `functions_api_prefixes_list` -/
def Options.prefixes (o : Options) : List Str := splitPipe o.apiPrefixes

/-- `/repo/src/srcmlcpp/cpp_types/functions/cpp_function_decl.py:399-403` `is_destructor` (its assertion cannot fail on the
output of the C++ parser: it is not modelled). -/
def Func.isDestructor (f : Func) : Bool := startsWith f.name "~".toList

/-- `/repo/src/litgen/internal/adapted_types/adapted_function.py:347`: the signature compared with that of the options. -/
def Func.signature (f : Func) : Str := join ", ".toList (f.params.map Ty.code)

/-- `/repo/src/litgen/internal/adapted_types/adapted_function.py:344-349` `fn_exclude_by_name_and_signature`: `dict.get(name, "")`
is tested for truth. -/
def excludedBySignature (o : Options) (f : Func) : Bool :=
  let target := (dictGet o.excludeSignature f.name).getD []
  if target.length > 0 then target = f.signature else false

/-- `/repo/src/litgen/internal/adapted_types/adapted_function.py:351-356` `has_one_ok_prefix` -/
def hasOkPrefix (o : Options) (ret : Ty) : Bool := o.prefixes.any (fun p => p ∈ ret.specifiers)

/-- `/repo/src/litgen/internal/adapted_types/adapted_function.py:358-371`: the end of `init_is_function_publishable` -/
def apiCheck (o : Options) (f : Func) (evenIfNonApiIncluded : Bool) : Bool :=
  match f.returnType with
  | none => true
  | some ret =>
    let check := decide (o.prefixes.length > 0)
    let includeNonApi := !o.excludeNonApi
    let check := if includeNonApi && !evenIfNonApiIncluded then false else check
    if check then hasOkPrefix o ret else true

/-- `/repo/src/litgen/internal/adapted_types/adapted_function.py:301-371` `init_is_function_publishable` -/
def publishable (o : Options) (f : Func) (evenIfNonApiIncluded : Bool := false) : Bool :=
  if f.isDestructor then false
  else if f.specifiers.contains "delete".toList then false
  else if contains f.name "::".toList then false
  else if f.params.any o.excludeTemplateType then false
  else if f.returnType.any o.excludeTemplateType then false
  else if o.excludeName f.name then false
  else if f.returnType.any (fun t => o.excludeType t.code) then false
  else if f.params.any (fun t => o.excludeType t.code) then false
  else if excludedBySignature o f then false
  else apiCheck o f evenIfNonApiIncluded

/-- `/repo/src/litgen/internal/adapted_types/adapted_function.py:283-299` `init_add_warning_if_non_published_api`: the comment
on the previous lines after the call. -/
def withNonApiComment (o : Options) (f : Func) (comment : Str) : Str :=
  if !o.excludeNonApi && decide (o.prefixes.length > 0) then
    if !publishable o f true && decide (o.nonApiComment.length > 0) then
      if comment.length = 0 then o.nonApiComment else comment ++ "\n".toList ++ o.nonApiComment
    else comment
  else comment

/-! ### Operators -/

/-- `/repo/src/srcmlcpp/cpp_types/functions/cpp_function_decl.py:440-441` `is_operator` -/
def Func.isOperator (f : Func) : Bool := startsWith f.name "operator".toList

/-- `/repo/src/srcmlcpp/cpp_types/functions/cpp_function_decl.py:443-446` `operator_name` -/
def Func.operatorName (f : Func) : Str := strip (f.name.drop "operator".toList.length)

/-- `/repo/src/litgen/internal/adapted_types/operators.py:17-26` -/
def knownUnsupported : List Str := ["++".toList, "--".toList, "=".toList]

/-- `/repo/src/litgen/internal/adapted_types/operators.py:29-50` -/
def oneParamTable : List (Str × Str) :=
  [("+".toList, "__add__".toList), ("-".toList, "__sub__".toList), ("*".toList, "__mul__".toList),
   ("/".toList, "__truediv__".toList), ("%".toList, "__mod__".toList), ("[]".toList, "__getitem__".toList),
   ("<".toList, "__lt__".toList), ("<=".toList, "__le__".toList), ("==".toList, "__eq__".toList),
   ("!=".toList, "__ne__".toList), (">".toList, "__gt__".toList), (">=".toList, "__ge__".toList),
   ("+=".toList, "__iadd__".toList), ("-=".toList, "__isub__".toList), ("*=".toList, "__imul__".toList),
   ("/=".toList, "__itruediv__".toList), ("%=".toList, "__imod__".toList), ("<=>".toList, "<=>".toList)]

/-- `/repo/src/litgen/internal/adapted_types/operators.py:56-61` -/
def zeroParamTable : List (Str × Str) :=
  [("-".toList, "__neg__".toList), ("+".toList, "__pos__".toList), ("bool".toList, "__bool__".toList)]

/-- `/repo/src/litgen/internal/adapted_types/operators.py:68-91` `raise_if_unsupported_operator`: `true` when a
`SrcmlcppException` is raised. -/
def raisesUnsupported (f : Func) : Bool :=
  if !f.isOperator then false
  else if !f.method then true
  else if f.operatorName ∈ knownUnsupported then true
  else if f.operatorName = "()".toList then false
  else match f.params.length with
    | 0 => (dictGet zeroParamTable f.operatorName).isNone
    | 1 => (dictGet oneParamTable f.operatorName).isNone
    | _ => true

/-- `/repo/src/litgen/internal/adapted_types/operators.py:94-113` `cpp_to_python_operator_name`; `none` is an exception. -/
def pythonOperatorName (f : Func) : Option Str :=
  if !(f.isOperator && f.method) then none
  else if raisesUnsupported f then none
  else if f.operatorName = "()".toList then some "__call__".toList
  else match f.params.length with
    | 0 => dictGet zeroParamTable f.operatorName
    | 1 => dictGet oneParamTable f.operatorName
    | _ => none

/-- `/repo/src/litgen/internal/adapted_types/operators.py:116-122` `is_spaceship_operator` -/
def isSpaceship (f : Func) : Bool := f.isOperator && f.method && decide (f.operatorName = "<=>".toList)

/-- A comparison method made from a spaceship operator: the function and the test of its lambda
`return self.operator<=>(other) {test};`. -/
structure Cmp where
  func : Func
  test : Str
deriving DecidableEq

/-- `/repo/src/litgen/internal/adapted_types/operators.py:130-143` `make_cmp` -/
def makeCmp (f : Func) (op test : Str) : Cmp :=
  ⟨{ f with name := "operator".toList ++ op, returnType := f.returnType.map (fun t => { t with code := "bool".toList }) }, test⟩

/-- `/repo/src/litgen/internal/adapted_types/operators.py:125-151` `cpp_split_spaceship_operator` -/
def splitSpaceship (f : Func) : List Cmp :=
  [makeCmp f "<".toList " < 0".toList, makeCmp f "<=".toList " <= 0".toList, makeCmp f "==".toList " == 0".toList,
   makeCmp f ">=".toList " >= 0".toList, makeCmp f ">".toList " > 0".toList]

/-! ### The collection of the functions -/

/-- What happens to a child of a block. `skipped`: not published. `warned`: a `SrcmlcppException` is caught and a warning
emitted. -/
inductive Child where
  | published (f : Func)
  | skipped
  | warned
deriving DecidableEq

/-- `/repo/src/litgen/internal/adapted_types/adapted_block.py:129-132, 165-166` with `adapted_function.py:264` (the adapters of
the parameters do not raise; see `Verif.Adapt`). -/
def blockChild (o : Options) (f : Func) : Child :=
  if publishable o f then (if raisesUnsupported f then .warned else .published f) else .skipped

def Child.func : Child → Option Func
  | .published f => some f
  | _ => none

/-- `/repo/src/litgen/internal/adapted_types/adapted_block.py:115-166`, for functions -/
def blockFunctions (o : Options) (fs : List Func) : List Func := fs.filterMap (fun f => (blockChild o f).func)

/-- The options of a class: `member_exclude_by_name_and_class__regex.get(class_name, "")` as a matcher, and
`class_expose_protected_methods__regex` applied to the class name. -/
structure ClassOptions where
  base : Options
  excludeMember : Str → Bool
  exposeProtected : Bool

/-- `/repo/src/litgen/internal/adapted_types/adapted_class.py:418-427, 465-466` -/
def publicChild (o : ClassOptions) (f : Func) : Child :=
  if o.excludeMember f.name then .skipped else blockChild o.base f

/-- `/repo/src/litgen/internal/adapted_types/adapted_class.py:1194-1201` `_prot_fill_methods`. There is no `try`: `none` is the
exception that leaves the constructor of the class. -/
def protectedMethods (o : ClassOptions) (fs : List Func) : Option (List Func) :=
  if !o.exposeProtected then some []
  else (fs.filter (fun f => publishable o.base f)).mapM (fun f => if raisesUnsupported f then none else some f)

/-- A class with its public and protected methods. -/
structure Class where
  publicMethods : List Func
  protectedMethods : List Func

/-- `/repo/src/litgen/internal/adapted_types/adapted_class.py` `__init__` and `adapted_block.py:122-127, 165-166`: the published
methods, or `none` when the exception is caught around the whole class, which is then not published. -/
def classMethods (o : ClassOptions) (c : Class) : Option (List Func) :=
  (protectedMethods o c.protectedMethods).map
    (fun prot => c.publicMethods.filterMap (fun f => (publicChild o f).func) ++ prot)

end Verif.Publish
