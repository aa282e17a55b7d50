import Verif.Adapt.Model
import Verif.Template.Model
import Verif.Indent.Model
import Verif.Escape.Model
import Verif.Comment.Model

/-! Model of the code that writes the C++ binding (pydef) and the Python stub of one function
(`/repo/src/litgen/internal/adapted_types/adapted_function.py`, `adapted_decl.py`, `adapted_element.py`).

Simplifications: templates of functions and the operator `<=>`, which are split into several functions first, are not in this
part (see the parts Tpl and Publish). What depends on the rest of the program is an arbitrary function of the options:
names, types and values in Python, shorter types (`with_terse_types`), regular expressions of the user. Types with too many `const`
(for which printing raises, see C29) print as the empty text. The callback `fn_return_force_policy_reference__callback` is not modelled. -/

namespace Verif.Fn
open Verif.Py Verif.Type Verif.Adapt Verif.Template

/-- The parent class of a method: `class_name`, `qualified_class_name_with_specialization()`, the names of its inner structs
and enums (`adapted_function.py:852-865`) and the names in Python of the classes that contain it. -/
structure Cls where
  name : Str
  qualified : Str
  inner : List Str
  parents : List Str
deriving DecidableEq

/-- The parts of `/repo/src/litgen/options.py` and of `cpp_to_python.py` that this code reads. -/
structure Options where
  nanobind : Bool
  /-- `_indent_cpp_spaces()` -/
  indent : Str
  /-- `_indent_python_spaces()` -/
  pyIndent : Str
  /-- `functions_api_prefixes_list()` -/
  apiPrefixes : List Str
  /-- `var_name_to_python` -/
  varName : Str → Str
  /-- `type_to_python` -/
  typePy : Str → Str
  /-- `var_value_to_python`, in the scope of the function -/
  valuePy : Str → Str
  /-- `qualify_sibling_in_scope`, in the scope of the function -/
  qualify : Str → Str
  /-- `fn_params_type_replacements.apply` -/
  paramType : Str → Str
  /-- `CppType.with_terse_types` and `_initial_value_code_with_terse_type`, in the scope of the function -/
  terseType : CppType → CppType
  terseValue : Str → Str
  /-- `comments_replacements.apply` -/
  commentReplacements : Str → Str
  stripEmptyCommentLines : Bool
  forceOverload : Str → Bool
  gilGuard : Str → Bool
  referenceForPointers : Str → Bool
  referenceForReferences : Str → Bool
  vectorizeNamespace : Str → Bool
  vectorizeName : Str → Bool
  vectorizePrefix : Str
  vectorizeSuffix : Str
  overridable : Str → Bool
  maxLineLength : Int

/-- One function, after its adaptation: the element of the C++ tree and the adapted function (fields with `a`), see
`adapted_function.py:222-283`. `ret` is `none` when the function has no return type (constructors). -/
structure Func where
  name : Str
  /-- `str_template_specialization()` -/
  specialization : Str
  params : List Param
  ret : Option CppType
  specifiers : List Str
  pureVirtual : Bool
  cls : Option Cls
  /-- `cpp_scope_str(include_self=False)` -/
  scope : Str
  /-- `cpp_scope_to_pybind_var_name` -/
  moduleVar : Str
  /-- `_stub_function_name_python()` -/
  pyName : Str
  /-- `comment_on_previous_lines` and `comment_end_of_line` -/
  previous : Str
  eol : Str
  /-- file and line shown with `original_location_flag_show` -/
  location : Option (Str × Str)
  /-- whether one of the parents is a namespace that is not a root (`adapted_function.py:1148-1159`) -/
  inProxy : Bool
  overloaded : Bool
  typeIgnore : Bool
  vectorizeImpl : Bool
  policy : Str
  aName : Str
  aSpecialization : Str
  aParams : List Param
  aRet : Option CppType
  aSpecifiers : List Str
  adapterCode : Option Str
  lambdaToCall : Option Str
deriving DecidableEq

def static_ : Str := "static".toList
def self_ : Str := "self".toList
def colons : Str := "::".toList
def commaSpace : Str := ", ".toList

/-- `/repo/src/srcmlcpp/cpp_types/functions/cpp_function_decl.py:312-317` -/
def isMethod (f : Func) : Bool := f.cls.isSome

/-- `/repo/src/srcmlcpp/cpp_types/functions/cpp_function_decl.py:392-397` -/
def isConstructor (f : Func) : Bool := f.cls.any (fun c => f.name = c.name)

/-- `/repo/src/srcmlcpp/cpp_types/functions/cpp_function_decl.py:463-466`, for a return type. -/
def staticRet (r : Option CppType) : Bool := r.any (fun t => static_ ∈ t.specifiers)

/-- `/repo/src/srcmlcpp/cpp_types/functions/cpp_function_decl.py:300-307` `str_full_return_type`; `none` is the `AttributeError` of a
function without a return type. -/
def fullReturnType (o : Options) (r : Option CppType) : Option Str :=
  r.map (fun t => o.apiPrefixes.foldl (fun s pre => replace s (pre ++ [' ']) []) ((strReturnType o.apiPrefixes true t).getD []))

def void_ : Str := "void".toList

/-- `/repo/src/srcmlcpp/cpp_types/functions/cpp_function_decl.py:309-310` -/
def isConstFn (specifiers : List Str) : Bool := const_ ∈ specifiers

/-- `"py"` or `"nb"` -/
def lib (o : Options) : Str := if o.nanobind then "nb".toList else "py".toList

/-! ### Parameters -/

/-- `/repo/src/srcmlcpp/cpp_types/decls_types/cpp_decl.py:108-115` `type_name_default_for_signature` -/
def signatureOf (p : Param) : Str :=
  print p.type ++ [' '] ++ p.name ++ p.arrayCode ++ (if p.default = [] then [] else " = ".toList ++ p.default)

/-- `/repo/src/srcmlcpp/cpp_types/functions/cpp_parameter_list.py:76-85` `str_types_only_for_overload` -/
def overloadType (p : Param) : Str := print p.type ++ (if startsWith p.arrayCode ['['] then " *".toList else [])

def overloadTypes (ps : List Param) : Str := join commaSpace (ps.map overloadType)

/-- `/repo/src/srcmlcpp/cpp_types/functions/cpp_parameter_list.py:71-74` `str_names_only_for_call` -/
def callNames (ps : List Param) : Str := join commaSpace (ps.map (·.name))

/-- `/repo/src/litgen/internal/adapted_types/adapted_function.py:867-879` `add_class_scope_to_initial_value` -/
def scopedValue (c : Cls) (value : Str) : Option Str :=
  match split value colons with
  | a :: b :: r => if a ∈ c.inner then some (join colons (c.name :: a :: b :: r)) else none
  | _ => none

/-- `/repo/src/litgen/internal/adapted_types/adapted_function.py:835-887` `_pydef_adapt_param_if_using_inner_class` -/
def scopedParam (cls : Option Cls) (p : Param) : Param :=
  match cls with
  | none => p
  | some c =>
    match scopedValue c p.default with
    | none => p
    | some v => { p with default := v }

/-- `/repo/src/litgen/internal/adapted_types/adapted_function.py:904-910` and 1281-1286: the simplified type. -/
def simplified (t : CppType) : Str :=
  replace (replace (replace (replace (print t) "const ".toList []) "pybind11::".toList "py::".toList) " &".toList [])
    "nanobind::".toList "nb::".toList

def isArgs (t : CppType) : Bool := simplified t = "py::args".toList || simplified t = "nb::args".toList
def isKwargs (t : CppType) : Bool := simplified t = "py::kwargs".toList || simplified t = "nb::kwargs".toList

/-- `/repo/src/litgen/internal/adapted_types/adapted_decl.py:127-134`: the default value in C++. -/
def pyargDefault (o : Options) (p : Param) : Option Str :=
  let v := p.default
  let v? := if startsWith (strip v) ['{'] then (p.type.typenames.head?).map (· ++ v) else some v
  v?.map (fun v => if v = null1 ∨ v = null2 ∨ v = nullopt then lib o ++ "::none()".toList else v)

/-- `/repo/src/srcmlcpp/cpp_types/decls_types/cpp_type.py:156-159` `is_optional` -/
def isStdOptional (t : CppType) : Bool := startsWith (nameOnly t) "std::optional<".toList

/-- `/repo/src/litgen/internal/adapted_types/adapted_decl.py:122-155` `_str_pydef_as_pyarg`; `none` is the `IndexError` on
`typenames[0]`. -/
def pyarg (o : Options) (p : Param) : Option Str :=
  (pyargDefault o p).map (fun v =>
    replaceInString (lib o ++ "::arg(\"{argname_python}\"){maybe_dot_none}{maybe_equal}{maybe_defaultvalue_cpp}".toList)
      [("argname_python".toList, o.varName p.name),
       ("maybe_equal".toList, if v = [] then [] else " = ".toList),
       ("maybe_dot_none".toList, if o.nanobind && isStdOptional p.type then ".none()".toList else []),
       ("maybe_defaultvalue_cpp".toList, v)])

/-- `/repo/src/litgen/internal/adapted_types/adapted_function.py:892-898` and 1264-1270: the parameter `self` of the constructors of
nanobind is skipped. -/
def withoutCtorSelf (o : Options) (f : Func) (ps : List Param) : List Param :=
  match ps with
  | p :: r => if o.nanobind && isConstructor f && p.name = self_ then r else ps
  | [] => []

/-- all or nothing: an exception for one item is an exception for the list -/
def allSome {α : Type} : List (Option α) → Option (List α)
  | [] => some []
  | none :: _ => none
  | some a :: r => (allSome r).map (a :: ·)

/-- `/repo/src/litgen/internal/adapted_types/adapted_function.py:889-916` `_pydef_pyarg_list` -/
def pyargList (o : Options) (f : Func) : Option (List Str) :=
  allSome ((((withoutCtorSelf o f f.aParams).map (scopedParam f.cls)).filter (fun p => !isArgs p.type && !isKwargs p.type)).map (pyarg o))

/-! ### Comments -/

/-- `/repo/src/srcmlcpp/cpp_types/base/cpp_element_comments.py:111-115` `full_comment` -/
def fullComment (f : Func) : Str :=
  if f.previous ≠ [] ∧ f.eol ≠ [] then f.previous ++ "\n\n".toList ++ f.eol else f.previous ++ f.eol

/-- `/repo/src/srcmlcpp/cpp_types/base/cpp_element_comments.py:117-121` `comments_as_str` -/
def commentsAsStr (f : Func) : Str :=
  if f.previous ≠ [] ∧ f.eol ≠ [] then f.previous ++ "\n".toList ++ f.eol else f.previous ++ f.eol

/-- `/repo/src/litgen/internal/cpp_to_python.py:21-39` `_comment_apply_replacements` -/
def applyCommentReplacements (o : Options) (comment : Str) : Str :=
  let ls := if o.stripEmptyCommentLines then Lines.stripEmptyLinesInList (lines comment) else lines comment
  if ls = [] then [] else o.commentReplacements (unlines (ls.map rstrip))

/-- `/repo/src/litgen/internal/cpp_to_python.py:42-46` `comment_pydef_one_line`, for the comment of the function. -/
def docOneLine (o : Options) (f : Func) : Str :=
  applyCommentReplacements o (Escape.formatCppCommentOnOneLine (some (applyCommentReplacements o (fullComment f))))

/-- `/repo/src/litgen/internal/cpp_to_python.py:537-553` `info_original_location` -/
def location (o : Options) (f : Func) (token : Str) : Str :=
  match f.location with
  | none => []
  | some (file, line) => o.indent ++ token ++ " ".toList ++ file ++ ":".toList ++ line

/-- `/repo/src/codemanip/code_utils.py:882-889` `word_after` -/
def wordAfter (s : Str) : Str := s.takeWhile (fun c => !isSpace c)

/-- the text from the first occurrence of `token` on (`str.find`, `str.index`) -/
def fromToken (token : Str) : Str → Option Str
  | [] => if token = [] then some [] else none
  | c :: cs => if token.isPrefixOf (c :: cs) then some (c :: cs) else fromToken token cs

/-- `/repo/src/codemanip/code_utils.py:892-897` `find_word_after_token` -/
def findWordAfterToken (s token : Str) : Option Str :=
  (fromToken token s).map (fun t => wordAfter (t.drop token.length))

/-- `/repo/src/litgen/internal/adapted_types/adapted_function.py:925-935` `find_return_policy_in_comments` -/
def policyInComments (previous eol token : Str) : Option Str :=
  match findWordAfterToken eol token with
  | some w => some w
  | none => findWordAfterToken previous token

/-- `/repo/src/litgen/internal/adapted_types/adapted_function.py:937-942` -/
def policyFromComments (previous eol : Str) : Option Str :=
  match policyInComments previous eol "return_value_policy::".toList with
  | some w => some w
  | none => policyInComments previous eol "rv_policy::".toList

/-- `/repo/src/litgen/internal/adapted_types/adapted_function.py:918-960` `_pydef_fill_return_value_policy` -/
def fillPolicy (o : Options) (previous eol name : Str) (ret : Option CppType) : Str :=
  let fromComments := (policyFromComments previous eol).getD []
  let pointer := ret.any (fun t => t.modifiers = [star])
  let reference := ret.any (fun t => t.modifiers = [amp])
  if (o.referenceForPointers name && pointer) || (o.referenceForReferences name && reference) then "reference".toList
  else fromComments

/-- the text up to and including the first `()` -/
def upToParens : Str → Option Str
  | [] => none
  | c :: cs => if ['(', ')'].isPrefixOf (c :: cs) then some ['(', ')'] else (upToParens cs).map (c :: ·)

/-- `/repo/src/litgen/internal/adapted_types/adapted_function.py:962-971` `_pydef_fill_call_policy_from_function_comment` -/
def callPolicy (comment token : Str) : Option Str := (fromToken token comment).bind upToParens

/-- `/repo/src/litgen/internal/adapted_types/adapted_function.py:973-980` `_replace_py_or_nb_namespace` -/
def replaceLib (o : Options) (s : Str) : Str :=
  if o.nanobind then replace s "py::".toList "nb::".toList else replace s "nb::".toList "py::".toList

/-- `/repo/src/litgen/internal/adapted_types/adapted_function.py:982-990`: `what` is `keep_alive` or `call_guard`. -/
def policyNamed (o : Options) (comment what : Str) : Option Str :=
  (match callPolicy comment ("py::".toList ++ what) with
    | some s => some s
    | none => callPolicy comment ("nb::".toList ++ what)).map (replaceLib o)

def keepAlive (o : Options) (f : Func) : Option Str := policyNamed o (commentsAsStr f) "keep_alive".toList

/-- `/repo/src/litgen/internal/adapted_types/adapted_function.py:555-566`: the call guard of the comment and that of the options. -/
def callGuard (o : Options) (f : Func) : Option Str :=
  let fromComment := policyNamed o (commentsAsStr f) "call_guard".toList
  if o.gilGuard f.name then
    let gil := lib o ++ "::call_guard<".toList ++ lib o ++ "::gil_scoped_release>()".toList
    match fromComment with
    | none => some gil
    | some g => some (g ++ commaSpace ++ gil)
  else fromComment

/-! ### The pydef -/

/-- `/repo/src/litgen/internal/adapted_types/adapted_function.py:992-999` `_pydef_str_parent_cpp_scope` -/
def parentScope (f : Func) : Str :=
  match f.cls with
  | some c => c.qualified
  | none => f.scope

/-- `/repo/src/litgen/internal/adapted_types/adapted_function.py:1001-1005` -/
def parentScopePrefix (f : Func) : Str := if parentScope f = [] then [] else parentScope f ++ colons

/-- `/repo/src/litgen/internal/adapted_types/adapted_function.py:831-833` -/
def needsLambda (f : Func) : Bool := f.adapterCode.isSome || f.lambdaToCall.isSome

/-- `/repo/src/litgen/internal/adapted_types/adapted_function.py:482-507` `_pydef_return_str`, given the full return type. -/
def returnStr (f : Func) (fullRet : Str) : Str :=
  replaceInString "{return_or_nothing}{self_prefix}{function_to_call}({params_call_inner})".toList
    [("return_or_nothing".toList, if fullRet = void_ then [] else "return ".toList),
     ("self_prefix".toList, if isMethod f && f.lambdaToCall.isNone then "self.".toList else []),
     ("function_to_call".toList, f.lambdaToCall.getD (f.aName ++ f.aSpecialization)),
     ("params_call_inner".toList, callNames f.aParams)]

/-- `/repo/src/litgen/internal/adapted_types/adapted_function.py:510-519`: the template, before `unindent_code`. -/
def endTemplateRaw : Str := "
            {_i_}{maybe_py_arg}{maybe_comma}
            {_i_}{maybe_docstring}{maybe_comma}
            {_i_}{maybe_return_value_policy}{maybe_comma}
            {_i_}{maybe_keep_alive}{maybe_comma}
            {_i_}{maybe_call_guard}{maybe_comma}
            ".toList

/-- `/repo/src/litgen/internal/adapted_types/adapted_function.py:545-552` -/
def policyText (o : Options) (f : Func) : Option Str :=
  if f.policy = [] then none
  else some ((if o.nanobind then "nb::rv_policy::".toList else "py::return_value_policy::".toList) ++ f.policy)

/-- a C++ string literal with this content, or nothing -/
def quoted (s : Str) : Option Str := if s = [] then none else some (['"'] ++ s ++ ['"'])

/-- `/repo/src/litgen/internal/adapted_types/adapted_function.py:509-580` `_pydef_end_arg_docstring_returnpolicy` -/
def endPart (o : Options) (f : Func) : Option Str :=
  (pyargList o f).map (fun args =>
    let code := processCodeTemplate (Indent.unindentCode endTemplateRaw true)
      [("_i_".toList, o.indent)]
      [("maybe_py_arg".toList, if args = [] then none else some (join commaSpace args)),
       ("maybe_docstring".toList, quoted (docOneLine o f)),
       ("maybe_return_value_policy".toList, policyText o f),
       ("maybe_keep_alive".toList, keepAlive o f),
       ("maybe_call_guard".toList, callGuard o f)]
    code ++ ")".toList ++ (if isMethod f then [] else ";".toList))

/-- `/repo/src/litgen/internal/adapted_types/adapted_function.py:594-602`, the same at 1066-1071: the name in Python. -/
def shownName (o : Options) (f : Func) : Str :=
  if f.vectorizeImpl then o.vectorizePrefix ++ f.pyName ++ o.vectorizeSuffix else f.pyName

/-- `/repo/src/litgen/internal/adapted_types/adapted_function.py:584-589` -/
def creationTemplateRaw : Str := "
            {module_or_class}.{def_maybe_static}(\"{function_name_python}\",{location}
            ".toList

/-- `/repo/src/litgen/internal/adapted_types/adapted_function.py:582-609` `_pydef_method_creation_part` -/
def creationPart (o : Options) (f : Func) : Str :=
  processCodeTemplate (Indent.unindentCode creationTemplateRaw true)
    [("module_or_class".toList, if isMethod f then [] else f.moduleVar),
     ("function_name_python".toList, shownName o f),
     ("location".toList, location o f "//".toList),
     ("def_maybe_static".toList, if staticRet f.ret && isMethod f then "def_static".toList else "def".toList)]

/-- `/repo/src/litgen/internal/adapted_types/adapted_function.py:626-636`: the address of the function. -/
def addressOf (f : Func) : Str :=
  let p := parentScopePrefix f ++ f.name ++ f.specialization
  let p := if f.vectorizeImpl then "py::vectorize(".toList ++ p ++ ")".toList else p
  if isMethod f then "&".toList ++ p else p

/-- `/repo/src/litgen/internal/adapted_types/adapted_function.py:639-661` -/
def functionPointer (o : Options) (f : Func) : Str :=
  if f.overloaded || o.forceOverload f.name then
    if isMethod f && f.params = [] then
      "[](".toList ++ parentScope f ++ " & self) { return self.".toList ++ f.name ++ f.specialization ++ "(); }".toList
    else if isConstFn f.specifiers then
      lib o ++ "::overload_cast<".toList ++ overloadTypes f.params ++ ">(".toList ++ addressOf f ++ commaSpace ++ lib o ++ "::const_)".toList
    else
      lib o ++ "::overload_cast<".toList ++ overloadTypes f.params ++ ">(".toList ++ addressOf f ++ ")".toList
  else addressOf f

/-- `/repo/src/litgen/internal/adapted_types/adapted_function.py:613-615` -/
def directTemplateRaw : Str := "
            {pydef_method_creation_part}
            {_i_}{function_pointer}{maybe_comma}{pydef_end_arg_docstring_returnpolicy}".toList

/-- `/repo/src/litgen/internal/adapted_types/adapted_function.py:611-684` `_pydef_without_lambda_str_impl` -/
def directStr (o : Options) (f : Func) : Option Str :=
  (endPart o f).map (fun e =>
    processCodeTemplate ((Indent.unindentCode directTemplateRaw).drop 1)
      [("_i_".toList, o.indent),
       ("pydef_method_creation_part".toList, creationPart o f),
       ("function_pointer".toList, functionPointer o f),
       ("pydef_end_arg_docstring_returnpolicy".toList, if contains e ['\n'] then ['\n'] ++ e else lstrip e)]
      [])

/-- `/repo/src/litgen/internal/adapted_types/adapted_function.py:689-696` -/
def lambdaTemplateRaw : Str := "
            {pydef_method_creation_part}
            {_i_}[]({params_call_with_self_if_method}){lambda_return_arrow}
            {_i_}{
            {_i_}{_i_}{lambda_adapter_code}
            {maybe_empty_line}
            {_i_}{_i_}{return_code};
            {_i_}}{maybe_close_paren_if_ctor}{maybe_comma}{pydef_end_arg_docstring_returnpolicy}".toList

/-- `/repo/src/litgen/internal/adapted_types/adapted_function.py:720-727`: the parameters of the lambda. -/
def lambdaParams (f : Func) : List Str :=
  let ps := f.aParams.map signatureOf
  if isMethod f && !isConstructor f then
    ((if isConstFn f.aSpecifiers then "const ".toList else []) ++ parentScope f ++ " & self".toList) :: ps
  else ps

/-- `/repo/src/litgen/internal/adapted_types/adapted_function.py:740-749` -/
def lambdaCode (o : Options) (f : Func) : Option Str :=
  f.adapterCode.map (fun c =>
    let c := Indent.indentCode c 1 true (some (o.indent ++ o.indent))
    if endsWith c ['\n'] then c.dropLast else c)

/-- `/repo/src/litgen/internal/adapted_types/adapted_function.py:707-718`: the first line and the text that closes `py::init(`. -/
def lambdaHead (o : Options) (f : Func) : Str × Str :=
  if isConstructor f then
    if o.nanobind then (".def(\"__init__\", ".toList, []) else (".def(py::init(".toList, ")".toList)
  else (creationPart o f, [])

/-- `/repo/src/litgen/internal/adapted_types/adapted_function.py:686-768` `_pydef_with_lambda_str_impl` -/
def lambdaStr (o : Options) (f : Func) : Option Str :=
  (fullReturnType o f.aRet).bind (fun fullRet => (endPart o f).map (fun e =>
    processCodeTemplate ((Indent.unindentCode lambdaTemplateRaw).drop 1)
      [("_i_".toList, o.indent),
       ("pydef_method_creation_part".toList, (lambdaHead o f).1),
       ("maybe_close_paren_if_ctor".toList, (lambdaHead o f).2),
       ("params_call_with_self_if_method".toList, join commaSpace (lambdaParams f)),
       ("lambda_return_arrow".toList, if fullRet = void_ then [] else " -> ".toList ++ fullRet),
       ("return_code".toList, returnStr f fullRet),
       ("pydef_end_arg_docstring_returnpolicy".toList, if contains e ['\n'] then ['\n'] ++ e else e)]
      [("lambda_adapter_code".toList, lambdaCode o f),
       ("maybe_empty_line".toList, (lambdaCode o f).map (fun _ => []))]))

/-- `/repo/src/litgen/internal/adapted_types/adapted_function.py:778-781` -/
def ctorTemplateRaw : Str := "
            .def({py}::init<{arg_types}>(){maybe_comma}{location}
            {_i_}{maybe_pyarg}{maybe_comma}
            {_i_}{maybe_docstring}".toList

/-- `/repo/src/litgen/internal/adapted_types/adapted_function.py:770-829` `_pydef_constructor_str` -/
def ctorStr (o : Options) (f : Func) : Option Str :=
  if "delete".toList ∈ f.specifiers then some []
  else (pyargList o f).map (fun args =>
    let code := replaceInString ((Indent.unindentCode ctorTemplateRaw).drop 1)
      [("_i_".toList, o.indent), ("py".toList, lib o), ("location".toList, location o f "//".toList),
       ("arg_types".toList, overloadTypes f.params)]
    let code := replaceInStringRemoveLineIfNone code
      [("maybe_docstring".toList, quoted (docOneLine o f)),
       ("maybe_pyarg".toList, if args = [] then none else some (join commaSpace args))]
    Comment.addItemBeforeCppComment (replaceMaybeComma code 0) ")".toList)

/-- `/repo/src/litgen/internal/adapted_types/adapted_function.py:460-469`: the code of one binding. -/
def pydefCode (o : Options) (f : Func) : Option Str :=
  if needsLambda f then lambdaStr o f
  else if isConstructor f then ctorStr o f
  else directStr o f

/-- `/repo/src/litgen/internal/adapted_types/adapted_function.py:416-425` `shall_vectorize` -/
def shallVectorize (o : Options) (f : Func) : Bool :=
  !o.nanobind && o.vectorizeNamespace f.scope && o.vectorizeName f.name && !f.vectorizeImpl

/-- `/repo/src/litgen/internal/adapted_types/adapted_function.py:437-480` `pydef_lines`, for a function that is neither a template nor the
operator `<=>`. -/
def pydefLines (o : Options) (f : Func) : Option (List Str) :=
  (pydefCode o f).bind (fun code =>
    if shallVectorize o f then (pydefCode o { f with vectorizeImpl := true }).map (fun v => lines code ++ lines v)
    else some (lines code))

/-! ### The stub -/

def isOperator (name : Str) : Bool := startsWith name "operator".toList

/-- `/repo/src/srcmlcpp/cpp_types/functions/cpp_function_decl.py:443-446` -/
def operatorName (name : Str) : Str := strip (name.drop 8)

/-- `/repo/src/litgen/internal/adapted_types/adapted_function.py:1195-1236` `_add_class_hierarchy_to_python_type__fixme` -/
def withHierarchy (f : Func) (t : Str) : Str :=
  match f.cls with
  | none => t
  | some c => if c.name = t then (if c.parents = [] then t else join ".".toList c.parents ++ ".".toList ++ t) else t

/-- `/repo/src/litgen/internal/adapted_types/adapted_function.py:1238-1255` `_stub_return_type_python` -/
def stubReturn (o : Options) (f : Func) : Option Str :=
  if f.ret.any (fun t => t.typenames = ["auto".toList]) then some "Any".toList
  else if isConstructor f then some "None".toList
  else if isOperator f.name && operatorName f.name = "bool".toList then some "bool".toList
  else (fullReturnType o (f.aRet.map o.terseType)).map (fun r =>
    let r := withHierarchy f (o.typePy r)
    if isMethod f then o.qualify r else r)

/-- `/repo/src/srcmlcpp/cpp_types/decls_types/cpp_decl.py:356-376` -/
def terse (o : Options) (p : Param) : Param := { p with type := o.terseType p.type, default := o.terseValue p.default }

/-- `/repo/src/litgen/internal/adapted_types/adapted_function.py:1296-1312`: the type shown in the stub. -/
def stubType (o : Options) (f : Func) (p : Param) : Str :=
  let t := o.typePy (o.paramType (print p.type))
  let t := if star ∈ p.type.modifiers ∧ (p.default = null1 ∨ p.default = null2) then "Optional[".toList ++ t ++ "]".toList else t
  let t := withHierarchy f t
  let t := if isOperator f.name ∧ (operatorName f.name = "==".toList ∨ operatorName f.name = "!=".toList) then "object".toList else t
  let t := if f.vectorizeImpl then "np.ndarray".toList else t
  if isMethod f then o.qualify t else t

/-- `/repo/src/litgen/internal/adapted_types/adapted_function.py:1306-1318`: the default value shown in the stub; `none` is the
`IndexError` on `typenames[0]`. -/
def stubDefault (o : Options) (f : Func) (p : Param) : Option Str :=
  let v := strip p.default
  let v? := if startsWith v ['{'] && endsWith v ['}'] then
      (p.type.typenames.head?).map (fun t => t ++ "(".toList ++ (v.drop 1).dropLast ++ ")".toList)
    else some v
  v?.map (fun v => if isMethod f then o.qualify (o.valuePy v) else o.valuePy v)

/-- `/repo/src/litgen/internal/adapted_types/adapted_function.py:1272-1325`: one parameter of the stub. -/
def stubParam (o : Options) (f : Func) (p : Param) : Option Str :=
  if isArgs p.type then some "*args".toList
  else if isKwargs p.type then some "**kwargs".toList
  else (stubDefault o f p).map (fun d =>
    o.varName p.name ++ ": ".toList ++ stubType o f p ++ (if d = [] then [] else " = ".toList ++ d))

/-- `/repo/src/litgen/internal/adapted_types/adapted_function.py:1257-1329` `_stub_params_list_signature` -/
def stubParams (o : Options) (f : Func) : Option (List Str) :=
  (allSome ((withoutCtorSelf o f (f.aParams.map (terse o))).map (stubParam o f))).map (fun r =>
    if isMethod f && !staticRet f.aRet then self_ :: r else r)

/-- `/repo/src/srcmlcpp/cpp_types/functions/cpp_function_decl.py:332-338` `is_virtual_method` -/
def isVirtual (f : Func) : Bool :=
  isMethod f && f.ret.any (fun t => "virtual".toList ∈ t.specifiers || "override".toList ∈ f.specifiers)

/-- `/repo/src/litgen/internal/adapted_types/adapted_function.py:1047-1064`: the comments at the end of the header. -/
def headerComment (o : Options) (f : Func) : Str :=
  (if f.typeIgnore then "  # type: ignore".toList else []) ++
  (if isVirtual f && f.cls.any (fun c => o.overridable c.name) then
    " # overridable".toList ++ (if f.pureVirtual then " (pure virtual)".toList else [])
  else [])

/-- `/repo/src/litgen/internal/adapted_types/adapted_function.py:1098-1105`: every parameter but the last is followed by a comma. -/
def withCommas : List Str → List Str
  | [] => []
  | [p] => [p]
  | p :: q :: r => (p ++ commaSpace) :: withCommas (q :: r)

/-- `/repo/src/litgen/internal/adapted_types/adapted_function.py:1066-1114`: the lines of the header. -/
def titleLines (o : Options) (f : Func) (params : List Str) (ret : Str) : List Str :=
  let def_ := "def ".toList ++ shownName o f ++ "(".toList
  let arrow := if f.vectorizeImpl then ") -> np.ndarray:".toList else ") -> ".toList ++ ret ++ ":".toList
  let one := def_ ++ join commaSpace params ++ arrow ++ headerComment o f
  if o.maxLineLength ≤ 0 ∨ (one.length : Int) < o.maxLineLength then [one]
  else [def_ ++ headerComment o f] ++ withCommas params ++ [arrow]

/-- `/repo/src/litgen/internal/cpp_to_python.py:564-590` `docstring_lines`, for a comment after its replacements. -/
def docstringLines (doc : Str) : List Str :=
  let d := if startsWith doc ['"'] then [' '] ++ doc else doc
  let d := if endsWith d ['"'] then d ++ [' '] else d
  if d = [] then []
  else match lines d with
    | [] => []
    | [l] => [['"', '"', '"'] ++ l ++ ['"', '"', '"']]
    | l :: r => (['"', '"', '"'] ++ l) :: r ++ [['"', '"', '"']]

/-- `/repo/src/litgen/internal/adapted_types/adapted_element.py:162-191` `_elm_str_stub_layout_lines`, for a function (its body is `pass`). -/
def layoutLines (o : Options) (f : Func) (title : List Str) : List Str :=
  let title := match title with
    | [] => []
    | t :: r => (t ++ location o f "#".toList) :: r
  Indent.indentCodeLines (title ++ docstringLines (applyCommentReplacements o (fullComment f)) ++
    Comment.alignPythonCommentsInBlockLines ["pass".toList]) 1 true (some o.pyIndent)

/-- `/repo/src/litgen/internal/adapted_types/adapted_function.py:1117-1137`: the decorators, from the outermost. -/
def decorators (o : Options) (f : Func) : List Str :=
  let vectorized := (f.vectorizeImpl || shallVectorize o f) && o.vectorizePrefix = [] && o.vectorizeSuffix = []
  (if (f.inProxy && !isMethod f) || (isMethod f && staticRet f.aRet) then ["@staticmethod".toList] else []) ++
  (if f.overloaded || vectorized then ["@overload".toList] else [])

/-- `/repo/src/litgen/internal/adapted_types/adapted_function.py:1046-1139`: the stub of one binding, given the lines that show the
original code (`_elm_stub_original_code_lines_info`). -/
def stubOne (o : Options) (f : Func) (original : List Str) : Option (List Str) :=
  (stubReturn o f).bind (fun ret => (stubParams o f).map (fun ps =>
    original ++ decorators o f ++ layoutLines o f (titleLines o f ps ret)))

/-- `/repo/src/litgen/internal/adapted_types/adapted_function.py:1017-1146` `stub_lines`, for a function that is neither a template nor the
operator `<=>`. -/
def stubLines (o : Options) (f : Func) (original : List Str) : Option (List Str) :=
  (stubOne o f original).bind (fun r =>
    if shallVectorize o f then (stubOne o { f with vectorizeImpl := true } original).map (fun v => r ++ v)
    else some r)

end Verif.Fn
