import Verif.Py.Str
import Verif.Indent.Model
import Verif.Template.Model

/-! Model of the helper classes written to the glue code, and of the text of the named constructors, in
`/repo/src/litgen/internal/adapted_types/adapted_class.py`. -/

namespace Verif.Glue
open Verif.Py

/-- `/repo/src/srcmlcpp/cpp_types/scope/cpp_scope.py:8-12` `CppScopeType` -/
inductive ScopeType where
  | namespace_
  | classOrStruct
  | enum
  | unknown
deriving DecidableEq

/-- `/repo/src/srcmlcpp/cpp_types/scope/cpp_scope.py:15-18` `CppScopePart` -/
structure ScopePart where
  type : ScopeType
  name : Str
deriving DecidableEq

/-- `/repo/src/litgen/internal/adapted_types/adapted_class.py:1126-1130`, the loop on the parts; `none` is the exception. -/
def scopeIntro : List ScopePart → Option Str
  | [] => some []
  | p :: ps =>
    if p.type = .namespace_ then (scopeIntro ps).map (fun r => "namespace ".toList ++ p.name ++ " { ".toList ++ r) else none

/-- `/repo/src/litgen/internal/adapted_types/adapted_class.py:1132-1134` -/
def scopeComment (p : ScopePart) : Str := if p.type = .namespace_ then " // namespace ".toList ++ p.name ++ " ".toList else []

/-- `/repo/src/litgen/internal/adapted_types/adapted_class.py:1120-1136` `_glue_scope_intro_outro` -/
def glueScopeIntroOutro (scope : List ScopePart) : Option (Str × Str) :=
  (scopeIntro scope).map (fun intro => (intro, (List.replicate scope.length "} ".toList).flatten ++ scope.reverse.flatMap scopeComment))

/-- `/repo/src/litgen/internal/adapted_types/adapted_class.py:1155-1161` `using_list` -/
def usingList (className : Str) (methods : List Str) : List Str :=
  methods.map (fun m => "using ".toList ++ className ++ "::".toList ++ m ++ ";".toList)

/-- The f-string of `/repo/src/litgen/internal/adapted_types/adapted_class.py:1166-1173`, with the indentation of the Python source. -/
def publicistTemplate : Str := unlines
  [[],
   spaces 12 ++ "// helper type for exposing protected functions".toList,
   spaces 12 ++ "class {publicist_class_name} : public {class_name}".toList,
   spaces 12 ++ "{".toList,
   spaces 12 ++ "public:".toList,
   spaces 12 ++ "{using_list}".toList,
   spaces 12 ++ "};".toList,
   spaces 8]

/-- `/repo/src/litgen/internal/adapted_types/adapted_class.py:1165-1184` -/
def publicistCode (className indent : Str) (methods : List Str) : Str :=
  Template.processCodeTemplate (Indent.unindentCode publicistTemplate true)
    [("publicist_class_name".toList, className ++ "_publicist".toList), ("class_name".toList, className),
     ("using_list".toList, Indent.indentCode (unlines (usingList className methods)) 1 false (some indent))]

/-- `/repo/src/litgen/internal/adapted_types/adapted_class.py:1102-1108, 1186-1192`: the text that is added to the glue code; `none` is the
exception of `_glue_scope_intro_outro`. -/
def inScope (scope : List ScopePart) (code : Str) : Option Str :=
  (glueScopeIntroOutro scope).map (fun io => "\n".toList ++ unlines ([io.1] ++ lines code ++ [io.2]) ++ "\n".toList)

/-- `/repo/src/litgen/internal/adapted_types/adapted_class.py:1145-1192` `_prot_store_glue`: what is added to the glue code. `exposed` tells
whether the option matches the class name, `methods` are the names of the publishable protected methods. -/
def protGlue (exposed : Bool) (scope : List ScopePart) (className indent : Str) (methods : List Str) : Option Str :=
  if !exposed then some []
  else if methods.length = 0 then some []
  else inScope scope (publicistCode className indent methods)

/-- A virtual method, as texts: `params` and `paramNames` are `str_types_names_default_for_signature` and `str_names_only_for_call` of its
parameters. -/
structure VMethod where
  ret : Str
  name : Str
  pyName : Str
  isConst : Bool
  isPure : Bool
  nbParams : Nat
  params : Str
  paramNames : Str

/-- The template of `/repo/src/litgen/internal/adapted_types/adapted_function.py:1444-1472`. -/
def overrideTemplate (pybind : Bool) : Str := unlines (
  [[],
   spaces 12 ++ "{return_type} {function_name_cpp}({param_list}){maybe_const} override".toList,
   spaces 12 ++ "{".toList,
   spaces 12 ++ "{_i_}{OVERRIDE_TYPE}(".toList] ++
  (if pybind then
    [spaces 12 ++ "{_i_}{_i_}{return_type}, // return type".toList,
     spaces 12 ++ "{_i_}{_i_}{implemented_class}, // parent class".toList]
   else []) ++
  [spaces 12 ++ "{_i_}{_i_}\"{function_name_python}\", // function name (python)".toList,
   spaces 12 ++ "{_i_}{_i_}{function_name_cpp}{maybe_comma_if_has_params} // function name (c++)".toList,
   spaces 12 ++ "{_i_}{_i_}{param_names} // params".toList,
   spaces 12 ++ "{_i_});".toList,
   spaces 12 ++ "}".toList,
   spaces 12])

/-- `/repo/src/litgen/internal/adapted_types/adapted_function.py:1480-1483` -/
def overrideMacro (pybind isPure : Bool) : Str :=
  if pybind then (if isPure then "PYBIND11_OVERRIDE_PURE_NAME".toList else "PYBIND11_OVERRIDE_NAME".toList)
  else (if isPure then "NB_OVERRIDE_PURE_NAME".toList else "NB_OVERRIDE_NAME".toList)

/-- `/repo/src/litgen/internal/adapted_types/adapted_function.py:1440-1502` `virt_glue_override_virtual_methods_in_python` -/
def overrideLines (pybind : Bool) (indent implementedClass : Str) (m : VMethod) : List Str :=
  lines (Template.processCodeTemplate (Indent.unindentCode (overrideTemplate pybind) true)
    [("OVERRIDE_TYPE".toList, overrideMacro pybind m.isPure), ("_i_".toList, indent), ("return_type".toList, m.ret),
     ("function_name_cpp".toList, m.name), ("function_name_python".toList, m.pyName),
     ("maybe_const".toList, if m.isConst then " const".toList else []), ("implemented_class".toList, implementedClass),
     ("param_list".toList, m.params), ("maybe_comma_if_has_params".toList, if m.nbParams > 0 then ",".toList else [])]
    [("param_names".toList, if m.nbParams > 0 then some m.paramNames else none)])

/-- The templates of `/repo/src/litgen/internal/adapted_types/adapted_class.py:1051-1077`. -/
def trampolineTemplate (pybind : Bool) : Str := unlines
  [[],
   spaces 16 ++ "// helper type to enable overriding virtual methods in python".toList,
   spaces 16 ++ "class {trampoline_class_name} : public {class_name}".toList,
   spaces 16 ++ "{".toList,
   spaces 16 ++ "public:".toList,
   spaces 16 ++ (if pybind then "    using {class_name}::{class_name};".toList
                 else "    NB_TRAMPOLINE({class_name}, {nb_virtual_methods});".toList),
   [],
   spaces 16 ++ "{trampoline_list}".toList,
   spaces 16 ++ "};".toList,
   spaces 16]

/-- `/repo/src/litgen/internal/adapted_types/adapted_class.py:1080-1100` -/
def trampolineCode (pybind : Bool) (qualifiedClass className indent : Str) (methods : List VMethod) : Str :=
  Template.processCodeTemplate (Indent.unindentCode (trampolineTemplate pybind) true)
    [("trampoline_class_name".toList, className ++ "_trampoline".toList),
     ("nb_virtual_methods".toList, (toString methods.length).toList), ("class_name".toList, className),
     ("trampoline_list".toList,
       Indent.indentCode (unlines (methods.flatMap (overrideLines pybind indent qualifiedClass))) 1 false (some indent))]

/-- `/repo/src/litgen/internal/adapted_types/adapted_class.py:1040-1118` `_virt_store_glue_override` with `_virt_shall_override`: what is
added to the glue code. `active` tells whether the option matches the class name. -/
def virtGlue (pybind active : Bool) (scope : List ScopePart) (qualifiedClass className indent : Str) (methods : List VMethod) :
    Option Str :=
  if !active then some []
  else if !decide (methods.length > 0) then some []
  else inScope scope (trampolineCode pybind qualifiedClass className indent methods)

/-- A member of a class: the text of its type (`str_code`), its modifiers and specifiers, its name, its initial value, and whether the
options exclude it (by the type of a template, `/repo/src/litgen/internal/adapted_types/adapted_class.py:1258`; by type, name or name
and class, 1287-1299). -/
structure Member where
  typ : Str
  modifiers : List Str
  specifiers : List Str
  name : Str
  init : Str
  bitfield : Str
  cArray : Str
  excludedTpl : Bool
  excluded : Bool

/-- `/repo/src/litgen/internal/adapted_types/adapted_class.py:1263-1300` `can_be_set` -/
def canBeSet (m : Member) : Bool :=
  if m.modifiers.count "*".toList > 1 then false
  else if "const".toList ∈ m.specifiers ∨ "constexpr".toList ∈ m.specifiers ∨ "extern".toList ∈ m.specifiers then false
  else if m.bitfield.length > 0 then false
  else if m.cArray.length > 0 then false
  else if m.modifiers.count "*".toList > 0 then false
  else if m.modifiers.count "&".toList > 0 then false
  else if contains m.typ " ".toList then false
  else if m.excluded then false
  else true

/-- `/repo/src/litgen/internal/adapted_types/adapted_class.py:1251-1303` `compatible_members_list`; `named` is
`flag_generate_named_ctor_params()`. -/
def compatibleMembers (named : Bool) (publicMembers : List Member) : List Member :=
  if !named then [] else (publicMembers.filter (fun m => !m.excludedTpl)).filter canBeSet

/-- `/repo/src/litgen/internal/adapted_types/adapted_class.py:1310-1317` -/
def memberParam (m : Member) : Str :=
  let s := m.typ ++ " ".toList ++ m.name
  if m.init.length > 0 then s ++ " = ".toList ++ m.init else s ++ (" = ".toList ++ m.typ ++ "()".toList)

/-- `/repo/src/litgen/internal/adapted_types/adapted_class.py:1319-1322` -/
def structText (className params : Str) : Str := unlines
  [[], spaces 16 ++ "struct ".toList ++ className ++ " {".toList, spaces 20 ++ className ++ "(".toList ++ params ++ ");".toList,
   spaces 16 ++ "};".toList, spaces 12]

/-- `/repo/src/litgen/internal/adapted_types/adapted_class.py:1326-1331`, the body of the loop. -/
def wrapPart (code : Str) (p : ScopePart) : Str :=
  if p.type = .namespace_ then "namespace ".toList ++ p.name ++ " {\n".toList ++ code ++ "\n}\n".toList
  else if p.type = .classOrStruct then "namespace ".toList ++ p.name ++ " {\n".toList ++ code ++ "\n}\n".toList
  else code

/-- `/repo/src/litgen/internal/adapted_types/adapted_class.py:1306-1333` `make_fake_struct_cpp_code` -/
def fakeStruct (named : Bool) (scope : List ScopePart) (className : Str) (publicMembers : List Member) : Str :=
  scope.foldl wrapPart (structText className (join ", ".toList ((compatibleMembers named publicMembers).map memberParam)))

end Verif.Glue
