import Verif.Print.Model
import Verif.Template.Model
import Verif.Lines.Model

/-! Model of `/repo/src/srcmlcpp_tools/pimpl_my_class/pimpl_my_class.py`: the class that is published for an implementation class, and its glue code.

Simplifications: the text of the type of a parameter is given (`Print.Decl.ty`); a return type with three `const` (`ValueError`) has an empty text; the files
(`pimpl_my_file`) are not modelled, the code that was parsed is the list of its classes. -/

namespace Verif.Pimpl
open Verif.Py Verif.Template Verif.Print

/-- `/repo/src/srcmlcpp_tools/pimpl_my_class/pimpl_my_class.py:34-41` -/
structure Options where
  suffixes : List Str
  indentStr : Str
  indentPublic : Str
  maxEmptyLines : Int
  lineFeedBeforeBlock : Bool
  member : Str
deriving DecidableEq

/-- `/repo/src/srcmlcpp_tools/pimpl_my_class/pimpl_my_class.py:35-55` -/
def defaultOptions : Options :=
  { suffixes := ["_pimpl", "_impl", "pimpl", "impl", "_PImpl", "_Impl", "PImpl", "Impl", "_Pimpl", "Pimpl"].map String.toList
    indentStr := "    ".toList
    indentPublic := "  ".toList
    maxEmptyLines := 2
    lineFeedBeforeBlock := true
    member := "mPImpl".toList }

/-- What is read of a class: `CppClass` or `CppStruct`, name, comments, children. -/
structure Class where
  isClass : Bool
  name : Str
  comments : Comments
  children : List Elem

/-- `/repo/src/srcmlcpp_tools/pimpl_my_class/pimpl_my_class.py:69-74` `_published_class_name`; `none` is the exception. -/
def publishedName (suffixes : List Str) (name : Str) : Option Str :=
  match suffixes with
  | [] => none
  | s :: l => if endsWith name s then some (name.take (name.length - s.length)) else publishedName l name

/-- `list.remove`, if the element is there. -/
def removeSpecifier (s : Str) (f : Fn) : Fn :=
  match f.ret with
  | none => f
  | some t => { f with ret := some { t with specifiers := t.specifiers.erase s } }

/-- `/repo/src/srcmlcpp_tools/pimpl_my_class/pimpl_my_class.py:122-129` `_remove_published_incompatible_specifiers` -/
def removeIncompatible (f : Fn) : Fn := removeSpecifier "constexpr".toList (removeSpecifier "inline".toList f)

/-- `"static" in cpp_function.return_type.specifiers` -/
def isStatic (f : Fn) : Bool :=
  match f.ret with
  | none => false
  | some t => t.specifiers.contains "static".toList

/-- `cpp_function.return_type.str_code() if cpp_function.has_return_type() else ""` -/
def retText (f : Fn) : Str :=
  match f.ret with
  | none => []
  | some t => (Type.strCode t).getD []

/-- `/repo/src/srcmlcpp_tools/pimpl_my_class/pimpl_my_class.py:111-113`, with `is_void` (`cpp_type.py:145-146`) -/
def maybeReturn (f : Fn) : Str :=
  match f.ret with
  | none => []
  | some t => if t.typenames = ["void".toList] ∧ t.specifiers = [] ∧ t.modifiers = [] then [] else "return ".toList

/-- `/repo/src/srcmlcpp/cpp_types/functions/cpp_parameter_list.py:71-74` `str_names_only_for_call` -/
def namesOnly (ps : List Decl) : Str := join ", ".toList (ps.map (·.name))

/-- `/repo/src/srcmlcpp_tools/pimpl_my_class/pimpl_my_class.py:87-93` and `:95-101` -/
def methodTemplate (static : Bool) : Str :=
  if static then
    ("\n            {return_type} {class_published}::{method_name}({params_list}) {maybe_const}{\n" ++
     "            {_i_}{maybe_return}{class_impl}::{method_name}({param_names}); }\n            ").toList
  else
    ("\n            {return_type} {class_published}::{method_name}({params_list}) {maybe_const}{\n" ++
     "            {_i_}{maybe_return}{impl_name}->{method_name}({param_names}); }\n            ").toList

/-- `/repo/src/srcmlcpp_tools/pimpl_my_class/pimpl_my_class.py:103-115` -/
def methodReplacements (o : Options) (pub impl : Str) (f : Fn) : List (Str × Str) :=
  [("_i_".toList, o.indentStr), ("class_published".toList, pub), ("class_impl".toList, impl), ("impl_name".toList, o.member),
   ("return_type".toList, retText f), ("method_name".toList, f.name), ("params_list".toList, paramsCode f.params),
   ("maybe_return".toList, maybeReturn f), ("param_names".toList, namesOnly f.params),
   ("maybe_const".toList, if f.specifiers.contains "const".toList then "const ".toList else [])]

/-- `/repo/src/srcmlcpp_tools/pimpl_my_class/pimpl_my_class.py:76-120` `_published_method_glue_impl`, given the name of the published class. -/
def methodImpl (o : Options) (pub impl : Str) (f : Fn) : Str :=
  let g := removeIncompatible (if isStatic f then removeSpecifier "static".toList f else f)
  processCodeTemplate (Indent.unindentCode (methodTemplate (isStatic f)) true) (methodReplacements o pub impl g)

/-- `/repo/src/srcmlcpp/cpp_types/base/cpp_element_comments.py:68-88` `top_comment_code(add_eol=False)` -/
def topCodeNoEol (c : Comments) : Str :=
  if c.cStyle then "/*".toList ++ (c.top ++ "*/".toList)
  else ((unlines ((splitlines c.top).map lineComment)).reverse.dropWhile (· = '\n')).reverse

/-- `/repo/src/srcmlcpp_tools/pimpl_my_class/pimpl_my_class.py:139-144` -/
def methodDeclTemplate : Str :=
  "\n        {top_comment}{return_type} {method_name}({params_list}){maybe_const};{maybe_eol_comment}\n        ".toList

/-- `/repo/src/srcmlcpp_tools/pimpl_my_class/pimpl_my_class.py:146-152` -/
def methodDeclReplacements (c : Comments) (f : Fn) : List (Str × Str) :=
  [("top_comment".toList, topCode c), ("return_type".toList, retText f), ("method_name".toList, f.name), ("params_list".toList, paramsCode f.params),
   ("maybe_eol_comment".toList, eolCode c), ("maybe_const".toList, if f.specifiers.contains "const".toList then " const".toList else [])]

/-- `/repo/src/srcmlcpp_tools/pimpl_my_class/pimpl_my_class.py:131-158` `_published_method_decl`; a second occurrence of the unwanted specifiers is removed
too (lines 133-137). -/
def methodDecl (c : Comments) (f : Fn) : Str :=
  processCodeTemplate (Indent.unindentCode methodDeclTemplate true) (methodDeclReplacements c (removeIncompatible (removeIncompatible f)))
    [("top_comment".toList, some (topCodeNoEol c))]

/-- `/repo/src/srcmlcpp_tools/pimpl_my_class/pimpl_my_class.py:161-167` -/
def ctorTemplate : Str :=
  ("\n        {class_published}::{class_published}({param_list})\n" ++
   "        {_i_}: {impl_name}(std::make_unique<{class_impl}>({param_names})) { }\n        ").toList

/-- `/repo/src/srcmlcpp_tools/pimpl_my_class/pimpl_my_class.py:160-180` `_published_constructor_impl` -/
def ctorImpl (o : Options) (pub impl : Str) (f : Fn) : Str :=
  processCodeTemplate (Indent.unindentCode ctorTemplate true)
    [("_i_".toList, o.indentStr), ("param_list".toList, paramsCode f.params), ("class_published".toList, pub), ("class_impl".toList, impl),
     ("impl_name".toList, o.member), ("param_names".toList, namesOnly f.params)]

/-- `/repo/src/srcmlcpp_tools/pimpl_my_class/pimpl_my_class.py:183-188` -/
def ctorDeclTemplate : Str := "\n    {top_comment}{class_published}({param_list});{maybe_eol_comment}\n        ".toList

/-- `/repo/src/srcmlcpp_tools/pimpl_my_class/pimpl_my_class.py:182-200` `_published_constructor_decl` -/
def ctorDecl (pub : Str) (c : Comments) (f : Fn) : Str :=
  processCodeTemplate (Indent.unindentCode ctorDeclTemplate true)
    [("top_comment".toList, topCode c), ("class_published".toList, pub), ("param_list".toList, paramsCode f.params),
     ("maybe_eol_comment".toList, eolCode c)]
    [("top_comment".toList, some (topCodeNoEol c))]

/-- `isinstance(child, CppConstructorDecl)` -/
def isCtor (f : Fn) : Bool :=
  match f.kind with
  | .ctorDecl => true
  | .ctor => true
  | _ => false

/-- `/repo/src/srcmlcpp/cpp_types/functions/cpp_function_decl.py:399-403` `is_destructor` -/
def isDestructor (f : Fn) : Bool := startsWith f.name ['~']

/-- The children of the public zones. `/repo/src/srcmlcpp/cpp_types/classes/cpp_struct.py:195-204` `get_access_blocks` -/
def publicChildren : List Elem → List Elem
  | [] => []
  | .access _ name _ l :: r => if name = "public".toList then l ++ publicChildren r else publicChildren r
  | _ :: r => publicChildren r

/-- `/repo/src/srcmlcpp_tools/pimpl_my_class/pimpl_my_class.py:204-211`, the body of the loop. -/
def glueOf (o : Options) (pub impl : Str) : Elem → Str
  | .fn _ f => if isCtor f then ctorImpl o pub impl f ++ ['\n'] else if isDestructor f then [] else methodImpl o pub impl f ++ ['\n']
  | _ => []

/-- `/repo/src/srcmlcpp_tools/pimpl_my_class/pimpl_my_class.py:202-214` `_glue_code`, given the name of the published class. -/
def glueCode (o : Options) (pub : Str) (c : Class) : Str :=
  (publicChildren c.children).flatMap (glueOf o pub c.name) ++ (pub ++ "::~".toList ++ pub ++ "() = default;\n".toList)

/-- `/repo/src/srcmlcpp_tools/pimpl_my_class/pimpl_my_class.py:218-229`, the body of the loop. -/
def declOf (pub : Str) : Elem → Str
  | .fn c f => if isCtor f then ctorDecl pub c f ++ ['\n'] else if isDestructor f then [] else methodDecl c f ++ ['\n']
  | .emptyLine => ['\n']
  | .comment c t => withComments c false false (commentCode t) ++ ['\n']
  | _ => []

/-- `/repo/src/srcmlcpp_tools/pimpl_my_class/pimpl_my_class.py:216-232` `_published_method_decls` -/
def methodDecls (o : Options) (pub : Str) (c : Class) : Str :=
  let r := (publicChildren c.children).flatMap (declOf pub)
  let r := if endsWith r ['\n'] then r.dropLast else r
  Indent.indentCode r 1 false (some o.indentStr)

/-- `/repo/src/srcmlcpp_tools/pimpl_my_class/pimpl_my_class.py:235-249` -/
def headerTemplate : Str :=
  ("\n        {class_or_struct} {impl_class_name};\n\n        {top_comment}\n" ++
   "        {class_or_struct} {published_class_name}{maybe_eol_comment}{linefeed_or_space}{\n        {i}{maybe_public}\n" ++
   "        {published_methods}\n        {_i_}~{published_class_name}();\n        {i}private:\n" ++
   "        {_i_}std::unique_ptr<{impl_class_name}> {impl_name};\n        };\n        ").toList

/-- `/repo/src/srcmlcpp_tools/pimpl_my_class/pimpl_my_class.py:251-262` -/
def headerReplacements (o : Options) (pub : Str) (c : Class) : List (Str × Str) :=
  [("linefeed_or_space".toList, if o.lineFeedBeforeBlock then ['\n'] else [' ']), ("_i_".toList, o.indentStr), ("i".toList, o.indentPublic),
   ("class_or_struct".toList, if c.isClass then "class".toList else "struct".toList), ("maybe_eol_comment".toList, eolCode c.comments),
   ("published_class_name".toList, pub), ("impl_class_name".toList, c.name), ("impl_name".toList, o.member),
   ("published_methods".toList, methodDecls o pub c)]

/-- `/repo/src/srcmlcpp_tools/pimpl_my_class/pimpl_my_class.py:234-273` `_header_code`, given the name of the published class. -/
def headerCode (o : Options) (pub : Str) (c : Class) : Str :=
  let r := processCodeTemplate (Indent.unindentCode headerTemplate true) (headerReplacements o pub c)
    [("top_comment".toList, some (topCodeNoEol c.comments)), ("maybe_public".toList, some (if c.isClass then "public:".toList else []))]
  if o.maxEmptyLines ≥ 0 then Lines.codeSetMaxConsecutiveEmptyLines r o.maxEmptyLines else r

/-- `/repo/src/srcmlcpp_tools/pimpl_my_class/pimpl_my_class.py:275-287` `pimpl_my_class`: the header and the glue code; `none` is the exception. -/
def pimplMyClass (o : Options) (c : Class) : Option (Str × Str) :=
  match publishedName o.suffixes c.name with
  | none => none
  | some pub => some (headerCode o pub c, glueCode o pub c)

/-- `/repo/src/srcmlcpp_tools/pimpl_my_class/pimpl_my_class.py:290-300` `pimpl_my_code`, given `all_structs_recursive()`; the outer `none` is the exception. -/
def pimplMyCode (o : Options) (structs : List Class) : Option (Option (Str × Str)) :=
  match structs with
  | [] => some none
  | c :: _ => (pimplMyClass o c).map some

end Verif.Pimpl
