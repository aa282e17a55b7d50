import Verif.Type.Model
import Verif.Indent.Model

/-! Model of the printing of C++ elements: `str_code`, `str_commented`, `str_block`.

Simplifications: the text of the type of a declaration is given (`str(cpp_type)`, modelled in `Verif/Type`); the assertion of `str_return_type` (at most one
`const`) is taken to hold; `splitlines` cuts at `\n` only. -/

namespace Verif.Print
open Verif.Py

/-- `/repo/src/srcmlcpp/cpp_types/base/cpp_element_comments.py:41-47` -/
structure Comments where
  top : Str
  eol : Str
  cStyle : Bool
deriving DecidableEq

/-- `s.splitlines()`, for line feeds. -/
def splitlines (s : Str) : List Str := if endsWith s ['\n'] then (lines s).dropLast else if s = [] then [] else lines s

/-- `/repo/src/srcmlcpp/cpp_types/base/cpp_element_comments.py:73-77` -/
def lineComment (l : Str) : Str := if startsWith (strip l) "//".toList then l else "//".toList ++ l

/-- `/repo/src/srcmlcpp/cpp_types/base/cpp_element_comments.py:68-88` `top_comment_code`, as it is called by `str_commented`. -/
def topCode (c : Comments) : Str :=
  if c.cStyle then "/*".toList ++ (c.top ++ "*/".toList)
  else
    let t := unlines ((splitlines c.top).map lineComment)
    if t.length > 0 then (if endsWith t ['\n'] then t else t ++ ['\n']) else t

/-- `/repo/src/srcmlcpp/cpp_types/base/cpp_element_comments.py:91-97` `eol_comment_code` -/
def eolCode (c : Comments) : Str :=
  if c.eol.length = 0 then [] else if startsWith (strip c.eol) "//".toList then c.eol else " //".toList ++ c.eol

/-- `/repo/src/srcmlcpp/cpp_types/base/cpp_element_comments.py:51-66` `from_comments`, with `format_comments`. -/
def fromComments (top eol : Str) : Comments :=
  let t := if top.length > 0 then
      let t := "// ".toList ++ join "\n// ".toList (lines top)
      if endsWith t ['\n'] then t else t ++ ['\n']
    else top
  let e := if eol.length > 0 then " // ".toList ++ replace eol ['\n'] " | ".toList else eol
  ⟨t, e, startsWith t "/*".toList⟩

/-- `/repo/src/srcmlcpp/cpp_types/base/cpp_element_comments.py:105-109` `add_comment_on_previous_lines` -/
def addTop (c : Comments) (s : Str) : Comments := { c with top := if c.top.length = 0 then s else c.top ++ ['\n'] ++ s }

/-- `/repo/src/srcmlcpp/cpp_types/decls_types/cpp_decl.py:40-82` -/
structure Decl where
  ty : Option Str
  name : Str
  array : Str
  init : Str
  bits : Str
deriving DecidableEq

/-- `/repo/src/srcmlcpp/cpp_types/decls_types/cpp_decl.py:99-106` `str_code`, and `:108-115` `type_name_default_for_signature` -/
def Decl.code (d : Decl) : Str :=
  (match d.ty with | none => [] | some t => t ++ [' ']) ++ (d.name ++ d.array) ++ (if d.init.length > 0 then " = ".toList ++ d.init else [])

/-- The parameters of a template: keyword (`typename`, `int`, ...), name, default value; and the types it was instantiated with.
`/repo/src/srcmlcpp/cpp_types/template/cpp_i_template_host.py:20-34`, `/repo/src/srcmlcpp/cpp_types/functions/cpp_parameter.py:179-181` -/
structure Template where
  params : List (Str × Str × Str)
  specialized : List Str
deriving DecidableEq

/-- `/repo/src/srcmlcpp/cpp_types/template/cpp_i_template_host.py:79-86` -/
def templateParams : List (Str × Str × Str) → List Str → List Str
  | [], _ => []
  | (k, n, _) :: ps, [] => (k ++ [' '] ++ n) :: templateParams ps []
  | (k, n, _) :: ps, s :: ss => (k ++ [' '] ++ n ++ ['='] ++ s) :: templateParams ps ss

/-- `/repo/src/srcmlcpp/cpp_types/template/cpp_i_template_host.py:69-99` `str_template` -/
def strTemplate (isFunction : Bool) (t : Option Template) : Str :=
  match t with
  | none => []
  | some t =>
    if t.params.length = 0 then []
    else
      let s := join ", ".toList (templateParams t.params t.specialized)
      if t.specialized.length = 0 then "template<".toList ++ s ++ "> ".toList
      else if isFunction then "template</*".toList ++ s ++ "*/> ".toList
      else "/*template<".toList ++ s ++ ">*/ ".toList

/-- `/repo/src/srcmlcpp/cpp_types/template/cpp_i_template_host.py:49-55` `str_template_specialization` -/
def strSpecialization (t : Option Template) : Str :=
  match t with
  | none => []
  | some t => if t.specialized.length > 0 then ['<'] ++ join ", ".toList t.specialized ++ ['>'] else []

/-- The classes of functions: `CppFunctionDecl`, `CppFunction`, `CppConstructorDecl`, `CppConstructor`. -/
inductive Kind | decl | defn | ctorDecl | ctor
deriving DecidableEq

/-- `/repo/src/srcmlcpp/cpp_types/functions/cpp_function_decl.py:31-65` -/
structure Fn where
  kind : Kind
  template : Option Template
  ret : Option Type.CppType
  name : Str
  params : List Decl
  specifiers : List Str
  noexcept : Option Str
  pureVirtual : Bool
deriving DecidableEq

/-- `/repo/src/srcmlcpp/cpp_types/functions/cpp_function_decl.py:256-268` `is_arrow_notation_return_type` -/
def isArrow (t : Type.CppType) : Bool :=
  if t.typenames = ["auto".toList] then false
  else match t.typenames with
    | [] => false
    | first :: _ => first = "auto".toList

/-- `/repo/src/srcmlcpp/cpp_types/functions/cpp_parameter_list.py:57-69` `str_code` -/
def paramsCode (ps : List Decl) : Str := join ", ".toList (ps.map Decl.code)

/-- The text of the return type. -/
def retCode (prefixes : List Str) (t : Type.CppType) : Str := (Type.strReturnType prefixes true t).getD []

/-- `name<specialization>(parameters)` -/
def call (f : Fn) : Str := f.name ++ strSpecialization f.template ++ ['('] ++ paramsCode f.params ++ [')']

/-- `/repo/src/srcmlcpp/cpp_types/functions/cpp_function_decl.py:270-291` `_str_signature` -/
def signatureFn (prefixes : List Str) (f : Fn) : Str :=
  let r := match f.ret with
    | none => call f
    | some t =>
      strTemplate true f.template ++
        (if isArrow t then
          (if retCode prefixes t = "auto".toList then "auto ".toList ++ call f else "auto ".toList ++ call f ++ " -> ".toList ++ retCode prefixes t)
        else retCode prefixes t ++ [' '] ++ call f)
  if f.specifiers.length > 0 then r ++ (if r.length > 0 then [' '] else []) ++ join [' '] f.specifiers else r

/-- `/repo/src/srcmlcpp/cpp_types/functions/cpp_constructor_decl.py:22-27` `_str_signature` -/
def signatureCtor (f : Fn) : Str :=
  let r := f.name ++ ['('] ++ paramsCode f.params ++ [')']
  if f.specifiers.length > 0 then r ++ [' '] ++ join [' '] f.specifiers else r

/-- The text of a body, which is not processed. `/repo/src/srcmlcpp/cpp_types/base/cpp_unprocessed.py:42` -/
def unprocessed (tag : Str) : Str := "<unprocessed_".toList ++ tag ++ "/>".toList

/-- `str_code` of functions: `/repo/src/srcmlcpp/cpp_types/functions/cpp_function_decl.py:297-298`, `cpp_function.py:34-38`, `cpp_constructor_decl.py:32-33`,
`cpp_constructor.py:43-47` -/
def Fn.code (prefixes : List Str) (f : Fn) : Str :=
  match f.kind with
  | .decl => signatureFn prefixes f ++ [';']
  | .defn => signatureFn prefixes f ++ unprocessed "block".toList
  | .ctorDecl => signatureCtor f
  | .ctor => signatureCtor f ++ unprocessed "block".toList

/-- `/repo/src/srcmlcpp/cpp_types/classes/cpp_struct.py:31-46` -/
structure Head where
  isClass : Bool
  template : Option Template
  name : Str
  supers : Option (List (Str × Str))
  specifier : Str
  macro_ : Str
deriving DecidableEq

/-- `/repo/src/srcmlcpp/cpp_types/classes/cpp_super.py:23-27` `str_code` -/
def superCode (s : Str × Str) : Str := if s.1.length > 0 then s.1 ++ [' '] ++ s.2 else s.2

/-- `/repo/src/srcmlcpp/cpp_types/classes/cpp_super_list.py:41-43` `str_code` -/
def supersCode (l : List (Str × Str)) : Str := " : ".toList ++ Type.joinRemoveEmpty ", ".toList (l.map superCode)

/-- The line of a class: `/repo/src/srcmlcpp/cpp_types/classes/cpp_struct.py:70-83` -/
def Head.code (h : Head) : Str :=
  strTemplate false h.template ++ (if h.isClass then "class ".toList else "struct ".toList) ++ h.name ++
    (match h.supers with | none => [] | some l => supersCode l)

/-- The line of an enum: `/repo/src/srcmlcpp/cpp_types/cpp_enum.py:54-58` (the data type is not used) -/
def enumCode (isClass : Bool) (name _dataType : Str) : Str := (if isClass then "enum class ".toList else "enum ".toList) ++ name

/-- The elements. -/
inductive Elem where
  | emptyLine
  | comment (c : Comments) (text : Str)
  | unprocessed (c : Comments) (tag : Str)
  | define (c : Comments) (name : Str) (params value : Option Str)
  | condition (c : Comments) (code : Str)
  | decl (c : Comments) (d : Decl)
  | decls (c : Comments) (ds : List (Comments × Decl))
  | fn (c : Comments) (f : Fn)
  | enum (c : Comments) (isClass : Bool) (name dataType : Str) (children : List Elem)
  | namespace_ (c : Comments) (name : Str) (children : List Elem)
  | struct (c : Comments) (h : Head) (children : List Elem)
  | access (c : Comments) (name : Str) (dflt : Bool) (children : List Elem)

/-- `/repo/src/srcmlcpp/cpp_types/base/cpp_element_and_comments.py:21-29` `str_commented` -/
def withComments (c : Comments) (isEnum isDeclStmt : Bool) (code : Str) : Str :=
  topCode c ++ code ++ (if isEnum then [','] else []) ++ (if isDeclStmt then [';'] else []) ++ eolCode c

/-- `str_commented`: `/repo/src/srcmlcpp/cpp_types/base/cpp_unprocessed.py:23-24` (empty lines), `blocks/cpp_public_protected_private.py:46-47`, and
`base/cpp_element_and_comments.py:21-29` for the other elements; `code` is the result of `str_code`. -/
def commented (e : Elem) (isEnum : Bool) (code : Str) : Str :=
  match e with
  | .emptyLine => []
  | .access _ _ _ _ => code
  | .comment c _ => withComments c isEnum false code
  | .unprocessed c _ => withComments c isEnum false code
  | .define c _ _ _ => withComments c isEnum false code
  | .condition c _ => withComments c isEnum false code
  | .decl c _ => withComments c isEnum false code
  | .decls c _ => withComments c isEnum false code
  | .fn c _ => withComments c isEnum false code
  | .enum c _ _ _ _ => withComments c isEnum false code
  | .namespace_ c _ _ => withComments c isEnum false code
  | .struct c _ _ => withComments c isEnum false code

/-- `/repo/src/srcmlcpp/cpp_types/base/cpp_unprocessed.py:62-64` `str_code` of comments -/
def commentCode (text : Str) : Str := unlines ((lines text).map (fun l => "// ".toList ++ l))

/-- `/repo/src/srcmlcpp/cpp_types/cpp_define.py:56-62` `str_code` -/
def defineCode (name : Str) (params value : Option Str) : Str :=
  "#define ".toList ++ name ++ (match params with | none => [] | some p => p) ++ (match value with | none => [] | some v => [' '] ++ v)

/-- `/repo/src/srcmlcpp/cpp_types/decls_types/cpp_decl_statement.py:41-49` `str_code` -/
def declsCode (ds : List (Comments × Decl)) : Str :=
  Type.joinRemoveEmpty ['\n'] (ds.map (fun x => withComments x.1 false true x.2.code))

/-- `/repo/src/srcmlcpp/cpp_types/blocks/cpp_public_protected_private.py:29-37`: the line of an access zone -/
def accessLine (c : Comments) (name : Str) (dflt : Bool) : Str :=
  c.top ++ name ++ [':'] ++ (if dflt then " // <default_access_type/>".toList else if c.eol.length > 0 then c.eol else [])

/-- The indentation by `options.indent_cpp_str`. -/
def indented (ind : Str) (s : Str) : Str := Indent.indentCode s 1 false (some ind)

/-- `/repo/src/srcmlcpp/cpp_types/blocks/cpp_block.py:67-72`, the end of the body of the loop: a text, on its own lines. -/
def ownLines (s : Str) : Str := s ++ (if endsWith s ['\n'] then [] else ['\n'])

mutual
/-- `str_code`: `/repo/src/srcmlcpp/cpp_types/cpp_enum.py:53-63`, `cpp_namespace.py:34-39`, `classes/cpp_struct.py:66-92`,
`blocks/cpp_public_protected_private.py:26-44`, and the definitions above. -/
def code (prefixes : List Str) (ind : Str) : Elem → Str
  | .emptyLine => []
  | .comment _ t => commentCode t
  | .unprocessed _ tag => unprocessed tag
  | .define _ n p v => defineCode n p v
  | .condition _ s => rstrip s
  | .decl _ d => d.code
  | .decls _ ds => declsCode ds
  | .fn _ f => f.code prefixes
  | .enum _ isClass n t l =>
    enumCode isClass n t ++ "\n{\n".toList ++ indented ind (block prefixes ind true l) ++ "};\n".toList
  | .namespace_ _ n l => "namespace ".toList ++ n ++ "\n{\n".toList ++ indented ind (block prefixes ind false l) ++ "}".toList
  | .struct _ h l => h.code ++ "\n{\n".toList ++ block prefixes ind false l ++ "};\n".toList
  | .access c n dflt l => accessLine c n dflt ++ ['\n'] ++ indented ind (block prefixes ind false l)
/-- `/repo/src/srcmlcpp/cpp_types/blocks/cpp_block.py:62-72` `str_block` -/
def block (prefixes : List Str) (ind : Str) (isEnum : Bool) : List Elem → Str
  | [] => []
  | e :: l => ownLines (commented e (isEnum && !l.isEmpty) (code prefixes ind e)) ++ block prefixes ind isEnum l
end

end Verif.Print
