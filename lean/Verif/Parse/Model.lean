import Verif.Attach.Model
import Verif.Type.Model

/-! Model of `/repo/src/srcmlcpp/internal/cpp_types_parse.py`: from the XML tree of srcML to the tree of C++ elements.

Simplifications: the position of an element is its first and last line; the messages of the exceptions and the warnings are left out, as
are the parents of the elements, the progress bar, and the comments of the elements which could not be parsed. The filtering of the
preprocessor regions is modelled in `Verif/Prep`: the children of an element are those that remain after it. -/

namespace Verif.Parse
open Verif.Py Verif.Type

/-- The tags the parser knows (`SrcmlWrapper.tag()`, `/repo/src/srcmlcpp/srcml_wrapper.py:88-91`); `other` is any other tag. -/
inductive Tag where
  | type | name | specifier | modifier | expr | literal | operator | init | argumentList | argument | range | comment
  | decl | declStmt | parameter | parameterList | template_ | attribute | block | blockContent | noexcept_
  | functionDecl | function | destructorDecl | destructor | constructorDecl | constructor | memberInitList
  | super_ | superList | struct_ | class_ | namespace_ | enum_ | macro_ | define | directive | value
  | ifDirective | extern_ | public_ | protected_ | private_ | typedef | structDecl
  | other (name : Str)
deriving DecidableEq

/-- The name of a tag. `if`, `ifdef`, `ifndef`, `endif`, `else`, `elif` are one tag here. A slash before the other names keeps them apart
from the known ones: only the equality of names is used. -/
def Tag.str : Tag → Str
  | .type => "type".toList | .name => "name".toList | .specifier => "specifier".toList | .modifier => "modifier".toList
  | .expr => "expr".toList | .literal => "literal".toList | .operator => "operator".toList | .init => "init".toList
  | .argumentList => "argument_list".toList | .argument => "argument".toList | .range => "range".toList
  | .comment => "comment".toList | .decl => "decl".toList | .declStmt => "decl_stmt".toList
  | .parameter => "parameter".toList | .parameterList => "parameter_list".toList | .template_ => "template".toList
  | .attribute => "attribute".toList | .block => "block".toList | .blockContent => "block_content".toList
  | .noexcept_ => "noexcept".toList | .functionDecl => "function_decl".toList | .function => "function".toList
  | .destructorDecl => "destructor_decl".toList | .destructor => "destructor".toList
  | .constructorDecl => "constructor_decl".toList | .constructor => "constructor".toList
  | .memberInitList => "member_init_list".toList | .super_ => "super".toList | .superList => "super_list".toList
  | .struct_ => "struct".toList | .class_ => "class".toList | .namespace_ => "namespace".toList | .enum_ => "enum".toList
  | .macro_ => "macro".toList | .define => "define".toList | .directive => "directive".toList | .value => "value".toList
  | .ifDirective => "if".toList | .extern_ => "extern".toList | .public_ => "public".toList
  | .protected_ => "protected".toList | .private_ => "private".toList | .typedef => "typedef".toList
  | .structDecl => "struct_decl".toList | .other n => '/' :: n

/-- What an XML element has besides its children: its tag, the value of its attribute `type`, its text (before the first child), the text
after it (`tail`), and the lines where it begins and ends (`-1` if unknown). -/
structure Meta where
  tag : Tag
  typeAttr : Option Str := none
  text : Option Str := none
  tail : Option Str := none
  start : Int := -1
  stop : Int := -1
deriving DecidableEq

/-- `/repo/src/srcmlcpp/srcml_wrapper.py:19-29` `SrcmlWrapper`: an XML element. -/
inductive Xml where
  | node (m : Meta) (children : List Xml)

def Xml.meta : Xml → Meta
  | .node m _ => m
def Xml.children : Xml → List Xml
  | .node _ cs => cs
def Xml.tag (x : Xml) : Tag := x.meta.tag
def Xml.text (x : Xml) : Option Str := x.meta.text

/-- `/repo/src/srcmlcpp/srcml_wrapper.py:195-200` `wrapped_children_with_tag` -/
def Xml.withTag (x : Xml) (t : Tag) : List Xml := x.children.filter (fun c => c.tag = t)

/-- `/repo/src/srcmlcpp/srcml_wrapper.py:190-193` `wrapped_child_with_tag`: the child with that tag if there is exactly one. -/
def Xml.theChild (x : Xml) (t : Tag) : Option Xml :=
  match x.withTag t with
  | [c] => some c
  | _ => none

/-- An exception: `SrcmlcppExceptionDetailed`, or any other one (`AssertionError`, `AttributeError`, ...). -/
inductive Err where
  | detailed
  | crash
deriving DecidableEq

/-- `/repo/src/srcmlcpp/cpp_types/base/cpp_element_comments.py:41-47` `CppElementComments`, without `is_c_style_comment`. -/
structure Comments where
  previousLines : Str := []
  endOfLine : Str := []
deriving DecidableEq

/-- `/repo/src/srcmlcpp/cpp_types/base/cpp_element_comments.py:100-103` `add_eol_comment` -/
def Comments.addEol (c : Comments) (s : Str) : Comments :=
  if c.endOfLine.length = 0 then { c with endOfLine := s } else { c with endOfLine := c.endOfLine ++ " - ".toList ++ s }

/-- `/repo/src/srcmlcpp/cpp_types/decls_types/cpp_decl.py:40-80` `CppDecl`; the type is missing for the members of an enumeration. -/
structure Decl where
  cppType : Option CppType := none
  name : Str := []
  arrayCode : Str := []
  initialValue : Str := []
  viaInitializerList : Bool := false
  bitfield : Str := []
  comments : Comments := {}
  /-- the list of the type names is the one of the previous declaration (the same Python object) -/
  sharesNames : Bool := false
deriving DecidableEq

/-- `/repo/src/srcmlcpp/cpp_types/functions/cpp_parameter.py:169-183` `CppParameter`: a parameter of a function or of a template. -/
structure Param where
  decl : Option Decl := none
  templateType : Option Str := none
  templateName : Str := []
  templateInit : Str := []
deriving DecidableEq

/-- The class of a function: `CppFunctionDecl`, `CppFunction`, `CppConstructorDecl`, `CppConstructor`. -/
inductive FuncKind where
  | functionDecl | function | constructorDecl | constructor
deriving DecidableEq

/-- `/repo/src/srcmlcpp/cpp_types/functions/cpp_function_decl.py:29-65` `CppFunctionDecl` and its derived classes. `hasBody` and
`hasMemberInit` say whether `block` and `member_init_list` are set. -/
structure Func where
  kind : FuncKind
  returnType : Option CppType := none
  name : Str := []
  params : Option (List Param) := none
  specifiers : List Str := []
  template : Option (List Param) := none
  pureVirtual : Bool := false
  noexcept_ : Option Str := none
  hasBody : Bool := false
  hasMemberInit : Bool := false
  comments : Comments := {}
deriving DecidableEq

/-- `/repo/src/srcmlcpp/cpp_types/cpp_define.py` `CppDefine` (`none`: the attribute is not set). -/
structure Define where
  name : Option Str := none
  parameters : Option Str := none
  value : Option Str := none
  comments : Comments := {}
deriving DecidableEq

/-- What `parse_struct_or_class` fills, apart from the block. -/
structure StructHead where
  isClass : Bool
  name : Str := []
  bases : Option (List (Str × Str)) := none
  template : Option (List Param) := none
  specifier : Str := []
  macro_ : Option Str := none
  comments : Comments := {}
deriving DecidableEq

/-- What `parse_enum` fills, apart from the block. -/
structure EnumHead where
  enumType : Str := []
  name : Str := []
  dataType : Str := []
  comments : Comments := {}
deriving DecidableEq

/-- The elements of a block (`/repo/src/srcmlcpp/cpp_types`). The block of a class, a namespace or an enumeration is `none` when the
attribute `_block` is not set. -/
inductive Elem where
  | emptyLine
  | comment (text : Str) (c : Comments)
  | unprocessed (tag : Tag)
  | declStmt (ds : List Decl)
  | decl (d : Decl)
  | func (f : Func)
  | struct_ (h : StructHead) (block : Option (List Elem))
  | namespace_ (name : Str) (c : Comments) (block : Option (List Elem))
  | enum_ (h : EnumHead) (block : Option (List Elem))
  | blockContent (children : List Elem)
  | define (d : Define)
  | conditionMacro (code : Str) (c : Comments)
  | access (a : Tag) (isDefault : Bool) (children : List Elem)

/-- The options and the calls to srcML. `verbatim` is `SrcmlWrapper.str_code_verbatim`, `toCode` is `code_to_srcml.srcml_to_code`;
`reparse` is `code_to_cpp_unit(...).all_functions_recursive()`, used by
`/repo/src/srcmlcpp/internal/fix_brace_init_default_value.py`. -/
structure Env where
  apiPrefixes : List Str
  verbatim : Xml → Str
  toCode : Xml → Str
  fixBraceInit : Bool
  reparse : Str → Except Err (List Func)

/-! ### Types -/

/-- `/repo/src/srcmlcpp/internal/cpp_types_parse.py:90-96` `recompose_type_name` -/
def recomposeTypeName (env : Env) (x : Xml) : Str :=
  match x.text with
  | none => strip (env.verbatim x)
  | some t => t

/-- `/repo/src/srcmlcpp/cpp_types/decls_types/cpp_type.py:67-68` `authorized_modifiers` -/
def authorizedModifiers : List Str := ["*".toList, "&".toList, "&&".toList, "...".toList]

/-- `/repo/src/srcmlcpp/internal/cpp_types_parse.py:100-118`: the body of the loop on the children of a type. -/
def typeChild (env : Env) (t : CppType) (c : Xml) : Except Err CppType :=
  match c.tag with
  | .name => .ok { t with typenames := t.typenames ++ [recomposeTypeName env c] }
  | .specifier =>
    match c.text with
    | none => .error .crash
    | some s => .ok { t with specifiers := t.specifiers ++ [s] }
  | .modifier =>
    match c.text with
    | none => .error .crash
    | some s => if s ∈ authorizedModifiers then .ok { t with modifiers := t.modifiers ++ [s] } else .error .detailed
  | _ => .error .detailed

/-- `len(result.typenames) == 0 and "..." not in result.modifiers and "auto" not in result.specifiers`
(`/repo/src/srcmlcpp/internal/cpp_types_parse.py:122`, `128`) -/
def lacksName (t : CppType) : Bool :=
  t.typenames.length == 0 && !(t.modifiers.contains "...".toList) && !(t.specifiers.contains "auto".toList)

/-- `/repo/src/srcmlcpp/internal/cpp_types_parse.py:133-136` -/
def isApiName (prefixes : List Str) (n : Str) : Bool := prefixes.any (fun p => startsWith n p)

/-- `/repo/src/srcmlcpp/internal/cpp_types_parse.py:132-139`: the loop `for name in result.typenames`, which removes items from the list
it goes through. `i` is the position of the iterator, `k` bounds the number of rounds. -/
def apiLoop (prefixes : List Str) : Nat → Nat → CppType → CppType
  | 0, _, t => t
  | k + 1, i, t =>
    match t.typenames[i]? with
    | none => t
    | some n =>
      if isApiName prefixes n then
        apiLoop prefixes k (i + 1) { t with typenames := t.typenames.erase n, specifiers := n :: t.specifiers }
      else apiLoop prefixes k (i + 1) t

def processApi (prefixes : List Str) (t : CppType) : CppType := apiLoop prefixes t.typenames.length 0 t

/-- `previous_decl`: the type of the previous declaration of the statement (`some none` if that declaration has no type: reading its
attribute is an `AttributeError`). -/
abbrev Previous := Option (Option CppType)

/-- `/repo/src/srcmlcpp/internal/cpp_types_parse.py:121-129`: the type names are taken from the previous declaration if there are none.
The second component says whether they were. -/
def inheritNames (previous : Previous) (isOperatorReturn : Bool) (t : CppType) : Except Err (CppType × Bool) :=
  if isOperatorReturn then .ok (t, false)
  else if lacksName t then
    match previous with
    | none => .error .detailed
    | some none => .error .crash
    | some (some p) =>
      let t' := { t with typenames := p.typenames }
      if lacksName t' then .error .detailed else .ok (t', true)
  else .ok (t, false)

/-- `/repo/src/srcmlcpp/internal/cpp_types_parse.py:68-140` `parse_type` -/
def parseType (env : Env) (x : Xml) (previous : Previous) (isOperatorReturn : Bool) : Except Err (CppType × Bool) :=
  if x.tag = .type then do
    let t ← x.children.foldlM (typeChild env) ⟨[], [], []⟩
    let r ← inheritNames previous isOperatorReturn t
    .ok (processApi env.apiPrefixes r.1, r.2)
  else .error .crash

/-! ### Expressions and names -/

/-- `/repo/src/srcmlcpp/internal/cpp_types_parse.py:161-173` `expr_literal_value` -/
def exprLiteralValue (x : Xml) : Option Str :=
  match x.children with
  | [c] => if c.tag = .literal ∨ c.tag = .name then c.text else none
  | _ => none

/-- `/repo/src/srcmlcpp/internal/cpp_types_parse.py:145-183` `_parse_expr` -/
def parseExpr (env : Env) (x : Xml) : Except Err Str :=
  if x.tag = .expr then
    .ok (match exprLiteralValue x with
      | some s => s
      | none => env.toCode x)
  else .error .crash

/-- `/repo/src/srcmlcpp/internal/cpp_types_parse.py:186-197` `_parse_init_expr` -/
def parseInitExpr (env : Env) (x : Xml) : Except Err Str :=
  if x.tag = .init then
    match x.theChild .expr with
    | some e => parseExpr env e
    | none =>
      let r := strip (env.verbatim x)
      .ok (if startsWith r ['='] then r.drop 1 else r)
  else .error .crash

/-- `/repo/src/srcmlcpp/internal/cpp_types_parse.py:200-208` `_parse_name` -/
def parseName (env : Env) (x : Xml) : Except Err Str :=
  if x.tag = .name then
    .ok (match x.text with
      | none => strip (env.verbatim x)
      | some t => strip t)
  else .error .crash

/-- `/repo/src/srcmlcpp/srcml_wrapper.py:103-141` `has_xml_name`, `extract_name_from_xml` -/
def extractName (env : Env) (x : Xml) : Option Str :=
  match x.withTag .name with
  | [n] =>
    some (match n.text with
      | some t => t
      | none => env.toCode n)
  | _ => none

/-! ### Declarations -/

/-- `/repo/src/srcmlcpp/internal/cpp_types_parse.py:281-288`: the value of one argument. -/
def argumentValue (env : Env) (a : Xml) : Except Err Str :=
  match a.theChild .expr with
  | none => .error .detailed
  | some e => parseExpr env e

/-- `/repo/src/srcmlcpp/internal/cpp_types_parse.py:278-294` `_parse_decl_initializer_list` -/
def parseInitializerList (env : Env) (x : Xml) : Except Err Str :=
  if x.tag = .argumentList then do
    let vs ← (x.withTag .argument).mapM (argumentValue env)
    .ok (if vs.length = 0 then "{}".toList else "{".toList ++ join ", ".toList vs ++ "}".toList)
  else .error .crash

/-- `/repo/src/srcmlcpp/internal/cpp_types_parse.py:318-325`: the name and the sizes of an array. -/
def splitArray (s : Str) : Str × Str :=
  if '[' ∈ s ∧ endsWith s [']'] then (s.takeWhile (· != '['), s.dropWhile (· != '[')) else (s, [])

/-- `/repo/src/srcmlcpp/internal/cpp_types_parse.py:313-340`: the body of the loop on the children of a declaration. -/
def declChild (env : Env) (previous : Previous) (d : Decl) (c : Xml) : Except Err Decl :=
  match c.tag with
  | .type => do
    let r ← parseType env c previous false
    .ok { d with cppType := some r.1, sharesNames := r.2 }
  | .name => do
    let s ← parseName env c
    if '[' ∈ s ∧ endsWith s [']'] then .ok { d with name := (splitArray s).1, arrayCode := (splitArray s).2 }
    else .ok { d with name := s }
  | .init => do
    let s ← parseInitExpr env c
    .ok { d with initialValue := s }
  | .argumentList => do
    let s ← parseInitializerList env c
    .ok { d with initialValue := s, viaInitializerList := true }
  | .range => .ok { d with bitfield := env.verbatim c }
  | .comment =>
    .ok (match c.text with
      | none => d
      | some t => { d with comments := d.comments.addEol (Attach.removeCommentTokens t) })
  | _ => .error .detailed

/-- `/repo/src/srcmlcpp/internal/cpp_types_parse.py:297-342` `parse_decl` -/
def parseDecl (env : Env) (x : Xml) (c : Comments) (previous : Previous) : Except Err Decl :=
  if x.tag = .decl then x.children.foldlM (declChild env previous) { comments := c } else .error .crash

/-- The names of the type of a declaration changed in place (`result.typenames.remove`): the declarations which share the list see the
change. `done` is the list of the declarations of the statement, last one first. -/
def propagate (names : List Str) : List Decl → List Decl
  | [] => []
  | d :: ds =>
    let d' := { d with cppType := d.cppType.map (fun t => { t with typenames := names }) }
    if d.sharesNames then d' :: propagate names ds else d' :: ds

/-- The declarations after a new one is parsed: if it shares its type names, the previous ones see the removal of the API names. -/
def pushDecl (done : List Decl) (d : Decl) : List Decl :=
  match d.sharesNames, d.cppType with
  | true, some t => d :: propagate t.typenames done
  | _, _ => d :: done

/-- `/repo/src/srcmlcpp/internal/cpp_types_parse.py:354-373`: the body of the loop on the children of a statement. -/
def declStmtChild (env : Env) (c : Comments) (done : List Decl) (x : Xml) : Except Err (List Decl) :=
  match x.tag with
  | .decl =>
    match extractName env x with
    | none => .error .detailed
    | some _ => do
      let d ← parseDecl env x c (done.head?.map Decl.cppType)
      .ok (pushDecl done d)
  | .comment =>
    .ok (match done, x.text with
      | p :: ps, some t => { p with comments := p.comments.addEol (Attach.removeCommentTokens t) } :: ps
      | _, _ => done)
  | _ => .error .detailed

/-- `/repo/src/srcmlcpp/internal/cpp_types_parse.py:345-381` `parse_decl_stmt` (the comments of the statement itself are emptied). -/
def parseDeclStmt (env : Env) (x : Xml) (c : Comments) : Except Err (List Decl) :=
  if x.tag = .declStmt then do
    let r ← x.children.foldlM (declStmtChild env c) []
    .ok r.reverse
  else .error .crash

/-! ### Parameters and templates -/

/-- `/repo/src/srcmlcpp/internal/cpp_types_parse.py:391-413`: the body of the loop on the children of a parameter. -/
def parameterChild (env : Env) (p : Param) (c : Xml) : Except Err Param :=
  match c.tag with
  | .decl => do
    let d ← parseDecl env c {} none
    .ok { p with decl := some d }
  | .type =>
    match extractName env c with
    | none => .error .crash
    | some n => .ok { p with templateType := some n }
  | .name =>
    match c.text with
    | none => .error .crash
    | some t => .ok { p with templateName := t }
  | .init => do
    let s ← parseInitExpr env c
    .ok { p with templateInit := s }
  | _ => .error .detailed

/-- `/repo/src/srcmlcpp/internal/cpp_types_parse.py:384-415` `parse_parameter` -/
def parseParameter (env : Env) (x : Xml) : Except Err Param :=
  if x.tag = .parameter then x.children.foldlM (parameterChild env) {} else .error .crash

/-- `/repo/src/srcmlcpp/internal/cpp_types_parse.py:418-435` `parse_parameter_list` (other tags give a warning only). -/
def parseParameterList (env : Env) (x : Xml) : Except Err (List Param) :=
  if x.tag = .parameterList then (x.withTag .parameter).mapM (parseParameter env) else .error .crash

/-- `/repo/src/srcmlcpp/internal/cpp_types_parse.py:447-451` -/
def templateChild (env : Env) (_ : Option (List Param)) (c : Xml) : Except Err (Option (List Param)) :=
  match c.tag with
  | .parameterList => do
    let ps ← parseParameterList env c
    .ok (some ps)
  | _ => .error .detailed

/-- `/repo/src/srcmlcpp/internal/cpp_types_parse.py:438-452` `parse_template`. A template without parameter list has no attribute
`parameter_list`; it is given an empty list here. -/
def parseTemplate (env : Env) (x : Xml) : Except Err (List Param) :=
  if x.tag = .template_ then do
    let r ← x.children.foldlM (templateChild env) none
    .ok (r.getD [])
  else .error .crash

/-! ### Functions -/

/-- `/repo/src/srcmlcpp/internal/cpp_types_parse.py:780-786` `is_operator_function` -/
def isOperatorFunction (x : Xml) : Except Err Bool :=
  if x.tag = .function ∨ x.tag = .functionDecl then .ok (x.meta.typeAttr = some "operator".toList) else .error .crash

/-- `str.isalpha()` of the first character or an underscore (`/repo/src/srcmlcpp/internal/cpp_types_parse.py:485`), for ASCII. -/
def startsLikeWord (s : Str) : Bool :=
  match s with
  | [] => false
  | c :: _ => c.isAlpha || c == '_'

/-- `/repo/src/srcmlcpp/internal/cpp_types_parse.py:472-487`: the name of a function. -/
def functionName (env : Env) (c : Xml) : Except Err Str := do
  let n ← parseName env c
  if n = "operator".toList then
    match c.withTag .name with
    | [s] => do
      let o ← parseName env s
      .ok (n ++ (if startsLikeWord o then [' '] else []) ++ o)
    | _ => .error .crash
  else .ok n

/-- `/repo/src/srcmlcpp/internal/cpp_types_parse.py:518-523` -/
def noexceptOf (env : Env) (c : Xml) : Str :=
  match c.theChild .argumentList with
  | none => []
  | some a => env.verbatim a

/-- `/repo/src/srcmlcpp/internal/cpp_types_parse.py:462-471`: the return type; the second part of a trailing return type only gives its
names. -/
def returnTypeChild (env : Env) (x : Xml) (f : Func) (c : Xml) : Except Err Func :=
  match f.returnType with
  | some t =>
    if t.typenames.length = 0 then do
      let op ← isOperatorFunction x
      let r ← parseType env c none op
      .ok { f with returnType := some r.1 }
    else do
      let r ← parseType env c none false
      .ok { f with returnType := some { t with typenames := t.typenames ++ r.1.typenames } }
  | none => do
    let op ← isOperatorFunction x
    let r ← parseType env c none op
    .ok { f with returnType := some r.1 }

/-- `/repo/src/srcmlcpp/internal/cpp_types_parse.py:460-525`: the body of the loop of `fill_function_decl`. -/
def functionChild (env : Env) (x : Xml) (f : Func) (c : Xml) : Except Err Func :=
  match c.tag with
  | .type => returnTypeChild env x f c
  | .name => do
    let n ← functionName env c
    .ok { f with name := n }
  | .parameterList => do
    let ps ← parseParameterList env c
    .ok { f with params := some ps }
  | .specifier =>
    match c.text with
    | none => .error .crash
    | some s => .ok { f with specifiers := f.specifiers ++ [s] }
  | .attribute => .ok f
  | .template_ => do
    let ps ← parseTemplate env c
    .ok { f with template := some ps }
  | .block => .ok f
  | .modifier => .error .detailed
  | .comment =>
    .ok (match c.text with
      | none => f
      | some t => { f with comments := f.comments.addEol t })
  | .literal =>
    match c.text with
    | none => .error .detailed
    | some t => if strip t = "0".toList then .ok { f with pureVirtual := true } else .error .detailed
  | .noexcept_ => .ok { f with noexcept_ := some (noexceptOf env c) }
  | _ => .error .detailed

/-- `/repo/src/srcmlcpp/internal/cpp_types_parse.py:455-525` `fill_function_decl` -/
def fillFunctionDecl (env : Env) (x : Xml) (f : Func) : Except Err Func := x.children.foldlM (functionChild env x) f

/-- `/repo/src/srcmlcpp/internal/cpp_types_parse.py:528-538` `parse_function_decl` -/
def parseFunctionDecl (env : Env) (x : Xml) (c : Comments) : Except Err Func :=
  if x.tag = .functionDecl ∨ x.tag = .destructorDecl then fillFunctionDecl env x { kind := .functionDecl, comments := c }
  else .error .crash

/-- `/repo/src/srcmlcpp/internal/cpp_types_parse.py:552-569`: the second loop of `parse_function`. -/
def functionBodyChild (f : Func) (c : Xml) : Except Err Func :=
  match c.tag with
  | .block => .ok { f with hasBody := true }
  | .type => .ok f
  | .name => .ok f
  | .parameterList => .ok f
  | .specifier => .ok f
  | .attribute => .ok f
  | .template_ => .ok f
  | .comment => .ok f
  | .noexcept_ => .ok f
  | _ => .error .detailed

/-- `/repo/src/srcmlcpp/internal/cpp_types_parse.py:541-570` `parse_function` -/
def parseFunction (env : Env) (x : Xml) (c : Comments) : Except Err Func :=
  if x.tag = .function ∨ x.tag = .destructor then do
    let f ← fillFunctionDecl env x { kind := .function, comments := c }
    x.children.foldlM functionBodyChild f
  else .error .crash

/-- `/repo/src/srcmlcpp/internal/cpp_types_parse.py:581-607`: the body of the loop of `fill_constructor_decl`. -/
def constructorChild (env : Env) (f : Func) (c : Xml) : Except Err Func :=
  match c.tag with
  | .name => do
    let n ← parseName env c
    .ok { f with name := n }
  | .parameterList => do
    let ps ← parseParameterList env c
    .ok { f with params := some ps }
  | .specifier =>
    match c.text with
    | none => .error .crash
    | some s => .ok { f with specifiers := f.specifiers ++ [s] }
  | .comment =>
    .ok (match c.text with
      | none => f
      | some t => { f with comments := { f.comments with endOfLine := f.comments.endOfLine ++ [' '] ++ t } })
  | .attribute => .ok f
  | .noexcept_ => .ok { f with noexcept_ := some (noexceptOf env c) }
  | .block => .ok f
  | .memberInitList => .ok f
  | _ => .error .detailed

/-- `/repo/src/srcmlcpp/internal/cpp_types_parse.py:576-607` `fill_constructor_decl` -/
def fillConstructorDecl (env : Env) (x : Xml) (f : Func) : Except Err Func := x.children.foldlM (constructorChild env) f

/-- `/repo/src/srcmlcpp/internal/cpp_types_parse.py:610-620` `parse_constructor_decl` -/
def parseConstructorDecl (env : Env) (x : Xml) (c : Comments) : Except Err Func :=
  if x.tag = .constructorDecl then fillConstructorDecl env x { kind := .constructorDecl, comments := c } else .error .crash

/-- `/repo/src/srcmlcpp/internal/cpp_types_parse.py:634-646`: the second loop of `parse_constructor`. -/
def constructorBodyChild (f : Func) (c : Xml) : Except Err Func :=
  match c.tag with
  | .block => .ok { f with hasBody := true }
  | .memberInitList => .ok { f with hasMemberInit := true }
  | .name => .ok f
  | .parameterList => .ok f
  | .specifier => .ok f
  | .attribute => .ok f
  | .comment => .ok f
  | _ => .error .detailed

/-- `/repo/src/srcmlcpp/internal/cpp_types_parse.py:623-648` `parse_constructor` -/
def parseConstructor (env : Env) (x : Xml) (c : Comments) : Except Err Func :=
  if x.tag = .constructor then do
    let f ← fillConstructorDecl env x { kind := .constructor, comments := c }
    x.children.foldlM constructorBodyChild f
  else .error .crash

/-! ### Defines, conditions -/

/-- `/repo/src/srcmlcpp/internal/cpp_types_parse.py:255-263` `parse_inner_macro` -/
def innerMacroChild (env : Env) (d : Define) (c : Xml) : Define :=
  match c.tag with
  | .name =>
    match c.text with
    | some t => { d with name := some t }
    | none => d
  | .parameterList => { d with parameters := some (env.verbatim c) }
  | _ => d

/-- `/repo/src/srcmlcpp/internal/cpp_types_parse.py:265-274` -/
def defineChild (env : Env) (d : Define) (c : Xml) : Define :=
  match c.tag with
  | .macro_ => c.children.foldl (innerMacroChild env) d
  | .value =>
    match c.text with
    | some t => { d with value := some t }
    | none => d
  | _ => d

/-- `/repo/src/srcmlcpp/internal/cpp_types_parse.py:223-275` `parse_define` -/
def parseDefine (env : Env) (x : Xml) (c : Comments) : Define := x.children.foldl (defineChild env) { comments := c }

/-! ### Declarations which are functions with brace-initialised parameters -/

/-- `/repo/src/srcmlcpp/internal/fix_brace_init_default_value.py:31-43` `_elt_text_and_tail` -/
def textAndTail (x : Xml) : Str :=
  (x.text.getD []) ++ ((x.children.getLast?.bind (fun c => c.meta.tail)).getD [])

def braceToken : Str := "__srcmlcpp_brace_init__(".toList

/-- The tail of the last child changed (`/repo/src/srcmlcpp/internal/fix_brace_init_default_value.py:61-64`). -/
def closeBrace (x : Xml) : Xml :=
  match x with
  | .node m cs =>
    match m.tail with
    | none => .node m cs
    | some t =>
      if endsWith (strip t) ['}'] then .node { m with tail := some ((strip t).take ((strip t).length - 1) ++ [')']) } cs
      else .node m cs

/-- `/repo/src/srcmlcpp/internal/fix_brace_init_default_value.py:46-66` `_hack_block_replace_braces`; `none` is an `AssertionError`. -/
def hackBlock (x : Xml) : Option Xml :=
  match x with
  | .node m cs =>
    match m.text with
    | none => none
    | some t =>
      if replace t [' '] [] = "{}".toList then some (.node { m with text := some (braceToken ++ [')']) } cs)
      else
        let m' := if startsWith (strip t) ['{'] then { m with text := some (braceToken ++ (strip t).drop 1) } else m
        match cs.reverse with
        | [] => none
        | l :: r => some (.node m' (r.reverse ++ [closeBrace l]))

/-- `/repo/src/srcmlcpp/internal/fix_brace_init_default_value.py:115-128`: the conditions on an expression; the block if they hold. -/
def suspiciousBlock (e : Xml) : Option Xml :=
  match e.theChild .block with
  | none => none
  | some b =>
    if (e.withTag .name).length = 2 ∧ (e.withTag .operator).any (fun o => o.text.any (fun t => strip t = ['='])) then
      if startsWith (strip (textAndTail b)) ['{'] ∧ endsWith (strip (textAndTail b)) ['}'] then some b else none
    else none

/-- `/repo/src/srcmlcpp/internal/fix_brace_init_default_value.py:129-132`: the block is removed from the expression (there is only one)
and the new one put at the end. The flag is `was_hacked`. -/
def hackExpr (e : Xml) : Option (Xml × Bool) :=
  match suspiciousBlock e with
  | none => some (e, false)
  | some b =>
    match hackBlock b with
    | none => none
    | some b' => some (.node e.meta (e.children.filter (fun c => c.tag ≠ .block) ++ [b']), true)

/-- An argument with its only expression rewritten. -/
def hackArgument (a : Xml) : Option (Xml × Bool) :=
  if a.tag = .argument ∧ (a.theChild .expr).isSome then do
    let rs ← a.children.mapM (fun c => if c.tag = .expr then hackExpr c else some (c, false))
    some (.node a.meta (rs.map Prod.fst), rs.any Prod.snd)
  else some (a, false)

/-- The first argument list of a declaration rewritten. -/
def hackFirstList : List Xml → Option (List Xml × Bool)
  | [] => some ([], false)
  | c :: cs =>
    if c.tag = .argumentList then do
      let rs ← c.children.mapM hackArgument
      some (.node c.meta (rs.map Prod.fst) :: cs, rs.any Prod.snd)
    else do
      let r ← hackFirstList cs
      some (c :: r.1, r.2)

/-- `/repo/src/srcmlcpp/internal/fix_brace_init_default_value.py:69-138` `_rewrite_decl_if_suspicious_fn_decl`; `Except` is an
`AssertionError`. -/
def rewriteDecl (env : Env) (stmt : Xml) : Except Err (Option Str) :=
  match stmt.theChild .decl with
  | none => .ok none
  | some d =>
    match hackFirstList d.children with
    | none => .error .crash
    | some (cs, hacked) => .ok (if hacked then some (env.toCode (.node d.meta cs)) else none)

/-- `/repo/src/srcmlcpp/internal/fix_brace_init_default_value.py:143-145`: the default value of a parameter. -/
def toBraceInit (s : Str) : Str :=
  if startsWith s braceToken then ['{'] ++ ((s.drop braceToken.length).take (s.length - braceToken.length - 1)) ++ ['}'] else s

/-- `/repo/src/srcmlcpp/internal/fix_brace_init_default_value.py:141-145` `_change_fn_params_default_to_brace_init`; `none` is an
`AttributeError`. -/
def braceInitParams (f : Func) : Option Func := do
  let ps ← f.params
  let qs ← ps.mapM (fun p => p.decl.map (fun d => { p with decl := some { d with initialValue := toBraceInit d.initialValue } }))
  some { f with params := some qs }

/-- `/repo/src/srcmlcpp/internal/fix_brace_init_default_value.py:148-162` `change_decl_stmt_to_function_decl_if_suspicious` -/
def fixDeclStmt (env : Env) (stmt : Xml) : Except Err (Option Func) :=
  if env.fixBraceInit then do
    match ← rewriteDecl env stmt with
    | none => .ok none
    | some code => do
      match ← env.reparse code with
      | [f] =>
        match braceInitParams f with
        | some f' => .ok (some f')
        | none => .error .crash
      | _ => .error .crash
  else .ok none

/-- `/repo/src/srcmlcpp/internal/fix_brace_init_default_value.py:165-191` `change_macro_to_constructor`, for a macro in an access section
of the class `className`. -/
def fixMacro (env : Env) (className : Str) (x : Xml) : Except Err (Option Func) :=
  let code := env.verbatim x
  if startsWith (strip code) className then do
    match ← env.reparse ("void blah".toList ++ code.drop className.length ++ [';']) with
    | [f] => .ok (some { kind := .constructorDecl, name := className, params := f.params, comments := f.comments })
    | _ => .error .detailed
  else .ok none

/-! ### Classes, namespaces, enumerations -/

/-- `/repo/src/srcmlcpp/internal/cpp_types_parse.py:659-668` -/
def superChild (env : Env) (s : Str × Str) (c : Xml) : Except Err (Str × Str) :=
  match c.tag with
  | .specifier =>
    match c.text with
    | none => .error .crash
    | some t => .ok (t, s.2)
  | .name => do
    let n ← parseName env c
    .ok (s.1, n)
  | _ => .error .detailed

/-- `/repo/src/srcmlcpp/internal/cpp_types_parse.py:651-670` `parse_super`: the specifier and the name. -/
def parseSuper (env : Env) (x : Xml) : Except Err (Str × Str) :=
  if x.tag = .super_ then x.children.foldlM (superChild env) ([], []) else .error .detailed

/-- `/repo/src/srcmlcpp/internal/cpp_types_parse.py:673-688` `parse_super_list` -/
def parseSuperList (env : Env) (x : Xml) : Except Err (List (Str × Str)) :=
  if x.tag = .superList then x.children.mapM (parseSuper env) else .error .crash

/-- `/repo/src/codemanip/code_utils.py:436-446` `cpp_comment_remove_comment_markers` -/
def removeMarkers (s : Str) : Str :=
  if startsWith s "//".toList then strip (s.drop 2)
  else if startsWith s "/*".toList then
    let r := strip (s.drop 2)
    if endsWith r "*/".toList then r.take (r.length - 2) else r
  else s

/-- `/repo/src/srcmlcpp/internal/cpp_types_parse.py:691-706` `_add_comment_child_before_block` -/
def addCommentBeforeBlock (c : Comments) (x : Xml) : Except Err Comments :=
  match x.text with
  | none => .error .crash
  | some t =>
    .ok { c with endOfLine := c.endOfLine ++ (if c.endOfLine.length > 0 then " - ".toList else []) ++ removeMarkers t }

/-- The block a child belongs to: the block of a class (with the name of the class as known so far), an access section
(`CppPublicProtectedPrivate`) of such a block or of any other block, or anything else. -/
inductive Ctx where
  | classBlock (className : Str)
  | inAccess (className : Option Str)
  | elsewhere
deriving DecidableEq

/-- A function which gives the elements of a block of a child, in a given context. -/
abbrev Filler := Ctx → Except Err (List Elem)

/-- A class being parsed: what is known of it and its block. -/
structure Building (α : Type) where
  head : α
  block : Option (List Elem) := none

/-- `/repo/src/srcmlcpp/internal/cpp_types_parse.py:724-747`: the body of the loop of `parse_struct_or_class`; `fill` is `fill_block` for
this child. -/
def structChild (env : Env) (s : Building StructHead) (cf : Xml × Filler) : Except Err (Building StructHead) :=
  let c := cf.1
  match c.tag with
  | .name => do
    let n ← parseName env c
    .ok { s with head := { s.head with name := n } }
  | .superList => do
    let b ← parseSuperList env c
    .ok { s with head := { s.head with bases := some b } }
  | .block => do
    let es ← cf.2 (.classBlock s.head.name)
    .ok { s with block := some es }
  | .template_ => do
    let ps ← parseTemplate env c
    .ok { s with head := { s.head with template := some ps } }
  | .comment => do
    let k ← addCommentBeforeBlock s.head.comments c
    .ok { s with head := { s.head with comments := k } }
  | .specifier =>
    match c.text with
    | none => .error .crash
    | some t => .ok { s with head := { s.head with specifier := t } }
  | .macro_ =>
    match extractName env c with
    | none => .error .crash
    | some n => .ok { s with head := { s.head with macro_ := some n } }
  | _ => .error .detailed

/-- A namespace being parsed. -/
structure NsHead where
  name : Str := []
  comments : Comments := {}
deriving DecidableEq

/-- `/repo/src/srcmlcpp/internal/cpp_types_parse.py:999-1008`: the body of the loop of `parse_namespace`. -/
def namespaceChild (env : Env) (s : Building NsHead) (cf : Xml × Filler) : Except Err (Building NsHead) :=
  let c := cf.1
  match c.tag with
  | .name => do
    let n ← parseName env c
    .ok { s with head := { s.head with name := n } }
  | .block => do
    let es ← cf.2 .elsewhere
    .ok { s with block := some es }
  | .comment => do
    let k ← addCommentBeforeBlock s.head.comments c
    .ok { s with head := { s.head with comments := k } }
  | _ => .error .detailed

/-- `/repo/src/srcmlcpp/internal/cpp_types_parse.py:1026-1041`: the body of the loop of `parse_enum`. -/
def enumChild (env : Env) (s : Building EnumHead) (cf : Xml × Filler) : Except Err (Building EnumHead) :=
  let c := cf.1
  match c.tag with
  | .name => do
    let n ← parseName env c
    .ok { s with head := { s.head with name := n } }
  | .block => do
    let es ← cf.2 .elsewhere
    .ok { s with block := some es }
  | .comment => do
    let k ← addCommentBeforeBlock s.head.comments c
    .ok { s with head := { s.head with comments := k } }
  | .type =>
    .ok (match c.withTag .name with
      | [n] =>
        match n.text with
        | some t => { s with head := { s.head with dataType := t } }
        | none => s
      | _ => s)
  | _ => .error .detailed

/-- The contexts of the children of a block: the access sections of a class know its name, other blocks do not
(`/repo/src/srcmlcpp/internal/fix_brace_init_default_value.py:166-173`: the parent of the macro is an access section, its parent a block,
its parent a class). -/
def accessCtx : Ctx → Ctx
  | .classBlock n => .inAccess (some n)
  | _ => .inAccess none

/-! ### Blocks -/

/-- What the rest of `fill_block` keeps of the last ignored child (`last_ignored_child`): its tag, the line of its end, its code. -/
structure Ignored where
  tag : Tag
  stop : Int
  code : Str
deriving DecidableEq

/-- `/repo/src/srcmlcpp/internal/cpp_types_parse.py:789-808` `shall_ignore_comment`: the comment to keep, if any. -/
def keptComment (ignored : Option Ignored) (start : Int) (text : Str) : Option Str :=
  match ignored with
  | none => some text
  | some i =>
    if start = i.stop then
      if i.tag = .typedef ∨ i.tag = .structDecl then some ("// ".toList ++ i.code ++ "    ".toList ++ text) else none
    else some text

/-- `/repo/src/srcmlcpp/internal/cpp_types_parse.py:966-987` `parse_comment`: the text of the comment. -/
def commentText (text : Option Str) : Str :=
  let t := text.getD []
  if (lines t).length > 1 then unlines ((lines t).map (fun l => if contains l Attach.emptyLineContent then [] else l)) else t

/-- The parser of one child of a block, in the context of the block and with the comments attached to it. It is the body of the `try` of
`fill_block` for the tags other than `comment` and those which are not processed. -/
abbrev Parser := Ctx → Comments → Except Err (List Elem)

/-- A child of a block with its parser. -/
structure Child where
  xml : Xml
  parser : Parser

/-- The tags for which `fill_block` has a branch (`/repo/src/srcmlcpp/internal/cpp_types_parse.py:863-932`), apart from `macro` which has
one in the access sections only. -/
def processedTags : List Tag :=
  [.declStmt, .decl, .functionDecl, .destructorDecl, .function, .destructor, .constructorDecl, .constructor, .comment, .struct_,
   .class_, .namespace_, .enum_, .blockContent, .define, .ifDirective, .extern_, .public_, .protected_, .private_]

def isProcessed (ctx : Ctx) (t : Tag) : Bool :=
  processedTags.contains t || (t == .macro_ && match ctx with
    | .inAccess _ => true
    | _ => false)

/-- `/repo/src/srcmlcpp/internal/cpp_types_parse.py:857-941`: the body of the loop of `fill_block`, for a child `c` whose XML (with its
text after the grouping of the comments) and comments are in `o`. -/
def blockStep (env : Env) (ctx : Ctx) (ignored : Option Ignored) (o : Attach.Out) (c : Child) :
    Except Err (List Elem × Option Ignored) :=
  let comments : Comments := ⟨o.onPreviousLines, o.endOfLine⟩
  if c.xml.tag = .comment then
    if c.xml.children.length ≠ 0 then .error .crash
    else
      let text := commentText o.element.text
      if contains text Attach.emptyLineContent then .ok ([.emptyLine], ignored)
      else .ok ((keptComment ignored o.element.start text).toList.map (fun t => .comment t comments), ignored)
  else if isProcessed ctx c.xml.tag then
    match c.parser ctx comments with
    | .ok es => .ok (es, ignored)
    | .error .detailed => .ok ([.unprocessed c.xml.tag], ignored)
    | .error .crash => .error .crash
  else .ok ([.unprocessed c.xml.tag], some ⟨c.xml.tag, c.xml.meta.stop, env.verbatim c.xml⟩)

/-- The loop of `fill_block`. -/
def blockLoop (env : Env) (ctx : Ctx) : Option Ignored → List (Attach.Out × Child) → Except Err (List Elem)
  | _, [] => .ok []
  | ignored, (o, c) :: rest =>
    match blockStep env ctx ignored o c with
    | .error e => .error e
    | .ok (es, ignored') =>
      match blockLoop env ctx ignored' rest with
      | .error e => .error e
      | .ok r => .ok (es ++ r)

/-- The child of a block as `Verif/Attach` sees it; `id` is its position. -/
def attachChild (p : Xml × Nat) : Attach.Child :=
  ⟨p.2, p.1.tag.str, p.1.text, p.1.meta.start, p.1.meta.stop⟩

/-- The children of a block with their comments (`srcml_comments.get_children_with_comments`, modelled in `Verif/Attach`); `none` is an
`AssertionError`. -/
def withComments (cs : List Child) : Option (List (Attach.Out × Child)) :=
  (Attach.getChildrenWithComments ((cs.map Child.xml).zipIdx.map attachChild)).bind
    (fun outs => outs.mapM (fun o => (cs[o.element.id]?).map (fun c => (o, c))))

/-- `/repo/src/srcmlcpp/internal/cpp_types_parse.py:848-941` `fill_block`, given the children and their parsers. -/
def fillBlock (env : Env) (cs : List Child) : Filler := fun ctx =>
  match withComments cs with
  | none => .error .crash
  | some l => blockLoop env ctx none l

/-- `/repo/src/srcmlcpp/internal/cpp_types_parse.py:833-845`: the only block content of the only block of an `extern "C"`; `fills` are
the fillers of the contents of each child. -/
def externFill (cs : List Xml) (fills : List (Tag × List Filler)) : Filler := fun ctx =>
  match cs.filter (fun c => c.tag = .literal) with
  | [l] =>
    if l.text = some "\"C\"".toList then
      match fills.filter (fun p => p.1 = .block) with
      | [(_, [f])] => f ctx
      | _ => .ok []
    else .ok []
  | _ => .ok []

/-- The end of the parsing of a class, a namespace or an enumeration. -/
def finish {α : Type} (r : Except Err (Building α)) (mk : α → Option (List Elem) → Elem) : Except Err (List Elem) :=
  match r with
  | .error e => .error e
  | .ok b => .ok [mk b.head b.block]

/-- One element. -/
def one {α : Type} (r : Except Err α) (mk : α → Elem) : Except Err (List Elem) :=
  match r with
  | .error e => .error e
  | .ok a => .ok [mk a]

mutual
/-- The `try` block of `fill_block` for one child (`/repo/src/srcmlcpp/internal/cpp_types_parse.py:862-932`). -/
def parseChild (env : Env) : Xml → Parser
  | .node m cs => fun ctx comments =>
    let x := Xml.node m cs
    match m.tag with
    | .declStmt => do
      let ds ← parseDeclStmt env x comments
      match ← fixDeclStmt env x with
      | some f => .ok [.func f]
      | none => .ok [.declStmt ds]
    | .macro_ =>
      match ctx with
      | .inAccess (some n) => do
        match ← fixMacro env n x with
        | some f => .ok [.func f]
        | none => .ok []
      | _ => .ok []
    | .decl => one (parseDecl env x comments none) .decl
    | .functionDecl => if (extractName env x).isNone then .error .crash else one (parseFunctionDecl env x comments) .func
    | .destructorDecl => if (extractName env x).isNone then .error .crash else one (parseFunctionDecl env x comments) .func
    | .function => if (extractName env x).isNone then .error .crash else one (parseFunction env x comments) .func
    | .destructor => if (extractName env x).isNone then .error .crash else one (parseFunction env x comments) .func
    | .constructorDecl => one (parseConstructorDecl env x comments) .func
    | .constructor => one (parseConstructor env x comments) .func
    | .struct_ =>
      if (extractName env x).isNone then .error .detailed
      else finish ((cs.zip (fillers env cs)).foldlM (structChild env) { head := { isClass := false, comments := comments } }) .struct_
    | .class_ =>
      if (extractName env x).isNone then .error .detailed
      else finish ((cs.zip (fillers env cs)).foldlM (structChild env) { head := { isClass := true, comments := comments } }) .struct_
    | .namespace_ =>
      finish ((cs.zip (fillers env cs)).foldlM (namespaceChild env) { head := { comments := comments } })
        (fun h b => .namespace_ h.name h.comments b)
    | .enum_ =>
      finish ((cs.zip (fillers env cs)).foldlM (enumChild env)
        { head := { enumType := m.typeAttr.getD [], comments := comments } }) .enum_
    | .blockContent => one (fillBlock env (childrenOf env cs) .elsewhere) .blockContent
    | .define => .ok [.define (parseDefine env x comments)]
    | .ifDirective => .ok [.conditionMacro (env.toCode x) comments]
    | .extern_ => externFill cs (contents env cs) ctx
    | .public_ => accessSection m (fillBlock env (childrenOf env cs) (accessCtx ctx))
    | .protected_ => accessSection m (fillBlock env (childrenOf env cs) (accessCtx ctx))
    | .private_ => accessSection m (fillBlock env (childrenOf env cs) (accessCtx ctx))
    | _ => .ok []
where
  /-- `/repo/src/srcmlcpp/internal/cpp_types_parse.py:752-765` `parse_public_protected_private`, and the assertion of
  `/repo/src/srcmlcpp/cpp_types/blocks/cpp_public_protected_private.py` on the attribute `type`. -/
  accessSection (m : Meta) (r : Except Err (List Elem)) : Except Err (List Elem) :=
    if m.typeAttr = none ∨ m.typeAttr = some [] ∨ m.typeAttr = some "default".toList then
      one r (.access m.tag (m.typeAttr == some "default".toList))
    else .error .crash

/-- The children with their parsers. -/
def childrenOf (env : Env) : List Xml → List Child
  | [] => []
  | c :: cs => ⟨c, parseChild env c⟩ :: childrenOf env cs

/-- `fill_block` for each child. -/
def fillers (env : Env) : List Xml → List Filler
  | [] => []
  | c :: cs => fillOf env c :: fillers env cs

/-- `fill_block` for one element. -/
def fillOf (env : Env) : Xml → Filler
  | .node _ cs => fillBlock env (childrenOf env cs)

/-- For each child, its tag and `fill_block` for its children `block_content`. -/
def contents (env : Env) : List Xml → List (Tag × List Filler)
  | [] => []
  | c :: cs => (c.tag, contentFillers env c) :: contents env cs

def contentFillers (env : Env) : Xml → List Filler
  | .node _ cs => contentFillersOf env cs

def contentFillersOf (env : Env) : List Xml → List Filler
  | [] => []
  | c :: cs => if c.tag = .blockContent then fillOf env c :: contentFillersOf env cs else contentFillersOf env cs
end

/-- `/repo/src/srcmlcpp/internal/cpp_types_parse.py:944-949` `parse_unit` -/
def parseUnit (env : Env) (x : Xml) : Except Err (List Elem) := fillOf env x .elsewhere

end Verif.Parse
