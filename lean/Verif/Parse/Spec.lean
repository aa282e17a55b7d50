import Mathlib.Data.List.Forall2
import Verif.Parse.Model

/-! What the XML of srcML says: relations between pieces of C++ code and XML elements, and between XML elements and parsed elements. -/

namespace Verif.Parse.Spec
open Verif.Py Verif.Type

/-! ### Types -/

/-- A word of a written type. -/
inductive Word where
  | specifier (s : Str)
  | name (n : Str)
  | modifier (m : Str)
deriving DecidableEq

def specifiersOf (ws : List Word) : List Str :=
  ws.filterMap (fun
    | .specifier s => some s
    | _ => none)
def namesOf (ws : List Word) : List Str :=
  ws.filterMap (fun
    | .name s => some s
    | _ => none)
def modifiersOf (ws : List Word) : List Str :=
  ws.filterMap (fun
    | .modifier s => some s
    | _ => none)

/-- The name an XML element holds: its text, or its code if it is composed (`std::vector<int>`). -/
def Names (env : Env) (c : Xml) (n : Str) : Prop :=
  c.tag = .name ∧ (c.text = some n ∨ (c.text = none ∧ strip (env.verbatim c) = n))

/-- The XML element of one word. -/
def WordXml (env : Env) (c : Xml) : Word → Prop
  | .specifier s => c.tag = .specifier ∧ c.text = some s
  | .name n => Names env c n
  | .modifier m => c.tag = .modifier ∧ c.text = some m

/-- The XML element of a type, word after word. -/
def TypeXml (env : Env) (x : Xml) (ws : List Word) : Prop :=
  x.tag = .type ∧ List.Forall₂ (WordXml env) x.children ws

/-- A name with an API prefix (`MY_API`). -/
def Api (env : Env) (n : Str) : Prop := ∃ p ∈ env.apiPrefixes, p <+: n

/-- The written type can be represented: its modifiers are known, and it has a name (or is `auto`, or `...`). -/
def Writable (ws : List Word) : Prop :=
  (∀ m ∈ modifiersOf ws, m = "*".toList ∨ m = "&".toList ∨ m = "&&".toList ∨ m = "...".toList) ∧
  (namesOf ws ≠ [] ∨ "...".toList ∈ modifiersOf ws ∨ "auto".toList ∈ specifiersOf ws)

/-- No two API names in a row. -/
def Spaced (env : Env) : List Str → Prop
  | a :: b :: r => ¬ (Api env a ∧ Api env b) ∧ Spaced env (b :: r)
  | _ => True

/-- What should be known of a written type: its names and its modifiers in their order; its API names are specifiers. -/
structure TypeOf (env : Env) (ws : List Word) (t : CppType) : Prop where
  modifiers : t.modifiers = modifiersOf ws
  names : ∃ f : Str → Bool, (∀ n, f n = true ↔ ¬ Api env n) ∧ t.typenames = (namesOf ws).filter f
  specifiers : ∃ f : Str → Bool, (∀ n, f n = true ↔ Api env n) ∧ t.specifiers = ((namesOf ws).filter f).reverse ++ specifiersOf ws

/-! ### Values -/

/-- An expression made of one literal or one name. -/
def Atom (x : Xml) (s : Str) : Prop :=
  ∃ c, x.children = [c] ∧ (c.tag = .literal ∨ c.tag = .name) ∧ c.text = some s

/-- The code of an expression. -/
def ExprXml (env : Env) (x : Xml) (s : Str) : Prop :=
  x.tag = .expr ∧ (Atom x s ∨ ((¬ ∃ s', Atom x s') ∧ env.toCode x = s))

/-- An initial value as it is written. -/
inductive Init where
  | none
  | value (s : Str)
  | list (vs : List Str)
deriving DecidableEq

/-- The only child with a tag. -/
def Only (x : Xml) (t : Tag) (c : Xml) : Prop := ∃ a b, x.children = a ++ c :: b ∧ c.tag = t ∧ ∀ d ∈ a ++ b, d.tag ≠ t

/-- The XML elements of an initial value. -/
def InitXml (env : Env) (xs : List Xml) : Init → Prop
  | .none => xs = []
  | .value s => ∃ i e, xs = [i] ∧ i.tag = .init ∧ Only i .expr e ∧ ExprXml env e s
  | .list vs => ∃ a, xs = [a] ∧ a.tag = .argumentList ∧ (∀ c ∈ a.children, c.tag = .argument) ∧
      List.Forall₂ (fun c v => ∃ e, Only c .expr e ∧ ExprXml env e v) a.children vs

/-- The initial value in the parsed declaration. -/
def InitOf (d : Decl) : Init → Prop
  | .none => d.initialValue = [] ∧ d.viaInitializerList = false
  | .value s => d.initialValue = s ∧ d.viaInitializerList = false
  | .list vs => d.initialValue = "{".toList ++ join ", ".toList vs ++ "}".toList ∧ d.viaInitializerList = true

/-! ### Declarations -/

/-- A written declaration: its type, its name with the sizes of the array (`none` for a parameter without name), its initial value, the
comments inside it, the range of a bit field (`: 3`). -/
structure WDecl where
  words : List Word
  name : Option Str
  init : Init
  comments : List Str := []
  bits : Option Str := none

/-- The XML element of a name or of nothing. -/
def NameXml (env : Env) (xs : List Xml) : Option Str → Prop
  | none => xs = []
  | some n => ∃ c n', xs = [c] ∧ Names env c n' ∧ n = strip n'

/-- XML comments. -/
def CommentsXml (xs : List Xml) (cs : List Str) : Prop :=
  List.Forall₂ (fun x t => x.tag = .comment ∧ x.text = some t) xs cs

/-- The XML of the range of a bit field. -/
def BitsXml (env : Env) (xs : List Xml) : Option Str → Prop
  | none => xs = []
  | some s => ∃ c, xs = [c] ∧ c.tag = .range ∧ env.verbatim c = s

/-- The XML element of a declaration whose type element is given by `ws`. -/
def DeclXmlWith (env : Env) (x : Xml) (ws : List Word) (w : WDecl) : Prop :=
  x.tag = .decl ∧ ∃ t ns bs is cs, x.children = t :: (ns ++ (bs ++ (is ++ cs))) ∧ TypeXml env t ws ∧ NameXml env ns w.name ∧
    BitsXml env bs w.bits ∧ InitXml env is w.init ∧ CommentsXml cs w.comments

def DeclXml (env : Env) (x : Xml) (w : WDecl) : Prop := DeclXmlWith env x w.words w

/-- The name and the sizes: together they are what is written; the name has no bracket. -/
def NameOf (written : Option Str) (d : Decl) : Prop :=
  d.name ++ d.arrayCode = written.getD [] ∧
  (d.arrayCode ≠ [] → '[' ∉ d.name ∧ d.arrayCode.head? = some '[' ∧ d.arrayCode.getLast? = some ']') ∧
  (d.arrayCode = [] → '[' ∈ d.name → d.name.getLast? ≠ some ']')

/-- End-of-line comments joined. -/
def joined : Str → List Str → Str
  | s, [] => s
  | s, t :: ts => joined (if s = [] then Attach.removeCommentTokens t else s ++ " - ".toList ++ Attach.removeCommentTokens t) ts

/-- What should be known of a declaration. -/
structure DeclOf (env : Env) (c : Comments) (w : WDecl) (d : Decl) : Prop where
  type : ∃ t, d.cppType = some t ∧ TypeOf env w.words t
  name : NameOf w.name d
  init : InitOf d w.init
  bitfield : d.bitfield = w.bits.getD []
  top : d.comments.previousLines = c.previousLines
  eol : d.comments.endOfLine = joined c.endOfLine w.comments

/-- A written statement: the words before the first declarator; then for each declarator its modifiers, its name, its value, the comments
inside it and after it. -/
structure Declarator where
  modifiers : List Str
  name : Str
  init : Init
  comments : List Str := []
  after : List Str := []
  bits : Option Str := none

/-- The declaration a declarator stands for: the words of the statement with its own modifiers. -/
def Declarator.decl (base : List Word) (d : Declarator) : WDecl :=
  ⟨base ++ d.modifiers.map .modifier, some d.name, d.init, d.comments ++ d.after, d.bits⟩

/-- The XML of the declarators after the first one: srcML only repeats the modifiers (`<type ref="prev">`). -/
inductive NextXml (env : Env) : List Xml → List Declarator → Prop where
  | nil : NextXml env [] []
  | cons (x : Xml) (cs xs : List Xml) (d : Declarator) (ds : List Declarator) :
      DeclXmlWith env x (d.modifiers.map .modifier) ⟨[], some d.name, d.init, d.comments, d.bits⟩ → CommentsXml cs d.after → NextXml env xs ds →
      NextXml env (x :: (cs ++ xs)) (d :: ds)

/-- The XML of a statement. -/
def StmtXml (env : Env) (x : Xml) (base : List Word) (d : Declarator) (ds : List Declarator) : Prop :=
  x.tag = .declStmt ∧ ∃ y cs ys, x.children = y :: (cs ++ ys) ∧
    DeclXmlWith env y (base ++ d.modifiers.map .modifier) ⟨[], some d.name, d.init, d.comments, d.bits⟩ ∧ CommentsXml cs d.after ∧ NextXml env ys ds

/-! ### Functions -/

/-- The XML of a parameter. -/
def ParamXml (env : Env) (x : Xml) (w : WDecl) : Prop := x.tag = .parameter ∧ ∃ d, x.children = [d] ∧ DeclXml env d w

/-- What should be known of a parameter. -/
def ParamOf (env : Env) (w : WDecl) (p : Param) : Prop := ∃ d, p = { decl := some d } ∧ DeclOf env {} w d

/-- The XML of a list of parameters; there may be comments between them. -/
def ParamsXml (env : Env) (x : Xml) (ws : List WDecl) : Prop :=
  x.tag = .parameterList ∧ (∀ c ∈ x.children, c.tag = .parameter ∨ c.tag = .comment) ∧
  List.Forall₂ (ParamXml env) (x.children.filter (fun c => c.tag ≠ .comment)) ws

/-- A parameter of a template: `typename T = int`, or a declaration. -/
inductive WTemplate where
  | type (kind name : Str) (init : Option Str)
  | decl (w : WDecl)

def TemplateParamXml (env : Env) (x : Xml) : WTemplate → Prop
  | .type k n none => x.tag = .parameter ∧ ∃ t m, x.children = [t, m] ∧ t.tag = .type ∧ (∃ c, Only t .name c ∧ c.text = some k) ∧
      m.tag = .name ∧ m.text = some n
  | .type k n (some v) => x.tag = .parameter ∧ ∃ t m i e, x.children = [t, m, i] ∧ t.tag = .type ∧ (∃ c, Only t .name c ∧ c.text = some k) ∧
      m.tag = .name ∧ m.text = some n ∧ i.tag = .init ∧ Only i .expr e ∧ ExprXml env e v
  | .decl w => ParamXml env x w

def TemplateParamOf (env : Env) (p : Param) : WTemplate → Prop
  | .type k n i => p = { templateType := some k, templateName := n, templateInit := i.getD [] }
  | .decl w => ParamOf env w p

/-- `template<...>` in front of a function or a class, if any. -/
def TemplateXml (env : Env) (xs : List Xml) : Option (List WTemplate) → Prop
  | none => xs = []
  | some ws => ∃ t l, xs = [t] ∧ t.tag = .template_ ∧ t.children = [l] ∧ l.tag = .parameterList ∧ (∀ c ∈ l.children, c.tag = .parameter) ∧
      List.Forall₂ (TemplateParamXml env) l.children ws

def TemplateOf (env : Env) (p : Option (List Param)) : Option (List WTemplate) → Prop
  | none => p = none
  | some ws => ∃ ps, p = some ps ∧ List.Forall₂ (fun w p => TemplateParamOf env p w) ws ps

/-- What follows the parameters of a function. -/
inductive Tail where
  | specifier (s : Str)
  | noexcept_ (condition : Option Str)
  | pure
  | attribute
  | memberInit
  | body
deriving DecidableEq

def TailXml (env : Env) (c : Xml) : Tail → Prop
  | .specifier s => c.tag = .specifier ∧ c.text = some s
  | .noexcept_ none => c.tag = .noexcept_ ∧ ∀ d ∈ c.children, d.tag ≠ .argumentList
  | .noexcept_ (some s) => c.tag = .noexcept_ ∧ ∃ a, Only c .argumentList a ∧ env.verbatim a = s
  | .pure => c.tag = .literal ∧ ∃ t, c.text = some t ∧ strip t = "0".toList
  | .attribute => c.tag = .attribute
  | .memberInit => c.tag = .memberInitList
  | .body => c.tag = .block

/-- The XML element of the name of a function; the name of an operator is in two parts. -/
def FuncNameXml (env : Env) (c : Xml) (name : Str) : Prop :=
  (∃ s, Names env c s ∧ name = strip s ∧ name ≠ "operator".toList) ∨
  (∃ d o, c.tag = .name ∧ c.text = some "operator".toList ∧ Only c .name d ∧ Names env d o ∧
    (((∃ a r, strip o = a :: r ∧ (a.isAlpha = true ∨ a = '_')) ∧ name = "operator ".toList ++ strip o) ∨
     ((¬ ∃ a r, strip o = a :: r ∧ (a.isAlpha = true ∨ a = '_')) ∧ name = "operator".toList ++ strip o)))

/-- A written function. -/
structure WFunc where
  template : Option (List WTemplate) := none
  ret : List Word
  name : Str
  params : List WDecl
  tail : List Tail

/-- The XML elements of a function. -/
def FuncXml (env : Env) (x : Xml) (w : WFunc) : Prop :=
  ∃ ts t n ps tail, x.children = ts ++ t :: n :: ps :: tail ∧ TemplateXml env ts w.template ∧ TypeXml env t w.ret ∧
    FuncNameXml env n w.name ∧ ParamsXml env ps w.params ∧ List.Forall₂ (TailXml env) tail w.tail

/-- The parts of the tail of a function. -/
def tailSpecifiers (ts : List Tail) : List Str :=
  ts.filterMap (fun
    | .specifier s => some s
    | _ => none)
def tailNoexcept (ts : List Tail) : Option Str :=
  (ts.filterMap (fun
    | .noexcept_ c => some (c.getD [])
    | _ => none)).getLast?

/-- What should be known of a function. -/
structure FuncOf (env : Env) (kind : FuncKind) (c : Comments) (w : WFunc) (f : Func) : Prop where
  kind : f.kind = kind
  name : f.name = w.name
  ret : ∃ t, f.returnType = some t ∧ TypeOf env w.ret t
  params : ∃ ps, f.params = some ps ∧ List.Forall₂ (ParamOf env) w.params ps
  specifiers : f.specifiers = tailSpecifiers w.tail
  pure : f.pureVirtual = true ↔ Tail.pure ∈ w.tail
  noexcept_ : f.noexcept_ = tailNoexcept w.tail
  template : TemplateOf env f.template w.template
  body : f.hasBody = true ↔ f.kind = .function ∧ Tail.body ∈ w.tail
  comments : f.comments = c

/-- The XML elements of a constructor (its type is not written). -/
def CtorXml (env : Env) (x : Xml) (w : WFunc) : Prop :=
  ∃ ts n ps tail, x.children = ts ++ n :: ps :: tail ∧ TemplateXml env ts w.template ∧
    (∃ s, Names env n s ∧ w.name = strip s) ∧ ParamsXml env ps w.params ∧ List.Forall₂ (TailXml env) tail w.tail

/-- What should be known of a constructor. -/
structure CtorOf (env : Env) (kind : FuncKind) (c : Comments) (w : WFunc) (f : Func) : Prop where
  kind : f.kind = kind
  name : f.name = w.name
  params : ∃ ps, f.params = some ps ∧ List.Forall₂ (ParamOf env) w.params ps
  specifiers : f.specifiers = tailSpecifiers w.tail
  noexcept_ : f.noexcept_ = tailNoexcept w.tail
  template : TemplateOf env f.template w.template
  body : f.hasBody = true ↔ f.kind = .constructor ∧ Tail.body ∈ w.tail
  memberInit : f.hasMemberInit = true ↔ f.kind = .constructor ∧ Tail.memberInit ∈ w.tail
  comments : f.comments = c

/-- A type that can be parsed without ambiguity. -/
def GoodType (env : Env) (ws : List Word) : Prop := Writable ws ∧ Spaced env (namesOf ws)

/-- The parameters of a template are unambiguous. -/
def GoodTemplateParam (env : Env) : WTemplate → Prop
  | .type _ _ _ => True
  | .decl d => GoodType env d.words
def GoodTemplate (env : Env) (t : Option (List WTemplate)) : Prop := ∀ ws, t = some ws → ∀ w ∈ ws, GoodTemplateParam env w

/-! ### Text -/

mutual
/-- The text of an XML element. -/
def codeOf : Xml → Str
  | .node m cs => m.text.getD [] ++ codesOf cs
def codesOf : List Xml → Str
  | [] => []
  | c :: cs => codeOf c ++ c.meta.tail.getD [] ++ codesOf cs
end

/-- The text of an element and what follows it. -/
def codeTail (x : Xml) : Str := codeOf x ++ x.meta.tail.getD []

/-! ### Functions which srcML takes for declarations -/

/-- An expression that may be a parameter with a default value: two names, a sign `=`, and a block. -/
def Suspicious (e b : Xml) : Prop :=
  Only e .block b ∧ (∃ m n, e.children.filter (fun c => c.tag = .name) = [m, n]) ∧
  ∃ o ∈ e.children, o.tag = .operator ∧ ∃ t, o.text = some t ∧ strip t = "=".toList

/-- A block in braces, as srcML gives it: empty (there may be spaces), or with children between the braces; `inner` is what is between the
braces. -/
def Braces (b : Xml) (inner : Str) : Prop :=
  (b.children = [] ∧ (∃ n, b.text = some ('{' :: List.replicate n ' ' ++ ['}'])) ∧ inner = []) ∨
  (∃ t u a z cs c, b.text = some t ∧ '}' ∉ t ∧ strip t = '{' :: a ∧ b.children = cs ++ [c] ∧ c.meta.tail = some u ∧ strip u = z ++ ['}'] ∧
    inner = a ++ (cs.map codeTail).flatten ++ codeOf c ++ z)

/-- The marker of the former braces. -/
def marked (inner : Str) : Str := "__srcmlcpp_brace_init__(".toList ++ inner ++ ")".toList

/-- An argument which cannot be a parameter with a value in braces. -/
def PlainArg (c : Xml) : Prop := c.tag = .argument → ∀ e b, Only c .expr e → ¬ Suspicious e b

/-- An argument which is a parameter with a value in braces, and its code with the marker in place of the braces. -/
def BracedArg (c : Xml) (out : Str) : Prop :=
  c.tag = .argument ∧ ∃ pre e post a b inner, c.children = pre ++ e :: post ∧ e.tag = .expr ∧ (∀ d ∈ pre ++ post, d.tag ≠ .expr) ∧
    e.children = a ++ [b] ∧ Suspicious e b ∧ Braces b inner ∧
    out = c.text.getD [] ++ (pre.map codeTail).flatten ++
      (e.text.getD [] ++ (a.map codeTail).flatten ++ marked inner ++ b.meta.tail.getD [] ++ e.meta.tail.getD []) ++
      (post.map codeTail).flatten ++ c.meta.tail.getD []

/-- The code of an argument with the marker in place of the braces, if it has some. -/
def ArgText (c : Xml) (out : Str) : Prop := (PlainArg c ∧ out = codeTail c) ∨ BracedArg c out

/-- A default value with its braces back. -/
def Restored (before after : Str) : Prop :=
  (∃ v, before = marked v ∧ after = "{".toList ++ v ++ "}".toList) ∨
  ((¬ "__srcmlcpp_brace_init__(".toList <+: before) ∧ after = before)

end Verif.Parse.Spec
