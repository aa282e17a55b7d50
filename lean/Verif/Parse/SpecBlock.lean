import Verif.Parse.Spec

/-! What the tree of elements of a file should be: a relation between the XML tree and the tree of elements. -/

namespace Verif.Parse.Spec
open Verif.Py Verif.Type

/-- The children which are not comments. -/
def noComments (cs : List Xml) : List Xml := cs.filter (fun c => c.tag ≠ .comment)

/-- A comment or an empty line. -/
def isNote : Elem → Bool
  | .emptyLine => true
  | .comment _ _ => true
  | _ => false

def noNotes (es : List Elem) : List Elem := es.filter (fun e => !isNote e)

/-- The children which are not comments, with the comments attached to them (by the rules of property C20). -/
def Commented (cs : List Xml) (l : List (Xml × Comments)) : Prop :=
  l.map Prod.fst = noComments cs ∧ ∃ outs, Attach.getChildrenWithComments (cs.zipIdx.map attachChild) = some outs ∧
    l.map Prod.snd = (outs.filter (fun o => !o.element.isComment)).map (fun o => ⟨o.onPreviousLines, o.endOfLine⟩)

/-- The last child with a tag. -/
def Last (x : Xml) (t : Tag) (c : Xml) : Prop := ∃ a b, x.children = a ++ c :: b ∧ c.tag = t ∧ ∀ d ∈ b, d.tag ≠ t

/-- A value given by the last child with a tag, or the initial one if there is none. -/
def LastOr {α : Type} (x : Xml) (t : Tag) (init : α) (G : Xml → α → Prop) (v : α) : Prop :=
  ((∀ c ∈ x.children, c.tag ≠ t) ∧ v = init) ∨ ∃ c, Last x t c ∧ G c v

def NameIs (env : Env) (c : Xml) (v : Str) : Prop := ∃ n, Names env c n ∧ v = strip n

/-- A base class: its access specifier and its name. -/
def BaseXml (env : Env) (c : Xml) (b : Str × Str) : Prop :=
  c.tag = .super_ ∧ LastOr c .specifier [] (fun c v => c.text = some v) b.1 ∧ LastOr c .name [] (NameIs env) b.2

/-- The comments before the block follow the end-of-line comment, with ` - ` between them. -/
def eolWith (eol : Str) (texts : List Str) : Str := texts.foldl (fun a t => if a = [] then t else a ++ " - ".toList ++ t) eol

/-- The comments of a class, a namespace or an enumeration. -/
def HeadComments (x : Xml) (c c' : Comments) : Prop :=
  c'.previousLines = c.previousLines ∧
  c'.endOfLine = eolWith c.endOfLine (((x.children.filter (fun d => d.tag = .comment)).filterMap Xml.text).map removeMarkers)

/-- The text of the only name in an XML element. -/
def onlyNameText (x : Xml) : Option Str :=
  match x.children.filter (fun c => c.tag = .name) with
  | [n] => n.text
  | _ => none

/-- The name, the parameters and the value of a `#define`, when they have a text. -/
def DefineIs (env : Env) (x : Xml) (c : Comments) (d : Define) : Prop :=
  let inner := (x.children.filter (fun k => k.tag = .macro_)).flatMap Xml.children
  d.name = ((inner.filter (fun k => k.tag = .name)).filterMap Xml.text).getLast? ∧
  d.parameters = ((inner.filter (fun k => k.tag = .parameterList)).map env.verbatim).getLast? ∧
  d.value = ((x.children.filter (fun k => k.tag = .value)).filterMap Xml.text).getLast? ∧ d.comments = c

/-- What should be known of a class, but for its block. -/
structure ClassHead (env : Env) (x : Xml) (c : Comments) (h : StructHead) : Prop where
  isClass : h.isClass = true ↔ x.tag = .class_
  name : LastOr x .name [] (NameIs env) h.name
  bases : LastOr x .superList none (fun c v => ∃ bs, v = some bs ∧ List.Forall₂ (BaseXml env) c.children bs) h.bases
  template : LastOr x .template_ none (fun c v => ∃ ps, v = some ps ∧ parseTemplate env c = .ok ps) h.template
  specifier : LastOr x .specifier [] (fun c v => c.text = some v) h.specifier
  macro_ : LastOr x .macro_ none (fun c v => ∃ n, Only c .name n ∧ v = some (n.text.getD (env.toCode n))) h.macro_
  comments : HeadComments x c h.comments

/-- The tags which stand for something (macros do in the access sections of a class). -/
def understood : List Tag :=
  [.declStmt, .decl, .functionDecl, .destructorDecl, .function, .destructor, .constructorDecl, .constructor, .comment, .struct_,
   .class_, .namespace_, .enum_, .blockContent, .define, .ifDirective, .extern_, .public_, .protected_, .private_]

/-- `extern "C" { ... }` and the content of its block. -/
def ExternC (x k : Xml) : Prop :=
  x.tag = .extern_ ∧ (∃ l, Only x .literal l ∧ l.text = some "\"C\"".toList) ∧ ∃ b, Only x .block b ∧ Only b .blockContent k

mutual

/-- The element `e` stands for the XML element `x`, to which the comments `c` are attached. `L` says which XML elements may be left out. -/
inductive Rep (env : Env) (L : Xml → Prop) : Xml → Comments → Elem → Prop
  | unknown (x : Xml) (c : Comments) (h : x.tag ∉ understood) : Rep env L x c (.unprocessed x.tag)
  | failed (x : Xml) (c : Comments) (ctx : Ctx) (h : parseChild env x ctx c = .error .detailed) : Rep env L x c (.unprocessed x.tag)
  | variables (x : Xml) (c : Comments) (ds : List Decl) (h : x.tag = .declStmt) (hp : parseDeclStmt env x c = .ok ds) :
      Rep env L x c (.declStmt ds)
  | recovered (x : Xml) (c : Comments) (f : Func) (h : x.tag = .declStmt) (hp : fixDeclStmt env x = .ok (some f)) : Rep env L x c (.func f)
  | macro_ (x : Xml) (c : Comments) (n : Str) (f : Func) (h : x.tag = .macro_) (hp : fixMacro env n x = .ok (some f)) :
      Rep env L x c (.func f)
  | decl (x : Xml) (c : Comments) (d : Decl) (h : x.tag = .decl) (hp : parseDecl env x c none = .ok d) : Rep env L x c (.decl d)
  | functionDecl (x : Xml) (c : Comments) (f : Func) (h : x.tag = .functionDecl ∨ x.tag = .destructorDecl)
      (hp : parseFunctionDecl env x c = .ok f) : Rep env L x c (.func f)
  | function (x : Xml) (c : Comments) (f : Func) (h : x.tag = .function ∨ x.tag = .destructor) (hp : parseFunction env x c = .ok f) :
      Rep env L x c (.func f)
  | constructorDecl (x : Xml) (c : Comments) (f : Func) (h : x.tag = .constructorDecl) (hp : parseConstructorDecl env x c = .ok f) :
      Rep env L x c (.func f)
  | constructor (x : Xml) (c : Comments) (f : Func) (h : x.tag = .constructor) (hp : parseConstructor env x c = .ok f) :
      Rep env L x c (.func f)
  | class_ (x : Xml) (c : Comments) (h : StructHead) (b : Option (List Elem)) (ht : x.tag = .struct_ ∨ x.tag = .class_)
      (hh : ClassHead env x c h) (hb : Block env L x b) : Rep env L x c (.struct_ h b)
  | namespace_ (x : Xml) (c c' : Comments) (n : Str) (b : Option (List Elem)) (ht : x.tag = .namespace_)
      (hn : LastOr x .name [] (NameIs env) n) (hc : HeadComments x c c') (hb : Block env L x b) :
      Rep env L x c (.namespace_ n c' b)
  | enum_ (x : Xml) (c : Comments) (h : EnumHead) (b : Option (List Elem)) (ht : x.tag = .enum_) (hty : h.enumType = x.meta.typeAttr.getD [])
      (hn : LastOr x .name [] (NameIs env) h.name)
      (hd : h.dataType = (((x.children.filter (fun k => k.tag = .type)).filterMap onlyNameText).getLast?).getD [])
      (hc : HeadComments x c h.comments) (hb : Block env L x b) : Rep env L x c (.enum_ h b)
  | content (x : Xml) (c : Comments) (es : List Elem) (h : x.tag = .blockContent) (hb : Content env L x es) : Rep env L x c (.blockContent es)
  | define (x : Xml) (c : Comments) (d : Define) (h : x.tag = .define) (hd : DefineIs env x c d) : Rep env L x c (.define d)
  | condition (x : Xml) (c : Comments) (h : x.tag = .ifDirective) : Rep env L x c (.conditionMacro (env.toCode x) c)
  | access (x : Xml) (c : Comments) (es : List Elem) (h : x.tag = .public_ ∨ x.tag = .protected_ ∨ x.tag = .private_)
      (hb : Content env L x es) : Rep env L x c (.access x.tag (x.meta.typeAttr == some "default".toList) es)

/-- The block of a class, a namespace or an enumeration. -/
inductive Block (env : Env) (L : Xml → Prop) : Xml → Option (List Elem) → Prop
  | none (x : Xml) (h : ∀ c ∈ x.children, c.tag ≠ .block) : Block env L x none
  | some (x b : Xml) (es : List Elem) (h : Last x .block b) (hb : Content env L b es) : Block env L x (some es)

/-- The elements of a block: each child that is not a comment gives its element, in order. -/
inductive Content (env : Env) (L : Xml → Prop) : Xml → List Elem → Prop
  | mk (x : Xml) (l : List (Xml × Comments)) (es : List Elem) (h : Commented x.children l) (hs : Seq env L l (noNotes es)) :
      Content env L x es

/-- One after the other; the content of `extern "C"` is put in place of it. -/
inductive Seq (env : Env) (L : Xml → Prop) : List (Xml × Comments) → List Elem → Prop
  | nil : Seq env L [] []
  | one (x : Xml) (c : Comments) (e : Elem) (l : List (Xml × Comments)) (es : List Elem) (h : Rep env L x c e) (hs : Seq env L l es) :
      Seq env L ((x, c) :: l) (e :: es)
  | externC (x k : Xml) (c : Comments) (inner : List Elem) (l : List (Xml × Comments)) (es : List Elem) (h : ExternC x k)
      (hk : Content env L k inner) (hs : Seq env L l es) : Seq env L ((x, c) :: l) (noNotes inner ++ es)
  | lost (x : Xml) (c : Comments) (l : List (Xml × Comments)) (es : List Elem) (h : L x) (hs : Seq env L l es) : Seq env L ((x, c) :: l) es

end

/-- `y` is `x` or inside it. -/
inductive Inside : Xml → Xml → Prop
  | refl (x : Xml) : Inside x x
  | child (x c y : Xml) (h : c ∈ x.children) (hy : Inside c y) : Inside x y

/-- What the parser may leave out: a macro of a class; an `extern` other than `extern "C" { ... }`. -/
def MayBeLost (x : Xml) : Prop := x.tag = .macro_ ∨ (x.tag = .extern_ ∧ ¬ ∃ k, ExternC x k)

end Verif.Parse.Spec
