import Verif.Inst.Model
import Mathlib.Data.List.Forall2

/-! Specification: texts cut into words, and the replacement of a word in all the types of an element. -/

namespace Verif.Inst.Spec
open Verif.Py Verif.Type Verif.Inst
open Verif.Scope (isWordChar)

/-- A piece of a text: a word, or a character which is in no word. -/
inductive Piece where
  | word (w : Str)
  | sep (c : Char)
deriving DecidableEq

def Piece.text : Piece → Str
  | .word w => w
  | .sep c => [c]

def text (l : List Piece) : Str := l.flatMap Piece.text

/-- Words are non empty, made of word characters, and never next to each other: they are the longest possible ones. -/
def Cut (u : Char → Bool) : List Piece → Prop
  | [] => True
  | .sep c :: l => isWordChar u c = false ∧ Cut u l
  | .word w :: l => w ≠ [] ∧ (∀ c ∈ w, isWordChar u c = true) ∧ (∀ v m, l ≠ .word v :: m) ∧ Cut u l

/-- The text is cut into words. -/
def CutOf (u : Char → Bool) (s : Str) (l : List Piece) : Prop := Cut u l ∧ text l = s

/-- `name` is one of the words of the text. -/
def HasWord (u : Char → Bool) (name s : Str) : Prop := ∃ l, CutOf u s l ∧ .word name ∈ l

/-- The text where each word is changed by `f`. -/
def Renamed (u : Char → Bool) (f : Str → Str) (s s' : Str) : Prop :=
  ∃ l, CutOf u s l ∧ s' = text (l.map fun | .word w => .word (f w) | .sep c => .sep c)

/-- An identifier: a non empty word. -/
def Ident (u : Char → Bool) (name : Str) : Prop := name ≠ [] ∧ ∀ c ∈ name, isWordChar u c = true

/-- The parts, read as a table from names of template parameters to texts of types: the names are identifiers and the types have one
typename. -/
def Reads (u : Char → Bool) (ps : List Part) (tbl : List (Str × Str)) : Prop :=
  List.Forall₂ (fun p q => p.name = q.1 ∧ Ident u q.1 ∧ p.type.typenames.length = 1 ∧ strCode p.type = some q.2) ps tbl

/-- What the table says of a word: all the parameters are replaced at the same time. -/
def lookup (tbl : List (Str × Str)) (w : Str) : Str :=
  match tbl with
  | [] => w
  | q :: tbl => if w = q.1 then q.2 else lookup tbl w

/-- No type mentions a template parameter that comes later. -/
def NoCapture (u : Char → Bool) (tbl : List (Str × Str)) : Prop := tbl.Pairwise (fun p q => ¬ HasWord u q.1 p.2)

/-- The type `t'` is `t` where the words are renamed in the type names; specifiers and modifiers are the same. -/
def RenamedType (u : Char → Bool) (f : Str → Str) (t t' : CppType) : Prop :=
  t'.specifiers = t.specifiers ∧ t'.modifiers = t.modifiers ∧ List.Forall₂ (Renamed u f) t.typenames t'.typenames

def TypeHas (u : Char → Bool) (name : Str) (t : CppType) : Prop := ∃ tn ∈ t.typenames, HasWord u name tn

/-- The type mentions one of the template parameters. -/
def Hits (u : Char → Bool) (tbl : List (Str × Str)) (t : CppType) : Prop := ∃ q ∈ tbl, TypeHas u q.1 t

/-- A declaration is renamed in its type only. -/
def RenamedDecl (u : Char → Bool) (f : Str → Str) (d d' : Decl) : Prop :=
  RenamedType u f d.type d'.type ∧ d'.name = d.name ∧ d'.init = d.init

/-- A function is renamed in its return type and in its parameters. -/
def RenamedFunc (u : Char → Bool) (f : Str → Str) (g g' : Func) : Prop :=
  g'.name = g.name ∧ List.Forall₂ (RenamedType u f) g.ret.toList g'.ret.toList ∧ List.Forall₂ (RenamedDecl u f) g.params g'.params

/-- The types of a function. -/
def funcTypes (g : Func) : List CppType := g.ret.toList ++ g.params.map Decl.type

mutual
/-- The types in the members of a class, at every depth. -/
def elemTypes : Elem → List CppType
  | .func g => funcTypes g
  | .decls ds => ds.map Decl.type
  | .struct_ _ blocks => blocksTypes blocks
  | .other _ => []
def blocksTypes : List Block → List CppType
  | [] => []
  | b :: bs => blockTypes b ++ blocksTypes bs
def blockTypes : Block → List CppType
  | .access _ children => childrenTypes children
  | .other _ => []
def childrenTypes : List Elem → List CppType
  | [] => []
  | x :: xs => elemTypes x ++ childrenTypes xs
end

mutual
/-- The same members, in the same order and sections, renamed in their types. -/
inductive RenamedElem (u : Char → Bool) (f : Str → Str) : Elem → Elem → Prop
  | func (g g' : Func) (h : g'.host = g.host) (h' : RenamedFunc u f g g') : RenamedElem u f (.func g) (.func g')
  | decls (ds ds' : List Decl) (h : List.Forall₂ (RenamedDecl u f) ds ds') : RenamedElem u f (.decls ds) (.decls ds')
  | struct_ (h : Head) (bs bs' : List Block) (hb : RenamedBlocks u f bs bs') : RenamedElem u f (.struct_ h bs) (.struct_ h bs')
  | other (t : Str) : RenamedElem u f (.other t) (.other t)
inductive RenamedBlocks (u : Char → Bool) (f : Str → Str) : List Block → List Block → Prop
  | nil : RenamedBlocks u f [] []
  | access (name : Str) (l l' : List Elem) (bs bs' : List Block) (h : RenamedElems u f l l') (hb : RenamedBlocks u f bs bs') :
    RenamedBlocks u f (.access name l :: bs) (.access name l' :: bs')
  | other (t : Str) (bs bs' : List Block) (hb : RenamedBlocks u f bs bs') : RenamedBlocks u f (.other t :: bs) (.other t :: bs')
inductive RenamedElems (u : Char → Bool) (f : Str → Str) : List Elem → List Elem → Prop
  | nil : RenamedElems u f [] []
  | cons (x y : Elem) (l l' : List Elem) (h : RenamedElem u f x y) (hl : RenamedElems u f l l') : RenamedElems u f (x :: l) (y :: l')
end

end Verif.Inst.Spec
