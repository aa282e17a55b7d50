import Verif.Scope.Model

/-! Specification: paths, and the lexical structure of C++ code. -/

namespace Verif.Scope.Spec
open Verif.Py

/-- A name of a scope or an identifier: not empty, no colon. -/
def Name (n : Str) : Prop := n ≠ [] ∧ ':' ∉ n

/-- A path made of names. -/
def Path (p : List Str) : Prop := ∀ n ∈ p, Name n

/-- A path as written in C++: `A::B::C`. -/
def text (p : List Str) : Str := join "::".toList p

/-- The ancestors of a path, itself included, innermost first: `A::B`, `A` and the global scope. -/
def ancestors (p : List Str) : List (List Str) :=
  (List.range (p.length + 1)).map (fun i => p.take (p.length - i))

/-- The path before a name: `A::B::`, or nothing for the global scope. -/
def pathPrefix (p : List Str) : Str := if p = [] then [] else text p ++ "::".toList

/-- `i` is a known identifier that the name `t` can denote from `scope`: it is declared, under the path
`t`, in `scope` or in one of the scopes around. -/
def Accessible (scope ids : List Str) (t i : Str) : Prop :=
  i ∈ ids ∧ ∃ p, p <+: scope ∧ i = pathPrefix p ++ t

/-- `r` is obtained from `t` by successive lookups from `scope`. -/
inductive Lookups (scope ids : List Str) : Str → Str → Prop
  | done (t : Str) : Lookups scope ids t t
  | step (t i r : Str) (h : Accessible scope ids t i) (hr : Lookups scope ids i r) : Lookups scope ids t r

/-- Pieces of code. -/
inductive Seg
  /-- a possibly qualified identifier (or number): letters, digits, `_` and `::` -/
  | word (w : Str)
  /-- one character that is not in a word: blank, punctuation -/
  | sep (c : Char)
  /-- a string literal; `b` is between the quotes -/
  | str (b : Str)
  /-- a comment up to the end of its line; `b` comes after the slashes -/
  | comment (b : Str)
  /-- a string literal that is not closed before the end of the code -/
  | openStr (b : Str)

def Seg.text : Seg → Str
  | .word w => w
  | .sep c => [c]
  | .str b => '"' :: b ++ ['"']
  | .comment b => '/' :: '/' :: b
  | .openStr b => '"' :: b

def render (segs : List Seg) : Str := segs.flatMap Seg.text

/-- A word: word characters and `::`. -/
inductive Word (u : Char → Bool) : Str → Prop
  | one (c : Char) (h : isWordChar u c = true) : Word u [c]
  | colons : Word u [':', ':']
  | cons (c : Char) (w : Str) (h : isWordChar u c = true) (hw : Word u w) : Word u (c :: w)
  | consColons (w : Str) (hw : Word u w) : Word u (':' :: ':' :: w)

def Seg.isWord : Seg → Bool
  | .word _ => true
  | _ => false

/-- The pieces are those a C++ reader sees (without `/* */` comments, raw strings, character literals
and escaped quotes, which the code does not know). -/
def Lexed (u : Char → Bool) : List Seg → Prop
  | [] => True
  | .word w :: segs => Word u w ∧ (∀ s, segs.head? = some s → s.isWord = false) ∧ Lexed u segs
  | .sep c :: segs => isWordChar u c = false ∧ c ≠ '"' ∧
      ¬ (c = ':' ∧ (render segs).head? = some ':') ∧ ¬ (c = '/' ∧ (render segs).head? = some '/') ∧ Lexed u segs
  | .str b :: segs => '"' ∉ b ∧ Lexed u segs
  | .comment b :: segs => '\n' ∉ b ∧ (segs = [] ∨ ∃ rest, segs = .sep '\n' :: rest) ∧ Lexed u segs
  | .openStr b :: segs => '"' ∉ b ∧ segs = []

/-- A word is never immediately before a string literal or a comment. -/
def Loose : List Seg → Prop
  | [] => True
  | .word _ :: segs => (segs = [] ∨ ∃ c rest, segs = .sep c :: rest) ∧ Loose segs
  | _ :: segs => Loose segs

/-- The code with each word `w` changed into `f w`, and nothing else. -/
def mapWords (f : Str → Str) (segs : List Seg) : Str :=
  segs.flatMap (fun s => match s with | .word w => f w | s => s.text)

end Verif.Scope.Spec
