import Mathlib.Data.List.Chain
import Verif.Py.Str

/-! Specification for comments: how C++ code on one line is made of tokens, and which `#` of a line is
an end-of-line comment. Independent of the model. -/

namespace Verif.Comment.Spec
open Verif.Py

/-- An element of the body of a C string literal. -/
inductive BodyItem where
  | ordinary (c : Char)
  | escape (c : Char)
deriving DecidableEq

/-- An element of the code part of a C++ line. -/
inductive Item where
  /-- a character outside literals -/
  | plain (c : Char)
  /-- a string literal -/
  | str (body : List BodyItem)
  /-- a character literal -/
  | chr (c : Char)
  /-- an escaped character literal -/
  | chrEsc (c : Char)
deriving DecidableEq

def BodyItem.render : BodyItem → Str
  | .ordinary c => [c]
  | .escape c => ['\\', c]

def Item.render : Item → Str
  | .plain c => [c]
  | .str body => '"' :: body.flatMap BodyItem.render ++ ['"']
  | .chr c => ['\'', c, '\'']
  | .chrEsc c => ['\'', '\\', c, '\'']

def render (items : List Item) : Str := items.flatMap Item.render

/-- Well-formed element of a string literal: an ordinary character is neither a quote nor a
backslash. -/
def BodyItem.WF : BodyItem → Prop
  | .ordinary c => c ≠ '"' ∧ c ≠ '\\'
  | .escape _ => True

def Item.WF : Item → Prop
  | .plain c => c ≠ '"' ∧ c ≠ '\'' ∧ c ≠ '\\'
  | .str body => ∀ b ∈ body, b.WF
  | .chr c => c ≠ '\\' ∧ c ≠ '\''
  | .chrEsc _ => True

/-- `cmt` is the comment that follows `items` on the line (or nothing): the items do not contain a
`//` outside literals, and the comment starts at the first `//`. -/
def IsLine (items : List Item) (cmt : Str) : Prop :=
  (∀ it ∈ items, it.WF) ∧
  List.IsChain (fun a b => ¬ (a = Item.plain '/' ∧ b = Item.plain '/')) items ∧
  (cmt = [] ∨ (['/', '/'] <+: cmt ∧ items.getLast? ≠ some (Item.plain '/')))

/-- The literals the scanner of litgen handles: no string literal that ends with an escaped backslash,
and no character literal made of a double quote. -/
def Item.Handled : Item → Prop
  | .str body => body.getLast? ≠ some (BodyItem.escape '\\')
  | .chr c => c ≠ '"'
  | _ => True

/-- `p` is the position of the end-of-line Python comment of the line, as far as a scan without a
Python parser can tell: the first `#` that has some non-blank character before it and an even number
of quote characters before it. -/
def EolCandidate (line : Str) (p : Nat) : Prop :=
  line[p]? = some '#' ∧ (∃ c ∈ line.take p, isSpace c = false) ∧
  (line.take p).countP (fun c => c = '"' || c = '\'') % 2 = 0

def EolComment (line : Str) (p : Nat) : Prop :=
  EolCandidate line p ∧ ∀ q < p, ¬ EolCandidate line q

end Verif.Comment.Spec
