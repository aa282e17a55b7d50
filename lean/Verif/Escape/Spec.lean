import Verif.Py.Str

/-! Specification: what may stand between the quotes of a C string literal. -/

namespace Verif.Escape.Spec
open Verif.Py

/-- One element of a literal: an ordinary character or an escape sequence. -/
inductive Elem where
  | ordinary (c : Char)
  | escape (c : Char)
deriving DecidableEq

def Elem.text : Elem → Str
  | .ordinary c => [c]
  | .escape c => ['\\', c]

def text (es : List Elem) : Str := es.flatMap Elem.text

/-- An ordinary character of a literal is neither a quote, nor a backslash, nor a line break. -/
def Elem.WF : Elem → Prop
  | .ordinary c => c ≠ '"' ∧ c ≠ '\\' ∧ c ≠ '\n'
  | .escape c => c ≠ '\n'

/-- `s` can be put between quotes: it is a sequence of complete elements (so that a quote is always
escaped and no backslash is dangling). -/
def LiteralBody (s : Str) : Prop := ∃ es, (∀ e ∈ es, e.WF) ∧ s = text es

/-- The character denoted by the escape sequences used here. -/
def Elem.value : Elem → Option Char
  | .ordinary c => some c
  | .escape c =>
    if c = 'n' then some '\n' else if c = 't' then some '\t' else if c = '"' then some '"'
    else if c = '\\' then some '\\' else if c = '\'' then some '\'' else none

/-- The literal body `s` is valid C and denotes the text `v`. -/
def Denotes (s v : Str) : Prop := ∃ es, (∀ e ∈ es, e.WF) ∧ s = text es ∧ es.map Elem.value = v.map some

end Verif.Escape.Spec
