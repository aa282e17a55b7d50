import Verif.Py.Str

/-! Specification: a template is a sequence of texts and named holes, filled simultaneously. -/

namespace Verif.Template.Spec
open Verif.Py

/-- A piece of a template. -/
inductive Piece where
  | text (t : Str)
  | hole (key : Str)

/-- The source text of a template: a hole is written `{key}`. -/
def Piece.source : Piece → Str
  | .text t => t
  | .hole k => '{' :: k ++ ['}']

def source (ps : List Piece) : Str := ps.flatMap Piece.source

/-- Filling all the holes at once; a hole without value stays. -/
def fill (value : Str → Option Str) (ps : List Piece) : Str :=
  ps.flatMap (fun p => match p with
    | .text t => t
    | .hole k => (value k).getD ('{' :: k ++ ['}']))

/-- Every opening brace of the text is followed, in the text, by a character that is not a key
character: it does not open a placeholder. -/
def PlainText (isKeyChar : Char → Bool) : Str → Prop
  | [] => True
  | c :: cs => (c = '{' → ∃ d ds, cs = d :: ds ∧ isKeyChar d = false) ∧ PlainText isKeyChar cs

/-- A key: non empty, made of key characters. -/
def Key (isKeyChar : Char → Bool) (k : Str) : Prop := k ≠ [] ∧ ∀ c ∈ k, isKeyChar c = true

def Piece.WF (isKeyChar : Char → Bool) : Piece → Prop
  | .text t => PlainText isKeyChar t
  | .hole k => Key isKeyChar k

/-- The value of a key in a list of items. -/
def lookup (items : List (Str × Str)) (k : Str) : Option Str :=
  (items.find? (fun kv => kv.1 == k)).map Prod.snd

end Verif.Template.Spec
