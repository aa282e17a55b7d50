import Verif.Py.Str

/-! Specification: how C++ reads namespaces and braces. -/

namespace Verif.Glue.Spec
open Verif.Py

/-- What the reader waits for: nothing, the name of a namespace, the brace after the name of a namespace, the name of a class. -/
inductive Waits where
  | nothing
  | nsName
  | nsBrace (name : Str)
  | className
deriving DecidableEq

/-- The reader: the open braces (innermost first: the name for those of a namespace, an empty name for the others), and the classes declared
so far, each with the names of the open braces around it, outermost first. -/
structure Reader where
  stack : List Str
  waits : Waits
  declared : List (List Str × Str)
deriving DecidableEq

/-- Reading one word; `none` when a brace is closed that was not opened. -/
def step (r : Reader) (w : Str) : Option Reader :=
  match r.waits with
  | .nsName => some { r with waits := .nsBrace w }
  | .nsBrace n => if w = "{".toList then some { r with stack := n :: r.stack, waits := .nothing } else some { r with waits := .nothing }
  | .className => some { r with waits := .nothing, declared := r.declared ++ [(r.stack.reverse, w)] }
  | .nothing =>
    if w = "namespace".toList then some { r with waits := .nsName }
    else if w = "class".toList ∨ w = "struct".toList then some { r with waits := .className }
    else if w = "{".toList then some { r with stack := [] :: r.stack }
    else if w = "}".toList then
      match r.stack with
      | [] => none
      | _ :: st => some { r with stack := st }
    else some r

/-- The words of a line: a comment is skipped, braces and semicolons are words. -/
def comment (l : Str) : Str → Str
  | [] => l
  | c :: r => if startsWith (c :: r) "//".toList then l else comment (l ++ [c]) r

def pad (c : Char) : Str := if c = '{' ∨ c = '}' ∨ c = ';' then [' ', c, ' '] else [c]

def words (l : Str) : List Str := (splitOn ' ' ((comment [] l).flatMap pad)).filter (fun w => w ≠ [])

/-- Reading a text. -/
def readCode (text : Str) (r : Reader) : Option Reader := ((lines text).flatMap words).foldlM step r

/-- A text that opens and closes as many braces, and declares nothing. -/
def Neutral (ls : List Str) : Prop :=
  ∀ st decl, (ls.flatMap words).foldlM step ⟨st, .nothing, decl⟩ = some ⟨st, .nothing, decl⟩

/-- A C++ name that can be a class or a namespace: not empty, without blanks, punctuation or slashes, and not a keyword the reader
knows. -/
def GoodName (n : Str) : Prop :=
  n ≠ [] ∧ (∀ c ∈ n, c ≠ ' ' ∧ c ≠ '\n' ∧ c ≠ '{' ∧ c ≠ '}' ∧ c ≠ ';' ∧ c ≠ '/') ∧
  n ∉ ["namespace".toList, "class".toList, "struct".toList]

end Verif.Glue.Spec
