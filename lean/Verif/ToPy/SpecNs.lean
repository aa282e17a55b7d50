import Verif.Inst.Spec

/-! Specification: the namespaces of the scoped names of a Python text. -/

namespace Verif.ToPy.Spec
open Verif.Py Verif.Inst.Spec

/-- The pieces of a text where every word just before a dot is changed by `f`, or removed with its dot. -/
def scopesMapped (f : Str → Option Str) : List Piece → List Piece
  | [] => []
  | .sep c :: l => .sep c :: scopesMapped f l
  | [.word w] => [.word w]
  | .word w :: .word v :: l => .word w :: scopesMapped f (.word v :: l)
  | .word w :: .sep c :: l =>
    if c = '.' then
      (match f w with
        | some p => [.word p, .sep '.']
        | none => []) ++ scopesMapped f l
    else .word w :: .sep c :: scopesMapped f l

/-- The words of the text that come just before a dot. -/
def scopeWords : List Piece → List Str
  | [] => []
  | .sep _ :: l => scopeWords l
  | [.word _] => []
  | .word _ :: .word v :: l => scopeWords (.word v :: l)
  | .word w :: .sep c :: l => if c = '.' then w :: scopeWords l else scopeWords l

/-- The Python name of a namespace. -/
def pyName (nss : List (Str × Str)) (w : Str) : Str := ((nss.find? (fun q => q.1 == w)).map Prod.snd).getD w

/-- The Python name of a namespace, none for a root namespace. -/
def pyScope (nss : List (Str × Str)) (roots : List Str) (w : Str) : Option Str := if pyName nss w ∈ roots then none else some (pyName nss w)

end Verif.ToPy.Spec
