import Verif.Inst.Spec

/-! Specification: the qualifiers and the scopes of a whole type. -/

namespace Verif.ToPy.Spec
open Verif.Py Verif.Inst.Spec

/-- The pieces of a text without the word `q` (and the blank after it), wherever it is followed by a blank. -/
def without (q : Str) : List Piece → List Piece
  | [] => []
  | .sep c :: l => .sep c :: without q l
  | [.word w] => [.word w]
  | .word w :: .word v :: l => .word w :: without q (.word v :: l)
  | .word w :: .sep c :: l => if w = q ∧ c = ' ' then without q l else .word w :: .sep c :: without q l

/-- The type without its qualifiers `static` and `constexpr`. -/
def unqualified (l : List Piece) : List Piece := without "constexpr".toList (without "static".toList l)

/-- The scopes with dots. -/
def dotted : Str → Str
  | [] => []
  | [c] => [c]
  | c :: d :: s => if c = ':' ∧ d = ':' then '.' :: dotted s else c :: dotted (d :: s)

/-- No blank after the bracket of `Optional[`. -/
def opened (s : Str) : Str := replace s "Optional[ ".toList "Optional[".toList

end Verif.ToPy.Spec
