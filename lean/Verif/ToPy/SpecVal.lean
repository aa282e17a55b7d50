import Verif.Inst.Spec

/-! Specification: the values of numbers in a text. -/

namespace Verif.ToPy.Spec
open Verif.Py Verif.Inst.Spec

/-- Every word that is a name of the list has its value instead; `cutValue` are the pieces of the values. -/
def valued (macros : List (Str × List Piece)) : List Piece → List Piece
  | [] => []
  | .sep c :: l => .sep c :: valued macros l
  | .word w :: l => (((macros.find? (fun q => q.1 == w)).map Prod.snd).getD [.word w]) ++ valued macros l

/-- The words of C++ that have a meaning in types: they are changed by the translation of types. -/
def typeWords : List Str :=
  ["std".toList, "unsigned".toList, "long".toList, "const".toList, "uint8_t".toList, "int8_t".toList, "uint16_t".toList, "int16_t".toList,
   "uint32_t".toList, "int32_t".toList, "uint64_t".toList, "int64_t".toList, "short".toList, "double".toList, "size_t".toList, "void".toList,
   "py".toList, "nb".toList, "mutable".toList]

/-- No word of a type, no `&` and no `*`. -/
structure NoType (u : Char → Bool) (s : Str) : Prop where
  words : ∀ w, HasWord u w s → w ∉ typeWords
  amp : '&' ∉ s
  star : '*' ∉ s

end Verif.ToPy.Spec
