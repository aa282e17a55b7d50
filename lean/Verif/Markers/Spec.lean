import Verif.Py.Str

/-! Specification of a file with generated regions, independent of the model. -/

namespace Verif.Markers.Spec
open Verif.Py

/-- The markers of a token, as documented: `<token>` and `</token>`. -/
def opening (tok : Str) : Str := "<".toList ++ tok ++ ">".toList
def closing (tok : Str) : Str := "</".toList ++ tok ++ ">".toList

/-- A piece of a file: a line outside the regions, or a region with its marker lines. -/
inductive Piece where
  | outside (line : Str)
  | region (openLine : Str) (body : List Str) (closeLine : Str)

/-- The lines of a piece. -/
def Piece.lines : Piece → List Str
  | .outside l => [l]
  | .region o b c => o :: b ++ [c]

/-- A line mentions a marker. -/
def Mentions (line marker : Str) : Prop := marker <:+: line

/-- Well-formed pieces: the marker lines hold their marker and not the other one, the other lines
hold no marker. -/
def Piece.WF (tok : Str) : Piece → Prop
  | .outside l => ¬ Mentions l (opening tok) ∧ ¬ Mentions l (closing tok)
  | .region o b c =>
    Mentions o (opening tok) ∧ ¬ Mentions o (closing tok) ∧
    (∀ l ∈ b, ¬ Mentions l (opening tok) ∧ ¬ Mentions l (closing tok)) ∧
    ¬ Mentions c (opening tok) ∧ Mentions c (closing tok)

/-- The text of a file made of pieces. -/
def fileText (ps : List Piece) : Str := unlines (ps.flatMap Piece.lines)

/-- The leading blanks of a line. -/
def leading (l : Str) : Str := l.takeWhile (fun c => c = ' ' || c = '\t')

/-- Code indented by a prefix: empty lines stay empty, other lines lose their trailing white space and
get the prefix. -/
def indented (pre code : Str) : List Str :=
  (lines code).map (fun l => if l = [] then [] else pre ++ rstrip l)

/-- The file in which the body of every region is the code indented like its opening marker. -/
def filled (code : Str) : List Piece → List Piece
  | [] => []
  | .outside l :: ps => .outside l :: filled code ps
  | .region o _ c :: ps => .region o (indented (leading o) code) c :: filled code ps

/-- The file in which the body of every region is the code as it is. -/
def filledRaw (code : Str) : List Piece → List Piece
  | [] => []
  | .outside l :: ps => .outside l :: filledRaw code ps
  | .region o _ c :: ps => .region o (lines code) c :: filledRaw code ps

/-- The number of regions. -/
def regions : List Piece → Nat
  | [] => 0
  | .outside _ :: ps => regions ps
  | .region _ _ _ :: ps => regions ps + 1

end Verif.Markers.Spec
