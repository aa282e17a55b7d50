import Verif.Gen.Model
import Verif.Markers.Spec

/-! Files with several kinds of generated regions. -/

namespace Verif.Gen.Spec
open Verif.Py Markers.Spec

/-- A piece of a file: a line outside the regions, or a region of some token. -/
inductive Piece where
  | outside (line : Str)
  | region (tok openLine : Str) (body : List Str) (closeLine : Str)

def Piece.lines : Piece → List Str
  | .outside l => [l]
  | .region _ o b c => o :: b ++ [c]

def text (ps : List Piece) : Str := unlines (ps.flatMap Piece.lines)

/-- The three tokens of litgen. -/
def tokens : List Str := ["litgen_pydef".toList, "litgen_stub".toList, "litgen_glue_code".toList]

/-- No marker of litgen in a line (or in a code). -/
def NoMarker (l : Str) : Prop := ∀ t ∈ tokens, ¬ Mentions l (opening t) ∧ ¬ Mentions l (closing t)

/-- The only marker of litgen in this line is this one. -/
def Only (l marker : Str) : Prop := Mentions l marker ∧
  ∀ t ∈ tokens, (opening t ≠ marker → ¬ Mentions l (opening t)) ∧ (closing t ≠ marker → ¬ Mentions l (closing t))

def Piece.WF : Piece → Prop
  | .outside l => NoMarker l
  | .region t o b c => t ∈ tokens ∧ Only o (opening t) ∧ (∀ l ∈ b, NoMarker l) ∧ Only c (closing t)

/-- A well-formed file: regions that are closed, of known tokens, with at least one region of each of these tokens. -/
def WellFormed (needed : List Str) (ps : List Piece) : Prop :=
  (∀ p ∈ ps, p.WF) ∧ (∀ l ∈ ps.flatMap Piece.lines, '\n' ∉ l) ∧ ∀ t ∈ needed, ∃ o b c, Piece.region t o b c ∈ ps

/-- Two files that differ only in the bodies of the regions of some tokens. -/
inductive SameBut (toks : List Str) : List Piece → List Piece → Prop where
  | nil : SameBut toks [] []
  | outside (l : Str) (ps qs) : SameBut toks ps qs → SameBut toks (.outside l :: ps) (.outside l :: qs)
  | same (t o : Str) (b : List Str) (c : Str) (ps qs) : SameBut toks ps qs → SameBut toks (.region t o b c :: ps) (.region t o b c :: qs)
  | region (t o : Str) (b b' : List Str) (c : Str) (ps qs) : t ∈ toks → SameBut toks ps qs →
      SameBut toks (.region t o b c :: ps) (.region t o b' c :: qs)

/-- The regions of one token hold the code, indented like their opening marker. -/
inductive Filled (tok code : Str) : List Piece → Prop where
  | nil : Filled tok code []
  | outside (l : Str) (ps) : Filled tok code ps → Filled tok code (.outside l :: ps)
  | other (t o : Str) (b : List Str) (c : Str) (ps) : t ≠ tok → Filled tok code ps → Filled tok code (.region t o b c :: ps)
  | region (o c : Str) (ps) : Filled tok code ps → Filled tok code (.region tok o (indented (leading o) code) c :: ps)

/-- The headers read and processed one after the other. -/
def processAll {C : Type} (e : Env C) (fs : Fs) : Generator C → List Str → Option (Generator C)
  | g, [] => some g
  | g, h :: hs =>
    match fs h with
    | none => none
    | some code => processAll e fs (processCode e g code h) hs

/-- The formatter of stubs changes at most the bodies of the stub regions of this file, and puts no marker in them. -/
def FormatsBodies {C : Type} (e : Env C) (ps : List Piece) : Prop := e.runBlack = true →
  ∀ qs, SameBut ["litgen_stub".toList] ps qs → (∀ p ∈ qs, p.WF) → (∀ l ∈ qs.flatMap Piece.lines, '\n' ∉ l) →
    ∃ rs, e.black (text qs) = text rs ∧ SameBut ["litgen_stub".toList] ps rs ∧ (∀ p ∈ rs, p.WF) ∧ ∀ l ∈ rs.flatMap Piece.lines, '\n' ∉ l

/-- The codes of the generator mention no marker. -/
def CodesClear {C : Type} (e : Env C) (g : Generator C) : Prop :=
  NoMarker (pydefCode e g) ∧ NoMarker (stubCode e g) ∧ NoMarker (glueCode e g)

/-- The file that gets the glue code: the file of the bindings by default. -/
def gluePath (pydefFile glueFile : Str) : Str := if glueFile = [] then pydefFile else glueFile

/-- The output files exist and are well-formed, their pieces are given by `F`; the stub file is neither of the C++ files. -/
structure Outputs {C : Type} (e : Env C) (fs : Fs) (pydefFile stubFile glueFile : Str) (F : Str → List Piece) : Prop where
  pydef : fs pydefFile = some (text (F pydefFile)) ∧ WellFormed ["litgen_pydef".toList] (F pydefFile)
  stub : fs stubFile = some (text (F stubFile)) ∧ WellFormed ["litgen_stub".toList] (F stubFile)
  glue : fs (gluePath pydefFile glueFile) = some (text (F (gluePath pydefFile glueFile))) ∧
    WellFormed ["litgen_glue_code".toList] (F (gluePath pydefFile glueFile))
  stub_ne_pydef : stubFile ≠ pydefFile
  stub_ne_glue : stubFile ≠ gluePath pydefFile glueFile
  formats : FormatsBodies e (F stubFile)

/-- The lines of a code that are not blank. -/
def codeLines (code : Str) : List Str := (lines code).filter (fun l => !isBlank l)

/-- The two lines that surround the code of a file (`deco` is a character of a comment). -/
def introLine (deco : Char) (short : Str) : Str :=
  List.replicate 20 deco ++ "    <generated_from:".toList ++ short ++ ">    ".toList ++ List.replicate 20 deco
def outroLine (deco : Char) (short : Str) : Str :=
  List.replicate 20 deco ++ "    </generated_from:".toList ++ short ++ ">    ".toList ++ List.replicate 20 deco

/-- At most one region of this token. -/
inductive AtMostOne (tok : Str) : List Piece → Prop where
  | nil : AtMostOne tok []
  | outside (l : Str) (ps) : AtMostOne tok ps → AtMostOne tok (.outside l :: ps)
  | other (t o : Str) (b : List Str) (c : Str) (ps) : t ≠ tok → AtMostOne tok ps → AtMostOne tok (.region t o b c :: ps)
  | this (o : Str) (b : List Str) (c : Str) (ps) : (∀ o b c, Piece.region tok o b c ∉ ps) → AtMostOne tok (.region tok o b c :: ps)

end Verif.Gen.Spec
