import Verif.Amalg.Model

/-! Specification of an amalgamation: a tree of expanded files, one slot per source line. -/

namespace Verif.Amalg.Spec
open Verif.Py

mutual
/-- A file that was expanded. -/
inductive Node where
  | mk (path : Str) (slots : Slots)
/-- What became of the lines of a file, in the order of the lines. -/
inductive Slots where
  | done
  /-- the line is in the output -/
  | kept (line : Str) (rest : Slots)
  /-- the line is not in the output -/
  | dropped (line : Str) (rest : Slots)
  /-- the line is an include, replaced by the expansion of a file -/
  | expanded (line : Str) (file : Node) (rest : Slots)
  /-- the line is an include of a file that is expanded elsewhere -/
  | elsewhere (line : Str) (path : Str) (rest : Slots)
end

def Node.path : Node → Str
  | .mk p _ => p

/-- The lines of the file a list of slots stands for. -/
def Slots.lines : Slots → List Str
  | .done => []
  | .kept l r => l :: r.lines
  | .dropped l r => l :: r.lines
  | .expanded l _ r => l :: r.lines
  | .elsewhere l _ r => l :: r.lines

mutual
/-- The expanded files, in the order in which they are opened. -/
def Node.paths : Node → List Str
  | .mk p s => p :: s.paths
def Slots.paths : Slots → List Str
  | .done => []
  | .kept _ r => r.paths
  | .dropped _ r => r.paths
  | .expanded _ n r => n.paths ++ r.paths
  | .elsewhere _ _ r => r.paths
end

mutual
/-- The source lines that are in the output, in the order of the output: the lines of an included
file stand where the include was. -/
def Node.output : Node → List Str
  | .mk _ s => s.output
def Slots.output : Slots → List Str
  | .done => []
  | .kept l r => l :: r.output
  | .dropped _ r => r.output
  | .expanded _ n r => n.output ++ r.output
  | .elsewhere _ _ r => r.output
end

mutual
/-- The files whose expansion is said to be elsewhere. -/
def Node.others : Node → List Str
  | .mk _ s => s.others
def Slots.others : Slots → List Str
  | .done => []
  | .kept _ r => r.others
  | .dropped _ r => r.others
  | .expanded _ n r => n.others ++ r.others
  | .elsewhere _ p r => p :: r.others
end

/-- How the lines of a file are to be treated (given by the options). -/
structure Kind where
  /-- include of a system header: name of the header -/
  external : Str → Option Str
  /-- include of a local file: the file it designates (`none`: not found) -/
  localInclude : Str → Option (Option Str)
  /-- `#pragma once` -/
  pragmaOnce : Str → Bool
  /-- the lines of a file -/
  fileLines : Str → Option (List Str)

mutual
/-- The tree describes the files: each node has the lines of its file, ordinary lines are kept,
includes are expanded or expanded elsewhere, only `#pragma once` and includes of system headers may
be dropped. -/
def Node.Fits (k : Kind) : Node → Prop
  | .mk p s => k.fileLines p = some s.lines ∧ s.Fits k
def Slots.Fits (k : Kind) : Slots → Prop
  | .done => True
  | .kept l r => k.localInclude l = none ∧ (k.external l = none → k.pragmaOnce l = false) ∧ r.Fits k
  | .dropped l r => k.localInclude l = none ∧ (k.external l = none → k.pragmaOnce l = true) ∧ r.Fits k
  | .expanded l n r => k.localInclude l = some (some n.path) ∧ n.Fits k ∧ r.Fits k
  | .elsewhere l p r => k.localInclude l = some (some p) ∧ r.Fits k
end

mutual
/-- The system headers included by the source lines of the tree (kept or not). -/
def Node.externals (k : Kind) : Node → List Str
  | .mk _ s => s.externals k
def Slots.externals (k : Kind) : Slots → List Str
  | .done => []
  | .kept l r => (k.external l).toList ++ r.externals k
  | .dropped l r => (k.external l).toList ++ r.externals k
  | .expanded _ n r => n.externals k ++ r.externals k
  | .elsewhere _ _ r => r.externals k
end

/-- The output text is cut into source lines and banners. -/
inductive Chunk where
  | source (line : Str)
  | banner (text : Str)

def Chunk.text : Chunk → Str
  | .source l => l
  | .banner b => b

def text (cs : List Chunk) : Str := cs.flatMap Chunk.text

/-- The source lines of a list of chunks. -/
def sources : List Chunk → List Str
  | [] => []
  | .source l :: cs => l :: sources cs
  | .banner _ :: cs => sources cs

/-- A banner is made of comment lines and empty lines. -/
def IsBanner (b : Str) : Prop :=
  ∃ ls : List Str, b = '\n' :: ls.flatMap (· ++ ['\n']) ∧ ∀ l ∈ ls, '\n' ∉ l ∧ (l = [] ∨ ['/', '/'] <+: l)

/-- Ordinary lines: neither an include nor `#pragma once`. -/
def Ordinary (k : Kind) (l : Str) : Prop :=
  k.localInclude l = none ∧ k.external l = none ∧ k.pragmaOnce l = false

/-- The files reached from a first file through local includes. -/
inductive Reached (k : Kind) (start : Str) : Str → Prop
  | start : Reached k start start
  | step (p q l : Str) (ls : List Str) (h : Reached k start p) (hf : k.fileLines p = some ls)
      (hl : l ∈ ls) (hi : k.localInclude l = some (some q)) : Reached k start q

/-- Whether the text read so far ends a line (`clean`), after one more chunk. -/
def cleanAfter : Chunk → Bool
  | .source l => l.getLast? == some '\n'
  | .banner _ => true

/-- Non-blank source lines only start at the beginning of a line; banners are banners. -/
def Glued : Bool → List Chunk → Prop
  | _, [] => True
  | clean, .source l :: cs => ((∀ c ∈ l, isSpace c = true) ∨ clean = true) ∧ Glued (cleanAfter (.source l)) cs
  | _, .banner b :: cs => IsBanner b ∧ Glued true cs

end Verif.Amalg.Spec

namespace Verif.Amalg
open Verif.Py

/-- How the options classify the lines (see `C16_local_include_line`, `C16_external_include_line` and
`C17_search` for what this means in terms of the text). -/
def kindOf (o : Options) (fs : FS) : Spec.Kind where
  external l := if isExternalIncludeLine o l then some (extractExternalIncludeFile l) else none
  localInclude l := if isLocalIncludeLine o l then some (resolve o fs (extractLocalIncludeFile l)) else none
  pragmaOnce l := contains l "#pragma once".toList
  fileLines p := (fs p).map readlines

end Verif.Amalg
