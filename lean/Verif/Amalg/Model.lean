import Verif.Py.Str

/-! Model of `/repo/src/codemanip/amalgamated_header.py`. POSIX paths. The file system is a function
from paths to contents (as decoded by `open(..., errors="ignore")`, newlines translated). The
recursion of `_amalgamate_one_file` is bounded by a fuel that counts nested expansions; running out
of fuel is a separate outcome, so that it cannot be confused with a result. -/

namespace Verif.Amalg
open Verif.Py

/-- `/repo/src/codemanip/amalgamated_header.py:8-34` `AmalgamationOptions`
(`dst_amalgamated_header_file` is represented by the file content given to `writeHeader`). -/
structure Options where
  baseDir : Str
  localIncludesStartwith : Str
  includeSubdirs : List Str
  mainHeaderFile : Str
  onlyQuotedIncludesAreLocal : Bool

abbrev FS := Str → Option Str

/-- `os.path.isfile` -/
def isFile (fs : FS) (p : Str) : Bool := (fs p).isSome

/-- `f.readlines()`: the lines with their terminators. -/
def readlines : Str → List Str
  | [] => []
  | c :: cs =>
    if c = '\n' then [c] :: readlines cs
    else match readlines cs with
      | [] => [[c]]
      | l :: ls => (c :: l) :: ls

/-- `os.path.isabs` (POSIX) -/
def isAbs (p : Str) : Bool := startsWith p ['/']

/-- `os.path.join(a, b)` (POSIX) -/
def joinPath (a b : Str) : Str :=
  if isAbs b then b else if a = [] ∨ endsWith a ['/'] then a ++ b else a ++ ['/'] ++ b

/-- `/repo/src/codemanip/amalgamated_header.py:99-112` `_is_local_include_line`. -/
def isLocalIncludeLine (o : Options) (codeLine : Str) : Bool :=
  let l := strip codeLine
  startsWith l ("#include \"".toList ++ o.localIncludesStartwith) ||
  (!o.onlyQuotedIncludesAreLocal && startsWith l ("#include <".toList ++ o.localIncludesStartwith))

/-- `/repo/src/codemanip/amalgamated_header.py:115-122` `_is_external_include_line`. -/
def isExternalIncludeLine (o : Options) (codeLine : Str) : Bool :=
  let l := strip codeLine
  startsWith l "#include ".toList && !isLocalIncludeLine o l

/-- `/repo/src/codemanip/amalgamated_header.py:125-136` `_extract_local_include_file`. -/
def extractLocalIncludeFile (codeLine : Str) : Str :=
  replace (replace (replace (replace (strip codeLine) "#include \"".toList []) "#include <".toList [])
    ['"'] []) ['>'] []

/-- `/repo/src/codemanip/amalgamated_header.py:139-145` `_extract_external_include_file`. -/
def extractExternalIncludeFile (codeLine : Str) : Str :=
  (replace (strip codeLine) "#include ".toList []).takeWhile (· ≠ '#')

/-- `/repo/src/codemanip/amalgamated_header.py:149` -/
def separatorLine : Str := List.replicate 114 '/'

/-- `/repo/src/codemanip/amalgamated_header.py:148-156` `_decorate_code_info`. -/
def decorateCodeInfo (info : Str) : Str :=
  let start := "//                       ".toList ++ info
  let middleLine := start ++ spaces (separatorLine.length - 2 - start.length) ++ ['/', '/']
  ['\n'] ++ separatorLine ++ ['\n'] ++ middleLine ++ ['\n'] ++ separatorLine ++ ['\n']

/-- `/repo/src/codemanip/amalgamated_header.py:171-188`: the search for the file; `none` is the
`FileNotFoundError`. -/
def resolve (o : Options) (fs : FS) (name : Str) : Option Str :=
  let full :=
    if isAbs name then name
    else
      let dirs := o.baseDir :: o.includeSubdirs.map (fun d => if isAbs d then d else joinPath o.baseDir d)
      ((dirs.map (fun d => joinPath d name)).find? (isFile fs)).getD name
  if isFile fs full then some full else none

/-- `s.replace(old, "")`, where `old` may be empty (and then nothing happens). -/
def removeAll (s old : Str) : Str := if old = [] then s else replace s old []

/-- `/repo/src/codemanip/amalgamated_header.py:195` -/
def relativeName (o : Options) (name : Str) : Str :=
  removeAll (removeAll name (o.baseDir ++ ['/'])) o.baseDir

/-- The two lists `already_included_local_files`, `already_included_external_files`. -/
structure St where
  locals : List Str
  externals : List Str

/-- Outcome of a call: out of fuel (model only), `FileNotFoundError(name)`, or a text and the lists. -/
inductive Res where
  | fuel
  | missing (name : Str)
  | ok (text : Str) (st : St)

/-- `/repo/src/codemanip/amalgamated_header.py:206-210` -/
def continues (o : Options) (interrupted : Bool) (line : Str) : Bool :=
  interrupted && decide ((strip line).length > 0) && !isLocalIncludeLine o line

/-- `/repo/src/codemanip/amalgamated_header.py:211` -/
def accAfter (o : Options) (rel : Str) (interrupted : Bool) (line acc : Str) : Str :=
  if continues o interrupted line then
    acc ++ decorateCodeInfo (rel ++ " continued".toList) ++ ['\n']
  else acc

/-- `/repo/src/codemanip/amalgamated_header.py:212` -/
def interruptedAfter (o : Options) (interrupted : Bool) (line : Str) : Bool :=
  if continues o interrupted line then false else interrupted

/-- `/repo/src/codemanip/amalgamated_header.py:204-232`, the loop over the lines of a file; `rec` is
the recursive call. -/
def linesLoop (o : Options) (rec : Str → St → Res) (rel : Str) :
    List Str → Bool → Str → St → Res
  | [], _, acc, st => .ok acc st
  | line :: rest, interrupted, acc, st =>
    let acc1 := accAfter o rel interrupted line acc
    let interrupted1 := interruptedAfter o interrupted line
    if isExternalIncludeLine o line then
      if extractExternalIncludeFile line ∉ st.externals then
        linesLoop o rec rel rest interrupted1 (acc1 ++ line)
          { st with externals := st.externals ++ [extractExternalIncludeFile line] }
      else linesLoop o rec rel rest interrupted1 acc1 st
    else if isLocalIncludeLine o line then
      match rec (extractLocalIncludeFile line) st with
      | .ok addition st' =>
        if addition.length > 0 then linesLoop o rec rel rest true (acc1 ++ addition) st'
        else linesLoop o rec rel rest interrupted1 acc1 st'
      | .missing name => .missing name
      | .fuel => .fuel
    else if contains line "#pragma once".toList then linesLoop o rec rel rest interrupted1 acc1 st
    else linesLoop o rec rel rest interrupted1 (acc1 ++ line) st

/-- `/repo/src/codemanip/amalgamated_header.py:234-241` -/
def finish : Res → Res
  | .ok text st => if (lines text).all isBlank then .ok [] st else .ok text st
  | r => r

/-- `/repo/src/codemanip/amalgamated_header.py:197-200` -/
def header (rel includingFilename : Str) : Str :=
  if includingFilename.length > 0 then
    decorateCodeInfo (rel ++ " included by ".toList ++ includingFilename)
  else decorateCodeInfo rel

/-- `/repo/src/codemanip/amalgamated_header.py:159-241` `_amalgamate_one_file`. -/
def amalgamateOneFile (o : Options) (fs : FS) : Nat → Str → Str → St → Res
  | n, included, including, st =>
    match resolve o fs included with
    | none => .missing included
    | some full =>
      if full ∈ st.locals then .ok [] st
      else match n with
        | 0 => .fuel
        | n + 1 =>
          match fs full with
          | none => .missing included  -- not reachable: `resolve` has just tested `isfile`
          | some content =>
            finish (linesLoop o
              (fun newFile st => amalgamateOneFile o fs n newFile (relativeName o included) st)
              (relativeName o included) (readlines content) false
              (header (relativeName o included) including)
              { st with locals := st.locals ++ [full] })

/-- `/repo/src/codemanip/amalgamated_header.py:37` -/
def autogeneratedHeader : Str := "// THIS FILE WAS GENERATED AUTOMATICALLY. DO NOT EDIT.\n".toList

/-- `/repo/src/codemanip/amalgamated_header.py:256-260` `_trim_trailing_spaces`. -/
def trimTrailingSpaces (content : Str) : Str := unlines ((lines content).map rstrip)

/-- Outcome of `amalgamation_content`. -/
inductive Content where
  | fuel
  | valueError
  | fileNotFound (name : Str)
  | ok (text : Str)

/-- `/repo/src/codemanip/amalgamated_header.py:40-50` `amalgamation_content`. -/
def amalgamationContent (o : Options) (fs : FS) (n : Nat) : Content :=
  if o.localIncludesStartwith.length = 0 ∧ o.onlyQuotedIncludesAreLocal = false then .valueError
  else match amalgamateOneFile o fs n o.mainHeaderFile [] ⟨[], []⟩ with
    | .fuel => .fuel
    | .missing name => .fileNotFound name
    | .ok text _ => .ok (trimTrailingSpaces (autogeneratedHeader ++ text))

/-- `/repo/src/codemanip/amalgamated_header.py:80-96` `_fwrite_content`: the file afterwards, and
whether it was written. -/
def fwriteContent (old : Option Str) (content : Str) : Str × Bool :=
  if old = some content then (content, false) else (content, true)

/-- `/repo/src/codemanip/amalgamated_header.py:53-55` `write_amalgamate_header_file`: the destination
file afterwards and whether it was written (an exception leaves it as it was). -/
def writeAmalgamateHeaderFile (o : Options) (fs : FS) (n : Nat) (old : Option Str) : Option Str × Bool :=
  match amalgamationContent o fs n with
  | .ok text => let r := fwriteContent old text; (some r.1, r.2)
  | _ => (old, false)

end Verif.Amalg
