import Verif.Py.Str
import Verif.Markers.Model

/-! Model of `/repo/src/litgen/litgen_generator.py`: the generation for several headers, and the files it writes. -/

namespace Verif.Gen
open Verif.Py

/-- `pathlib.Path(filename).parts`, for POSIX paths. -/
def pathParts (filename : Str) : List Str :=
  let names := (splitOn '/' filename).filter (fun p => p ≠ [] ∧ p ≠ ".".toList)
  if startsWith filename "///".toList then "/".toList :: names
  else if startsWith filename "//".toList then "//".toList :: names
  else if startsWith filename "/".toList then "/".toList :: names
  else names

/-- `/repo/src/codemanip/code_utils.py:900-908` `filename_with_n_parent_folders` (truncated subtraction plays the role of lines
905-906) -/
def filenameWithNParents (filename : Str) (n : Int) : Str :=
  if n < 0 then filename
  else
    let parts := pathParts filename
    join "/".toList (parts.drop (parts.length - 1 - n.toNat))

/-- `/repo/src/litgen/internal/cpp_to_python.py:909-913` `decorate_impl` -/
def decorate (token : Str) (short : Str) (isEnd : Bool) : Str :=
  let endMarker := if isEnd then "/".toList else []
  let decoration := (List.replicate 20 token).flatten
  decoration ++ "    <".toList ++ endMarker ++ "generated_from:".toList ++ short ++ ">    ".toList ++ decoration ++ "\n".toList

/-- `/repo/src/litgen/internal/cpp_to_python.py:901-918` `_surround_code_with_filename_impl` -/
def surround (nbParents : Int) (filename code token : Str) : Str :=
  if filename.length = 0 then code
  else
    let short := filenameWithNParents filename nbParents
    decorate token short false ++ code ++ decorate token short true

/-- `/repo/src/codemanip/code_utils.py:547-555` `shorten_lines_containing_only_spaces` -/
def shortenBlankLines (code : Str) : Str := unlines ((lines code).map (fun l => if (strip l).length > 0 then l else []))

/-- `/repo/src/litgen/litgen_generator.py:70-74` `_GeneratedCode` -/
structure GeneratedCode where
  source : Str
  pydef : Str
  stub : Str

/-- What the generator uses and that is not modelled here: `C` is the context (`LitgenContext` with its options), `process` is the
parsing and the adaptation of a header (`/repo/src/litgen/litgen_generator.py:187-196`: code, file name, result stub and binding code,
new context), `boxed` tells the stub and the binding code of the boxed types, if some were met (198-215), `boxedCpp`, `virtualGlue` and
`protectedGlue` are the glue codes (139-145); `black` is what the formatter makes of a file (21-61), which it leaves as it is when it
fails. -/
structure Env (C : Type) where
  process : C → Str → Str → (Str × Str) × C
  boxed : C → Option (Str × Str)
  boxedCpp : C → Str
  virtualGlue : C → Str
  protectedGlue : C → Str
  black : Str → Str
  runBlack : Bool
  nbParents : Int
  postprocessPydef : Option (Str → Str)
  postprocessStub : Option (Str → Str)
  omitBoxed : Bool

/-- `/repo/src/litgen/litgen_generator.py:77-84` -/
structure Generator (C : Type) where
  ctx : C
  codes : List GeneratedCode

variable {C : Type}

/-- `/repo/src/litgen/litgen_generator.py:187-196` `process_cpp_code` -/
def processCode (e : Env C) (g : Generator C) (code filename : Str) : Generator C :=
  let r := e.process g.ctx code filename
  ⟨r.2, g.codes ++ [⟨filename, r.1.2, r.1.1⟩]⟩

/-- `/repo/src/litgen/litgen_generator.py:198-223` `_boxed_types_generated_code` and `_generated_codes_with_boxed_types` -/
def codesWithBoxed (e : Env C) (g : Generator C) : List GeneratedCode :=
  if e.omitBoxed then g.codes
  else
    match e.boxed g.ctx with
    | none => g.codes
    | some (stub, pydef) => ⟨"BoxedTypes".toList, pydef, stub⟩ :: g.codes

/-- `/repo/src/litgen/litgen_generator.py:157-161, 173-177` -/
def postprocess (f : Option (Str → Str)) (code : Str) : Str :=
  match f with
  | none => code
  | some f => f code

/-- `/repo/src/litgen/litgen_generator.py:147-161` `pydef_code` -/
def pydefCode (e : Env C) (g : Generator C) : Str :=
  let codes := (codesWithBoxed e g).map (fun c => surround e.nbParents c.source c.pydef "/".toList)
  postprocess e.postprocessPydef (shortenBlankLines (join "\n\n".toList codes))

/-- `/repo/src/litgen/litgen_generator.py:163-177` `stub_code` -/
def stubCode (e : Env C) (g : Generator C) : Str :=
  let codes := (codesWithBoxed e g).map (fun c => surround e.nbParents c.source c.stub "#".toList)
  postprocess e.postprocessStub (shortenBlankLines (join "\n\n".toList codes))

/-- `/repo/src/litgen/litgen_generator.py:139-145` `glue_code` -/
def glueCode (e : Env C) (g : Generator C) : Str :=
  (if !e.omitBoxed then e.boxedCpp g.ctx else []) ++ e.virtualGlue g.ctx ++ e.protectedGlue g.ctx

/-- The files: their contents, `none` for a missing file. -/
abbrev Fs := Str → Option Str

def Fs.set (fs : Fs) (path : Str) (content : Option Str) : Fs := fun p => if p = path then content else fs p

/-- The exceptions: those of the writer, and the assertion of `_read_code`. -/
inductive Err where
  | write (e : Markers.Err)
  | noHeader
deriving DecidableEq

/-- `code_utils.write_generated_code_between_markers(path, token, code)` -/
def writeRegion (fs : Fs) (path tok code : Str) : Fs × Option Markers.Err :=
  let r := Markers.writeGeneratedCodeBetweenMarkers (fs path) tok code
  (fs.set path r.file, r.error)

/-- `/repo/src/litgen/litgen_generator.py:103-107` -/
def formatStub (e : Env C) (fs : Fs) (path : Str) : Fs :=
  if e.runBlack then fs.set path ((fs path).map e.black) else fs

/-- `/repo/src/litgen/litgen_generator.py:113-123` -/
def writeGlue (fs : Fs) (pydefFile glueFile code : Str) : Fs × Option Err :=
  let path := if glueFile.length = 0 then pydefFile else glueFile
  let r := writeRegion fs path "litgen_glue_code".toList code
  match r.2 with
  | none => (r.1, none)
  | some e => if path ≠ pydefFile then (r.1, none) else (r.1, some (.write e))

/-- `/repo/src/litgen/litgen_generator.py:91-123` `write_generated_code` -/
def writeGenerated (e : Env C) (g : Generator C) (fs : Fs) (pydefFile stubFile glueFile : Str) : Fs × Option Err :=
  let r := writeRegion fs pydefFile "litgen_pydef".toList (pydefCode e g)
  match r.2 with
  | some err => (r.1, some (.write err))
  | none =>
    let s := writeRegion r.1 stubFile "litgen_stub".toList (stubCode e g)
    match s.2 with
    | some err => (s.1, some (.write err))
    | none => writeGlue (formatStub e s.1 stubFile) pydefFile glueFile (glueCode e g)

/-- `/repo/src/litgen/litgen_generator.py:87-89, 290-294` `process_cpp_file` with `_read_code` -/
def processFile (e : Env C) (g : Generator C) (fs : Fs) (header : Str) : Option (Generator C) :=
  (fs header).map (fun code => processCode e g code header)

/-- The loop of `/repo/src/litgen/litgen_generator.py:234-236` -/
def runFiles (e : Env C) : Generator C → Fs → List Str → Str → Str → Str → (Generator C × Fs) × Option Err
  | g, fs, [], _, _, _ => ((g, fs), none)
  | g, fs, h :: hs, pydefFile, stubFile, glueFile =>
    match processFile e g fs h with
    | none => ((g, fs), some .noHeader)
    | some g =>
      let r := writeGenerated e g fs pydefFile stubFile glueFile
      match r.2 with
      | some err => ((g, r.1), some err)
      | none => runFiles e g r.1 hs pydefFile stubFile glueFile

/-- `/repo/src/litgen/litgen_generator.py:226-240` `write_generated_code_for_files` (the timing statistics at the end are left out) -/
def writeForFiles (e : Env C) (c : C) (fs : Fs) (headers : List Str) (pydefFile stubFile glueFile : Str) : Fs × Option Err :=
  let r := runFiles e ⟨c, []⟩ fs headers pydefFile stubFile glueFile
  (r.1.2, r.2)

end Verif.Gen
