import Verif.Markers.Model

/-! Model of `pimpl_my_file` (`/repo/src/srcmlcpp_tools/pimpl_my_class/pimpl_my_class.py:303-344`): the
name of the header, the two files that are read and written, the exceptions.

Simplifications: a file system is a function from names to contents, a name is one file (no links, no
two names for the same file); the files are read without the translation of line ends; what
`pimpl_my_code` (288-300) makes of the code is a parameter (see the part `Pimpl` for it), which may also
raise; the text of the messages is left out. -/

namespace Verif.PimplFile
open Verif.Py

/-- The regular files: name to content. -/
abbrev Files := Str → Option Str

/-- The glue code and the header code,
`/repo/src/srcmlcpp_tools/pimpl_my_class/pimpl_my_class.py:28-31`. -/
structure Result where
  glue : Str
  header : Str
deriving DecidableEq

/-- What `pimpl_my_code` does with the code of the file: it raises, finds no class, or gives the codes. -/
inductive Found where
  | raises
  | noClass
  | codes (r : Result)
deriving DecidableEq

/-- How the call ends. -/
inductive End where
  | done
  | nothingFound
  | noHeaderName
  | headerMissing
  | cppMissing
  | pimplRaised
  | glueRaised (e : Markers.Err)
  | headerRaised (e : Markers.Err)
deriving DecidableEq

/-- `/repo/src/srcmlcpp_tools/pimpl_my_class/pimpl_my_class.py:313` `possible_cpp_extensions` -/
def extensions : List Str :=
  [['.', 'c', 'p', 'p'], ['.', 'c', 'c'], ['.', 'c', 'x', 'x'], ['.', 'c', '+', '+'], ['.', 'c'], ['.', 'C']]

/-- `/repo/src/srcmlcpp_tools/pimpl_my_class/pimpl_my_class.py:314-317`, the loop on the extensions. -/
def searchHeader (cpp : Str) : List Str → Option Str
  | [] => none
  | ext :: rest =>
    if endsWith cpp ext then some (cpp.take (cpp.length - ext.length) ++ ['.', 'h']) else searchHeader cpp rest

/-- `/repo/src/srcmlcpp_tools/pimpl_my_class/pimpl_my_class.py:312-319` -/
def headerName (cpp : Str) (header : Option Str) : Option Str :=
  match header with
  | some h => some h
  | none => searchHeader cpp extensions

/-- A file system where one file has a new content. -/
def put (fs : Files) (name : Str) (content : Option Str) : Files :=
  fun n => if n = name then content else fs n

/-- `"pimpl_glue_code"`, `/repo/src/srcmlcpp_tools/pimpl_my_class/pimpl_my_class.py:337` -/
def glueToken : Str := ['p', 'i', 'm', 'p', 'l', '_', 'g', 'l', 'u', 'e', '_', 'c', 'o', 'd', 'e']
/-- `"pimpl_header_code"`, `/repo/src/srcmlcpp_tools/pimpl_my_class/pimpl_my_class.py:342` -/
def headerToken : Str :=
  ['p', 'i', 'm', 'p', 'l', '_', 'h', 'e', 'a', 'd', 'e', 'r', '_', 'c', 'o', 'd', 'e']

/-- `/repo/src/srcmlcpp_tools/pimpl_my_class/pimpl_my_class.py:335-344`, the two calls of
`write_generated_code_between_markers`. -/
def writeBoth (fs : Files) (cpp header : Str) (r : Result) : Files × End :=
  let o := Markers.writeGeneratedCodeBetweenMarkers (fs cpp) glueToken r.glue
  match o.error with
  | some e => (fs, .glueRaised e)
  | none =>
    let fs := put fs cpp o.file
    let o := Markers.writeGeneratedCodeBetweenMarkers (fs header) headerToken r.header
    match o.error with
    | some e => (fs, .headerRaised e)
    | none => (put fs header o.file, .done)

/-- `/repo/src/srcmlcpp_tools/pimpl_my_class/pimpl_my_class.py:303-344` `pimpl_my_file`: the files after
the call, and how it ends. -/
def pimplMyFile (pimpl : Str → Found) (fs : Files) (cpp : Str) (header : Option Str) : Files × End :=
  match headerName cpp header with
  | none => (fs, .noHeaderName)
  | some h =>
    match fs h with
    | none => (fs, .headerMissing)
    | some _ =>
      match fs cpp with
      | none => (fs, .cppMissing)
      | some code =>
        match pimpl code with
        | .raises => (fs, .pimplRaised)
        | .noClass => (fs, .nothingFound)
        | .codes r => writeBoth fs cpp h r

end Verif.PimplFile
