import Verif.Attach.Model

/-! Model of what is shown of the C++ code: `srcml_to_code_wrapper` (`/repo/src/srcmlcpp/srcmlcpp_main.py`), `CodeContextWithCaret`
(`/repo/src/codemanip/code_position.py`), `str_code_context_with_caret` (`/repo/src/srcmlcpp/srcml_wrapper.py`) and the cache of the codes
(`/repo/src/srcmlcpp/internal/code_cache.py`).

Simplification: the program srcML is given; the code that it makes from a tree is the text from which it made the tree. -/

namespace Verif.Where
open Verif.Py

/-- The characters at which `str.splitlines` cuts. -/
def isBreak (c : Char) : Bool :=
  let n := c.toNat
  (10 ≤ n && n ≤ 13) || (28 ≤ n && n ≤ 30) || n == 133 || n == 8232 || n == 8233

/-- `s.splitlines()` -/
def splitlines : Str → List Str
  | [] => []
  | '\r' :: '\n' :: cs => [] :: splitlines cs
  | c :: cs =>
    if isBreak c then [] :: splitlines cs
    else match splitlines cs with
      | [] => [[c]]
      | l :: ls => (c :: l) :: ls

/-- `/repo/src/srcmlcpp/srcmlcpp_main.py:79-96` `srcml_to_code_wrapper`; `code` is what srcML makes from the tree. -/
def verbatim (preserve : Bool) (code : Str) : Str :=
  if preserve then unlines ((splitlines code).map (fun line => if strip line = Attach.emptyLineComment then [] else line))
  else code

/-- `/repo/src/srcmlcpp/srcmlcpp_main.py:70-71` `code_to_srcml_wrapper`: the text given to srcML. -/
def given (preserve : Bool) (code : Str) : Str := if preserve then Attach.markEmptyLines code else code

/-- `/repo/src/codemanip/code_position.py:42-52` `CodeContextWithCaret.__str__`, from line `i`; `line` and `column` are those of `start`. -/
def caretFrom (line column : Int) : Nat → List Str → Str
  | _, [] => []
  | i, l :: ls =>
    let caret : Str := if (i : Int) = line then List.replicate (column - 1).toNat ' ' ++ ['^', '\n'] else []
    l ++ ['\n'] ++ caret ++ caretFrom line column (i + 1) ls

/-- A position: line and column, from 1; -1 when srcML gives none. -/
structure Position where
  line : Int
  column : Int
deriving DecidableEq

/-- The slice `l[a:b]` for `a, b ≥ 0`. -/
def slice (l : List Str) (a b : Int) : List Str := (l.drop a.toNat).take (b.toNat - a.toNat)

/-- `/repo/src/srcmlcpp/srcml_wrapper.py:271-297` `str_code_context_with_caret`; `cached` is the code of the file in the cache, `own` the result of
`str_code_verbatim`. -/
def context (cached own : Str) (start stop : Position) (maxLines : Nat) : Str :=
  if cached.length > 0 then
    let full := [] :: lines cached
    if start.line ≥ 0 ∧ stop.line ≥ 0 then
      let last := if stop.line > start.line + maxLines then start.line + maxLines else stop.line
      caretFrom 0 start.column 0 (slice full start.line (last + 1))
    else own
  else own

/-- `/repo/src/srcmlcpp/internal/code_cache.py:6` `_CODE_CACHE`, by the name of the file; `None` is the name of a code without file. -/
abbrev Codes := List (Option Str × Str)

/-- `/repo/src/srcmlcpp/internal/code_cache.py:16-18` `store_cached_code` -/
def storeCode (c : Codes) (filename : Option Str) (code : Str) : Codes := (filename, code) :: c.filter (fun x => x.1 ≠ filename)

/-- `/repo/src/srcmlcpp/internal/code_cache.py:9-13` `get_cached_code`; `none` is the exception. -/
def cachedCode (c : Codes) (filename : Option Str) : Option Str := (c.find? (fun x => x.1 = filename)).map Prod.snd

end Verif.Where
