import Verif.Py.Str

/-! Model of the blank-line helpers of `/repo/src/codemanip/code_utils.py`. -/

namespace Verif.Lines
open Verif.Py

/-- `/repo/src/codemanip/code_utils.py:43-48`, one iteration of the loop of `run_length_encode`.
`out` is `out_list` kept in reverse order, so that `out_list[-1]` is its head. -/
def rleStep {α : Type} [DecidableEq α] (out : List (α × Nat)) (item : α) : List (α × Nat) :=
  match out with
  | [] => [(item, 1)]
  | (x, n) :: rest => if item = x then (item, n + 1) :: rest else (item, 1) :: (x, n) :: rest

/-- `/repo/src/codemanip/code_utils.py:37-50` `run_length_encode`. (`out_list` is never empty in the
loop of the Python code; the `[]` branch of `rleStep` plays the role of its initialisation, line 41.) -/
def runLengthEncode {α : Type} [DecidableEq α] (l : List α) : List (α × Nat) :=
  (l.foldl rleStep []).reverse

/-- `/repo/src/codemanip/code_utils.py:84-88`, body of the loop over the run-length encoding. -/
def emitRun (nbMax : Nat) (run : Str × Nat) : List Str :=
  let nb := if isBlank run.1 && decide (run.2 ≥ nbMax) then nbMax else run.2
  List.replicate nb run.1

/-- `/repo/src/codemanip/code_utils.py:76-89` `code_set_max_consecutive_empty_lines`. -/
def codeSetMaxConsecutiveEmptyLines (code : Str) (nbMax : Int) : Str :=
  if nbMax < 0 then code
  else unlines ((runLengthEncode (lines code)).flatMap (emitRun nbMax.toNat))

/-- `/repo/src/codemanip/code_utils.py:67-73` `strip_empty_lines_in_list`. -/
def stripEmptyLinesInList (ls : List Str) : List Str :=
  let ls := ls.dropWhile isBlank
  let ls := ls.reverse
  let ls := ls.dropWhile isBlank
  ls.reverse

/-- `/repo/src/codemanip/code_utils.py:92-95` `strip_empty_lines`. -/
def stripEmptyLines (code : Str) : Str := unlines (stripEmptyLinesInList (lines code))

/-- `/repo/src/codemanip/code_utils.py:104-108`, end of `strip_first_and_last_lines_if_empty`. -/
def dropLastIfBlank (code : Str) (ls : List Str) : Str :=
  match ls.getLast? with
  | none => code
  | some last => unlines (if isBlank last then ls.dropLast else ls)

/-- `/repo/src/codemanip/code_utils.py:98-108` `strip_first_and_last_lines_if_empty`.
`str.split` never returns an empty list, so the test at line 100 is the `[]` case. -/
def stripFirstAndLastLinesIfEmpty (code : Str) : Str :=
  match lines code with
  | [] => code
  | l :: ls => dropLastIfBlank code (if isBlank l then ls else l :: ls)

end Verif.Lines
