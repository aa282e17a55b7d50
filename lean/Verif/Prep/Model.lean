import Verif.Py.Str

/-! Model of `/repo/src/srcmlcpp/internal/filter_preprocessor_regions.py`. -/

namespace Verif.Prep
open Verif.Py

/-- An XML element as seen by the search for a macro name: cleaned tag, text, children. -/
inductive Xml where
  | node (tag : Str) (text : Option Str) (children : List Xml)

mutual
/-- `/repo/src/srcmlcpp/internal/filter_preprocessor_regions.py:63-76`, one child of the loop;
`none`: the loop goes on with the next child. -/
def visitChild : Xml → Option Str
  | .node tag text children =>
    if tag = "name".toList ∧ text ≠ none ∧ text ≠ some "defined".toList then text
    else if tag = "argument".toList ∧ (match text with | some t => decide (strip t ≠ []) | none => false) = true then
      text.map strip
    else
      let found := visitList children
      if found ≠ [] then some found else none
/-- `/repo/src/srcmlcpp/internal/filter_preprocessor_regions.py:62-76` `visit`. -/
def visitList : List Xml → Str
  | [] => []
  | child :: rest =>
    match visitChild child with
    | some s => s
    | none => visitList rest
end

/-- `/repo/src/srcmlcpp/internal/filter_preprocessor_regions.py:47-78`
`_extract_macro_name_from_if_expr`. -/
def extractMacroNameFromIfExpr (children : List Xml) : Str := visitList children

/-- The tags that matter. -/
inductive Tag where
  | if_ | ifdef | ifndef | else_ | elif | endif | comment
  | other (name : Str)
deriving DecidableEq

/-- A child of the unit: cleaned tag, children, line of its start and end positions (if srcML gives
them), and an identity. -/
structure Elem where
  id : Nat
  tag : Tag
  children : List Xml
  startLine : Option Int
  endLine : Option Int

/-- `/repo/src/srcmlcpp/internal/filter_preprocessor_regions.py:157-161`, the loop; `none` is the
`AssertionError`. -/
def firstNameText : List Xml → Option Str
  | [] => some []
  | .node tag text _ :: rest => if tag = "name".toList then text else firstNameText rest

/-- `/repo/src/srcmlcpp/internal/filter_preprocessor_regions.py:152-161` `_macro_name`. -/
def macroName (e : Elem) : Option Str :=
  if e.tag = .if_ then some (extractMacroNameFromIfExpr e.children) else firstNameText e.children

/-- `/repo/src/srcmlcpp/internal/filter_preprocessor_regions.py:95-106` `_CppConditionRegion`. -/
structure Region where
  regionExcluded : Bool
  inSecondaryBranch : Bool

/-- `/repo/src/srcmlcpp/internal/filter_preprocessor_regions.py:109-131` `_SrcmlPreprocessorState`.
`encountered_if` is stored innermost first. The last element is an argument of `shallIgnore`. -/
structure State where
  ignoredEndif : Bool
  lastLine : Int
  stack : List Region

def State.init : State := ⟨false, -1, []⟩

/-- `/repo/src/srcmlcpp/internal/filter_preprocessor_regions.py:199-202`, `_content_is_excluded`, on a
list of regions. -/
def contentExcluded (rs : List Region) : Bool := rs.any (fun r => r.regionExcluded || r.inSecondaryBranch)

/-- `/repo/src/srcmlcpp/internal/filter_preprocessor_regions.py:204-214` `_directive_is_excluded`. -/
def directiveExcluded : List Region → Bool
  | [] => false
  | innermost :: outer => if innermost.regionExcluded then true else contentExcluded outer

/-- `/repo/src/srcmlcpp/internal/filter_preprocessor_regions.py:183-184` -/
def markSecondary : List Region → List Region
  | [] => []
  | r :: rs => { r with inSecondaryBranch := true } :: rs

/-- `/repo/src/srcmlcpp/internal/filter_preprocessor_regions.py:166-197` `process_tag` (the debug trace
is left out). `acceptable` is the test of the macro name against `header_acceptable__regex`. -/
def processTag (acceptable : Str → Bool) (st : State) (e : Elem) : Option State :=
  match e.endLine with
  | none => some st
  | some line =>
    match e.tag with
    | .if_ | .ifdef | .ifndef =>
      (macroName e).map (fun name =>
        ⟨false, line, ⟨!acceptable name, false⟩ :: st.stack⟩)
    | .else_ | .elif => some ⟨false, line, markSecondary st.stack⟩
    | .endif => some ⟨directiveExcluded st.stack, line, st.stack.tail⟩
    | _ => some { st with ignoredEndif := false }

/-- `/repo/src/srcmlcpp/internal/filter_preprocessor_regions.py:216-234` `shall_ignore`. -/
def shallIgnore (st : State) (e : Elem) : Bool :=
  match e.tag with
  | .comment => if e.startLine = some st.lastLine then true else contentExcluded st.stack
  | .endif => st.ignoredEndif
  | .if_ | .ifdef | .ifndef | .else_ | .elif => directiveExcluded st.stack
  | .other _ => contentExcluded st.stack

/-- `/repo/src/srcmlcpp/internal/filter_preprocessor_regions.py:242-248`, the loop. -/
def filterLoop (acceptable : Str → Bool) : State → List Elem → Option (List Elem)
  | _, [] => some []
  | st, e :: es =>
    match processTag acceptable st e with
    | none => none
    | some st' =>
      (filterLoop acceptable st' es).map (fun kept => if shallIgnore st' e then kept else e :: kept)

/-- `/repo/src/srcmlcpp/internal/filter_preprocessor_regions.py:237-250`
`filter_preprocessor_regions` (the children of the unit; the text that follows a removed element, its
XML tail, goes with it). -/
def filterPreprocessorRegions (acceptable : Str → Bool) (children : List Elem) : Option (List Elem) :=
  filterLoop acceptable .init children

end Verif.Prep
