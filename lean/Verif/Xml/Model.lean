import Verif.Py.Int
import Verif.Where.Model

/-! Model of the access to the XML elements given by srcML: `/repo/src/srcmlcpp/internal/srcml_utils.py`, `/repo/src/codemanip/code_position.py` and the first
methods of `/repo/src/srcmlcpp/srcml_wrapper.py`.

Simplifications: the attributes of an element (a dict) are a list of pairs; a failed assertion or an exception of `int` is `none`. In the readable tree, a tag or a
position which cannot be read is the empty text. -/

namespace Verif.Xml
open Verif.Py

/-- `xml.etree.ElementTree.Element`, as it is read by `/repo/src/srcmlcpp/internal/srcml_utils.py:17-58`: its tag (with the address of its XML namespace), its
attributes, its text and its children. -/
inductive Elem where
  | mk (tag : Str) (attrib : List (Str × Str)) (text : Option Str) (children : List Elem)

def Elem.tag : Elem → Str
  | .mk t _ _ _ => t

def Elem.attrib : Elem → List (Str × Str)
  | .mk _ a _ _ => a

def Elem.text : Elem → Option Str
  | .mk _ _ x _ => x

def Elem.children : Elem → List Elem
  | .mk _ _ _ c => c

/-- `tag_name[tag_name.index("}") + 1:]` -/
def afterBrace : Str → Option Str
  | [] => none
  | c :: s => if c = '}' then some s else afterBrace s

/-- `/repo/src/srcmlcpp/internal/srcml_utils.py:79-86` `clean_tag_or_attrib` -/
def cleanTag (t : Str) : Option Str :=
  let t := if startsWith t ['{'] then afterBrace t else some t
  t.map (fun t => replace (replace t "ns0:".toList []) "ns1:".toList [])

/-- `/repo/src/srcmlcpp/srcml_wrapper.py:87-91` `tag` -/
def tagOf (e : Elem) : Option Str := cleanTag e.tag

/-- `/repo/src/srcmlcpp/internal/srcml_utils.py:40-46` `children_with_tag` -/
def childrenWithTag (e : Elem) (tag : Str) : List Elem := e.children.filter (fun c => decide (tagOf c = some tag))

/-- `/repo/src/srcmlcpp/internal/srcml_utils.py:49-58` `child_with_tag` -/
def childWithTag (e : Elem) (tag : Str) : Option Elem :=
  match childrenWithTag e tag with
  | [c] => some c
  | _ => none

/-- `/repo/src/codemanip/code_position.py:12-13` `__str__` -/
def posStr (p : Where.Position) : Str := intStr p.line ++ ":".toList ++ intStr p.column

/-- `/repo/src/codemanip/code_position.py:15-23` `from_string` -/
def fromString (s : Str) : Option Where.Position :=
  match splitOn ':' s with
  | [a, b] =>
    match pyInt 10 a, pyInt 10 b with
    | some l, some c => some ⟨l, c⟩
    | _, _ => none
  | _ => none

/-- The loop of `/repo/src/srcmlcpp/internal/srcml_utils.py:17-22` `_element_position` -/
def positionLoop (which : Str) : Option Where.Position → List (Str × Str) → Option (Option Where.Position)
  | r, [] => some r
  | r, (k, v) :: rest =>
    match cleanTag k with
    | none => none
    | some k' =>
      if k' = which then
        match fromString v with
        | none => none
        | some p => positionLoop which (some p) rest
      else positionLoop which r rest

/-- `/repo/src/srcmlcpp/internal/srcml_utils.py:25-30` `element_start_position` and `element_end_position` -/
def position (which : Str) (e : Elem) : Option (Option Where.Position) := positionLoop which none e.attrib

/-- `/repo/src/srcmlcpp/srcml_wrapper.py:152-160` `start` and `end` -/
def place (which : Str) (e : Elem) : Option Where.Position := (position which e).map (fun p => p.getD ⟨-1, -1⟩)

/-- `d[k] = v` for a dict -/
def setAttr (a : List (Str × Str)) (k v : Str) : List (Str × Str) :=
  if a.any (fun p => p.1 == k) then a.map (fun p => if p.1 = k then (k, v) else p) else a ++ [(k, v)]

/-- `/repo/src/srcmlcpp/internal/srcml_utils.py:33-37` `copy_element_end_position` -/
def copyEnd (src dst : List (Str × Str)) : List (Str × Str) :=
  src.foldl (fun d p => if cleanTag p.1 = some "end".toList then setAttr d p.1 p.2 else d) dst

/-- `/repo/src/srcmlcpp/internal/srcml_utils.py:93-99` `_extract_interesting_text` -/
def interestingText (e : Elem) : Str :=
  match e.text with
  | none => []
  | some t =>
    let text := strip (replace t ['\n'] [' '])
    if text = ";".toList then [] else text

/-- `/repo/src/srcmlcpp/internal/srcml_utils.py:114-122` `_info_element_position`, before the comparison -/
def info (e : Elem) : Str :=
  match position "start".toList e, position "end".toList e with
  | some (some s), some (some t) =>
    if s.line = t.line then "line  ".toList ++ intStr s.line else "lines ".toList ++ intStr s.line ++ "-".toList ++ intStr t.line
  | _, _ => []

/-- `/repo/src/srcmlcpp/internal/srcml_utils.py:131-143`: the line of an element, with the information that is shown. -/
def lineOf (level : Nat) (e : Elem) (shown : Str) : Str :=
  let msg := spaces (4 * level) ++ (tagOf e).getD []
  let text := interestingText e
  let msg := if text.length > 0 then msg ++ (" text=\"".toList ++ text ++ "\"".toList) else msg
  if shown.length > 0 then msg ++ (spaces (60 - msg.length) ++ shown) else msg

/-- `/repo/src/srcmlcpp/internal/srcml_utils.py:124-128`: what is shown, when `prev` is the value of the global `_PREVIOUS_INFO_POSITION`. -/
def shownInfo (prev : Str) (e : Elem) : Str := if info e ≠ prev then info e else []

/-- `/repo/src/srcmlcpp/internal/srcml_utils.py:114-128`: the new value of the global. -/
def nextInfo (prev : Str) (e : Elem) : Str := if info e = [] then prev else info e

mutual
/-- `/repo/src/srcmlcpp/internal/srcml_utils.py:131-147` `srcml_to_str_readable`: the text, and the value of the global afterwards. -/
def readable (prev : Str) (level : Nat) : Elem → Str × Str
  | .mk t a x cs =>
    let r := readableList (nextInfo prev (.mk t a x cs)) (level + 1) cs
    (lineOf level (.mk t a x cs) (shownInfo prev (.mk t a x cs)) ++ '\n' :: r.1, r.2)
/-- The loop on the children. -/
def readableList (prev : Str) (level : Nat) : List Elem → Str × Str
  | [] => ([], prev)
  | e :: es =>
    let r := readable prev level e
    let s := readableList r.2 level es
    (r.1 ++ s.1, s.2)
end

end Verif.Xml
