import Verif.Py.Str

/-! Specification: lambdas as they are written. -/

namespace Verif.Lam.Spec
open Verif.Py

/-- A lambda of C++; `body` has the lines of its parts. -/
structure Lambda where
  name : Str
  capture : Option Str
  params : Str
  ret : Option Str
  body : List (List Str)

/-- One indented part: the first line is indented even when it is empty. -/
def part (ind : Str) : List Str → List Str
  | [] => []
  | l :: ls => (ind ++ l) :: ls.map (fun x => if x = [] then [] else ind ++ x)

/-- What is between the brackets. -/
def captureText : Option Str → Str
  | none => []
  | some c => '&' :: c

def arrowText : Option Str → Str
  | none => []
  | some r => " -> ".toList ++ r

/-- `auto name = [&capture](params) -> ret { ... };` -/
def Lambda.text (ind : Str) (l : Lambda) : Str :=
  "auto ".toList ++ l.name ++ " = [".toList ++ captureText l.capture ++ "](".toList ++ l.params ++ ")".toList ++
    arrowText l.ret ++ "\n{\n".toList ++
    (l.body.flatMap (part ind)).flatMap (fun x => x ++ ['\n']) ++ "};\n".toList

/-- The type after the arrow: none for `void`. -/
def retOf (t : Str) : Option Str := if t = "void".toList then none else some t

/-- The call of `callee`, whose result (of type `ret`) is kept in `lambda_result` and returned; `output` is done between the two. -/
def callText (ret callee args : Str) (output : Option Str) (ref : Bool) : Str :=
  (if ret = "void".toList then [] else (if ref then "auto& lambda_result = ".toList else "auto lambda_result = ".toList)) ++ callee ++ "(".toList ++ args ++
    ");".toList ++ (match output with | none => [] | some x => "\n\n".toList ++ x) ++ (if ret = "void".toList then [] else "\nreturn lambda_result;".toList)

end Verif.Lam.Spec
