import Verif.Print.Model

/-! What the published class and its glue code have to be. -/

namespace Verif.Pimpl.Spec
open Verif.Py Verif.Print

/-- The lines of a text that are not blank, without the blanks at their ends. -/
def significant (s : Str) : List Str := ((lines s).map rstrip).filter (fun l => !l.isEmpty)

/-- The specifiers that are written in the declaration only, in the class. -/
def inClassOnly : List Str := ["static", "inline", "constexpr", "virtual", "explicit", "friend"].map String.toList

/-- A return type, in a definition that is out of the class. -/
def outOfClass (t : Type.CppType) : Type.CppType := { t with specifiers := t.specifiers.filter (fun s => !inClassOnly.contains s) }

/-- A parameter, in a definition: the default value is in the declaration only. -/
def withoutDefault (d : Decl) : Decl := { d with init := [] }

/-- The text of a type. -/
def typeText (t : Type.CppType) : Str := (Type.strCode t).getD []

def isConst (f : Fn) : Bool := f.specifiers.contains "const".toList

/-- The text of a definition that calls `callee`: `ret Pub::name(params) const {⏎    return callee name(names); }`. -/
def definition (ind pub callee : Str) (ret : Str) (name params : Str) (const returns : Bool) (names : Str) : Str :=
  ret ++ (" ".toList ++ (pub ++ ("::".toList ++ (name ++ ("(".toList ++ (params ++ (") ".toList ++ ((if const then "const ".toList else []) ++
    ("{\n".toList ++ (ind ++ ((if returns then "return ".toList else []) ++ (callee ++ (name ++ ("(".toList ++ (names ++ "); }".toList)))))))))))))))

/-- The text of the definition of a constructor, which makes the implementation. -/
def ctorDefinition (ind pub impl member params names : Str) : Str :=
  pub ++ ("::".toList ++ (pub ++ ("(".toList ++ (params ++ (")\n".toList ++ (ind ++ (": ".toList ++ (member ++ ("(std::make_unique<".toList ++
    (impl ++ (">(".toList ++ (names ++ ")) { }".toList))))))))))))

/-- The text of the declaration of a method in the class, with its comments. -/
def declaration (top ret name params : Str) (const : Bool) (eol : Str) : Str :=
  top ++ (ret ++ (" ".toList ++ (name ++ ("(".toList ++ (params ++ (")".toList ++ ((if const then " const".toList else []) ++ (";".toList ++ eol))))))))

/-- The text of the declaration of a constructor in the class, with its comments. -/
def ctorDeclaration (top pub params eol : Str) : Str := top ++ (pub ++ ("(".toList ++ (params ++ (");".toList ++ eol))))

/-- The text of the return type, if there is one. -/
def returnType : Option Type.CppType → Str
  | none => []
  | some t => typeText t

/-- Whether there is a result to return. -/
def returns : Option Type.CppType → Bool
  | none => false
  | some t => !(t.typenames = ["void".toList] ∧ t.specifiers = [] ∧ t.modifiers = [])

end Verif.Pimpl.Spec
