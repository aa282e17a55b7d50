import Verif.Fn.Model

/-! Options and functions used in the examples of this part. -/

namespace Verif.Fn
open Verif.Py Verif.Type Verif.Adapt

/-- Options with pybind11, four spaces, and nothing special. -/
def demoO : Options where
  nanobind := false
  indent := "    ".toList
  pyIndent := "    ".toList
  apiPrefixes := []
  varName := id
  typePy := id
  valuePy := id
  qualify := id
  paramType := id
  terseType := id
  terseValue := id
  commentReplacements := id
  stripEmptyCommentLines := true
  forceOverload := fun _ => false
  gilGuard := fun _ => false
  referenceForPointers := fun _ => false
  referenceForReferences := fun _ => false
  vectorizeNamespace := fun _ => false
  vectorizeName := fun _ => false
  vectorizePrefix := []
  vectorizeSuffix := []
  overridable := fun _ => false
  maxLineLength := 0

def demoInt : CppType := { specifiers := [], typenames := ["int".toList], modifiers := [] }

def demoParam (name default : String) : Param := { name := name.toList, type := demoInt, arrayCode := [], default := default.toList }

/-- `int add(int a, int b = 2);` in the namespace `Ns` -/
def demoF : Func where
  name := "add".toList
  specialization := []
  params := [demoParam "a" "", demoParam "b" "2"]
  ret := some demoInt
  specifiers := []
  pureVirtual := false
  cls := none
  scope := "Ns".toList
  moduleVar := "m".toList
  pyName := "add".toList
  previous := " Adds two numbers".toList
  eol := []
  location := some ("lib.h".toList, "12".toList)
  inProxy := false
  overloaded := false
  typeIgnore := false
  vectorizeImpl := false
  policy := []
  aName := "add".toList
  aSpecialization := []
  aParams := [demoParam "a" "", demoParam "b" "2"]
  aRet := some demoInt
  aSpecifiers := []
  adapterCode := none
  lambdaToCall := none

def demoCls : Cls := { name := "Foo".toList, qualified := "Ns::Foo".toList, inner := [], parents := [] }

/-- the same as a method of `Ns::Foo` -/
def demoM : Func := { demoF with cls := some demoCls, policy := "reference".toList }

/-- the same with a lambda -/
def demoL : Func :=
  { demoF with lambdaToCall := some "add_adapt".toList, adapterCode := some "auto add_adapt = [](int a, int b) { return Ns::add(a, b); };".toList }

/-- the constructor of `Ns::Foo` with the same parameters -/
def demoC : Func := { demoF with name := "Foo".toList, pyName := "__init__".toList, cls := some demoCls, ret := none, aRet := none }

def static (f : Func) : Func :=
  { f with ret := f.ret.map (fun t => { t with specifiers := "static".toList :: t.specifiers }),
           aRet := f.aRet.map (fun t => { t with specifiers := "static".toList :: t.specifiers }) }

end Verif.Fn
