import Verif.Fn.Demo
import Verif.Cls.ModelClass

/-! Options, members and classes used in the examples of this part. -/

namespace Verif.Cls
open Verif.Py Verif.Type Verif.Adapt

/-- Options with pybind11, four spaces, and nothing special. -/
def demoO : Options where
  toOptions := Fn.demoO
  reproduceLayout := true
  numericTypes := ["int".toList, "float".toList]
  replaceArray := fun _ => true
  readonlyType := fun _ => false
  readonlyName := fun n => n = "id".toList
  excludeNameClass := fun _ _ => false
  excludeName := fun _ => false
  excludeType := fun _ => false
  excludeTpl := fun _ => false
  classNamedCtor := fun _ => false
  structNamedCtor := fun _ => true
  copy := fun _ => false
  deepCopy := fun _ => false
  copyInfo := true
  dynamicAttributes := fun _ => false
  heldAsShared := fun _ => false
  iterable := fun _ => none

/-- `int x = 2; // a number` -/
def demoMember : Member where
  type := Fn.demoInt
  name := "x".toList
  init := "2".toList
  arrayCode := []
  arraySize := none
  bitfield := []
  previous := []
  eol := " a number".toList
  location := some ("lib.h".toList, "12".toList)
  original := []

/-- `static constexpr int x = 2; // a number` -/
def demoStatic : Member := { demoMember with type := { Fn.demoInt with specifiers := ["static".toList, "constexpr".toList] } }

/-- `int x[3];` -/
def demoArray : Member := { demoMember with init := [], arrayCode := "[3]".toList, arraySize := some 3, eol := [] }

/-- `struct Foo: public Base { … }; // a class` -/
def demoClass : Class where
  isClass := false
  name := "Foo".toList
  scope := "N".toList
  specialization := []
  pyName := "Foo".toList
  var := "pyNsN_ClassFoo".toList
  parentVar := "pyNsN".toList
  hasBases := true
  bases := [⟨"public".toList, "N::Base".toList, "Base".toList⟩]
  customStub := []
  customPydef := []
  isFinal := false
  specials := []
  overridden := false
  previous := []
  eol := " a class".toList
  location := some ("lib.h".toList, "3".toList)
  children := []
  protectedMethods := []
  named := ⟨[], [], fun _ => false, [], ["def __init__(self) -> None:".toList, "    pass".toList]⟩
  stubCustom := none
  pydefCustom := none

/-- `struct Foo { int x = 2; std::vector<int> v = {}; };`: the second parameter is made optional. -/
def demoNamed : Class :=
  { demoClass with
    named :=
      { params := [⟨"x".toList, Fn.demoInt, [], "2".toList⟩, ⟨"v".toList, { Fn.demoInt with typenames := ["std::vector<int>".toList] }, [], "std::vector<int>()".toList⟩]
        adapted := [⟨"x".toList, Fn.demoInt, [], "2".toList⟩,
          ⟨"v".toList, { Fn.demoInt with typenames := ["std::optional<std::vector<int>>".toList] }, [], "std::nullopt".toList⟩]
        madeOptional := fun p => p.name = "v".toList
        pyargs := ["py::arg(\"x\") = 2".toList, "py::arg(\"v\") = py::none()".toList]
        stub := [] } }

/-- `struct Foo { int self; };` -/
def demoSelf : Class :=
  { demoClass with
    named :=
      { params := [⟨"self".toList, Fn.demoInt, [], []⟩]
        adapted := [⟨"self".toList, Fn.demoInt, [], []⟩]
        madeOptional := fun _ => false
        pyargs := ["py::arg(\"self\")".toList]
        stub := [] } }

end Verif.Cls
