import Verif.Py.Str
import Verif.Py.Dict
import Verif.Indent.Model
import Verif.Lines.Model
import Verif.Scope.Model

/-! Model of `/repo/src/litgen/internal/custom_bindings.py` and of its use by the generation of classes, namespaces and units. -/

namespace Verif.Custom
open Verif.Py

/-- `/repo/src/litgen/internal/custom_bindings.py:72-74, 174-180`. The keys are scopes, compared (and hashed) by their text
(`/repo/src/srcmlcpp/cpp_types/scope/cpp_scope.py:63-66, 88-89`). -/
structure Bindings where
  pydefs : List (Str × List Str)
  stubs : List (Str × List Str)
  mainPydefEmitted : Bool
  mainStubEmitted : Bool

/-- `/repo/src/litgen/internal/custom_bindings.py:174-180` `__init__` -/
def Bindings.empty : Bindings := ⟨[], [], false, false⟩

/-- The key of `CppScope.from_string(s)` (see `Verif.Scope`). -/
def key (s : Str) : Str := Scope.strCpp (Scope.fromString s)

/-- `/repo/src/litgen/internal/custom_bindings.py:182-183` `_get_custom_bindings_ref` -/
def Bindings.codes (b : Bindings) (isPydef : Bool) : List (Str × List Str) := if isPydef then b.pydefs else b.stubs

def Bindings.setCodes (b : Bindings) (isPydef : Bool) (d : List (Str × List Str)) : Bindings :=
  if isPydef then { b with pydefs := d } else { b with stubs := d }

/-- `/repo/src/litgen/internal/custom_bindings.py:188-189` -/
def clean (code : Str) : Str := Lines.stripFirstAndLastLinesIfEmpty (Indent.unindentCode code)

/-- `/repo/src/litgen/internal/custom_bindings.py:185-195` `_do_add_cleaned_code` -/
def addCode (b : Bindings) (scope : Str) (code : Option Str) (isPydef : Bool) : Bindings :=
  match code with
  | none => b
  | some code =>
    let d := b.codes isPydef
    let k := key scope
    let d := if (dictGet d k).isNone then dictSet d k [] else d
    b.setCodes isPydef (dictSet d k ((dictGet d k).getD [] ++ [clean code]))

/-- `/repo/src/litgen/internal/custom_bindings.py:197-204` `_do_add_custom_bindings`, called by the three public functions (the main
module is the scope `""`, 167) -/
def add (b : Bindings) (scope : Str) (stub pydef : Option Str) : Bindings :=
  addCode (addCode b scope stub false) scope pydef true

/-- `/repo/src/litgen/internal/custom_bindings.py:206-223` `_make_custom_code`, with one replacement -/
def makeCustomCode (b : Bindings) (scope : Str) (isPydef : Bool) (target var : Str) : Option Str :=
  match dictGet (b.codes isPydef) (key scope) with
  | none => none
  | some codes =>
    let result := replace (join "\n".toList codes) target var
    let result := if !startsWith result "\n".toList then "\n".toList ++ result else result
    let result := if !endsWith result "\n".toList then result ++ "\n".toList else result
    some result

/-- `/repo/src/litgen/internal/custom_bindings.py:225-231` -/
def makeClassCode (b : Bindings) (qualified var : Str) (isPydef : Bool) : Option Str :=
  makeCustomCode b qualified isPydef "LG_CLASS".toList var

/-- `/repo/src/litgen/internal/custom_bindings.py:233-239` -/
def makeSubmoduleCode (b : Bindings) (qualified var : Str) (isPydef : Bool) : Option Str :=
  makeCustomCode b qualified isPydef "LG_SUBMODULE".toList var

def Bindings.mainEmitted (b : Bindings) (isPydef : Bool) : Bool := if isPydef then b.mainPydefEmitted else b.mainStubEmitted

def Bindings.setMainEmitted (b : Bindings) (isPydef : Bool) : Bindings :=
  if isPydef then { b with mainPydefEmitted := true } else { b with mainStubEmitted := true }

/-- `/repo/src/litgen/internal/custom_bindings.py:241-261` `_pub_make_main_module_custom_code` -/
def makeMainCode (b : Bindings) (var : Str) (isPydef : Bool) : Option Str × Bindings :=
  if b.mainEmitted isPydef then (none, b)
  else
    match makeCustomCode b [] isPydef "LG_MODULE".toList var with
    | none => (none, b)
    | some r => (some r, b.setMainEmitted isPydef)

/-! ### Generation -/

/-- A class or a namespace block met in a header: its qualified name, its variable in the binding code, and for a namespace
whether it is a root namespace (`/repo/src/litgen/internal/adapted_types/adapted_namespace.py:55-57`). -/
inductive Item where
  | klass (qualified var : Str)
  | ns (qualified var : Str) (root : Bool)
deriving DecidableEq

/-- A custom code that is emitted, with its target (`none` for the main module). -/
structure Emission where
  target : Option Item
  text : Str
deriving DecidableEq

/-- `/repo/src/litgen/internal/adapted_types/adapted_class.py:619-623, 867-871` and
`/repo/src/litgen/internal/adapted_types/adapted_namespace.py:97-103, 149-155` (a root namespace emits no custom code) -/
def itemEmission (b : Bindings) (isPydef : Bool) : Item → Option Emission
  | .klass q v => (makeClassCode b q v isPydef).map (fun t => ⟨some (.klass q v), t⟩)
  | .ns q v root => if root then none else (makeSubmoduleCode b q v isPydef).map (fun t => ⟨some (.ns q v root), t⟩)

/-- `/repo/src/litgen/internal/adapted_types/adapted_unit.py:29-63` `str_stub` and `str_pydef`: the custom codes of the elements,
then that of the main module (variable `m`) -/
def emitUnit (b : Bindings) (isPydef : Bool) (items : List Item) : List Emission × Bindings :=
  let r := makeMainCode b "m".toList isPydef
  (items.filterMap (itemEmission b isPydef) ++ (r.1.map (fun t => Emission.mk none t)).toList, r.2)

/-- `/repo/src/litgen/litgen_generator.py:187-196` `process_cpp_code`: the stub, then the binding code -/
def processHeader (b : Bindings) (items : List Item) : (List Emission × List Emission) × Bindings :=
  let r := emitUnit b false items
  let s := emitUnit r.2 true items
  ((r.1, s.1), s.2)

/-- A generator that processes headers: the stubs and the binding codes of each -/
def processHeaders : Bindings → List (List Item) → List (List Emission × List Emission) × Bindings
  | b, [] => ([], b)
  | b, h :: hs =>
    let r := processHeader b h
    let s := processHeaders r.2 hs
    (r.1 :: s.1, s.2)

end Verif.Custom
