import Verif.Cls.Model

/-! Model of the binding and of the stub of a class (see `Verif.Cls.Model`). -/

namespace Verif.Cls
open Verif.Py Verif.Type Verif.Adapt

/-- `/repo/src/srcmlcpp/cpp_types/base/cpp_access_type.py:7-10` `CppAccessType` -/
inductive Access where
  | public_
  | protected_
  | private_
deriving DecidableEq

/-- `/repo/src/srcmlcpp/cpp_types/base/cpp_access_type.py:12-21` `from_name`; `none` is the `AssertionError`. -/
def accessFromName (name : Str) : Option Access :=
  if name = "public".toList ∨ name = [] then some .public_
  else if name = "protected".toList then some .protected_
  else if name = "private".toList then some .private_
  else none

/-- A base class that was found: the specifier written before it (`CppSuper.specifier`), `cpp_scope_str(include_self=True)` and
`cpp_scope_to_pybind_scope_str(.., include_self=True)`. -/
structure Base where
  specifier : Str
  cppName : Str
  pyName : Str
deriving DecidableEq

/-- A constructor or a destructor of a class: its parameters, its specifiers, and the access section it is in. -/
structure Special where
  isCtor : Bool
  params : List Param
  specifiers : List Str
  access : Access
deriving DecidableEq

/-- The kind of an adapted element in a class. -/
inductive Kind where
  | emptyLine
  | comment
  | member
  | func
  | cls
  | enum_
  | macro_
deriving DecidableEq

/-- An element of `adapted_public_children`: its kind, `pydef_lines()`, and what `dedup_stub_lines` needs. -/
structure Child where
  kind : Kind
  pydef : List Str
  stub : Overload.Elem
deriving DecidableEq

/-- The named constructor (`named_constructor_decl()`): its parameters, those of the adapted function, whether
`was_mutable_param_with_default_value_made_optional`, `_pydef_pyarg_list()` and `stub_lines()` of the adapted function. -/
structure NamedCtor where
  params : List Param
  adapted : List Param
  madeOptional : Param → Bool
  pyargs : List Str
  stub : List Str

/-- A class that is not a template. -/
structure Class where
  /-- `class` or `struct` -/
  isClass : Bool
  name : Str
  /-- `cpp_scope(False).str_cpp` -/
  scope : Str
  /-- `str_template_specialization()` -/
  specialization : Str
  /-- `class_name_python()` -/
  pyName : Str
  /-- `pydef_class_var()` and `cpp_scope_to_pybind_parent_var_name` -/
  var : Str
  parentVar : Str
  /-- what is in its base class list, and the bases that `base_classes()` finds -/
  hasBases : Bool
  bases : List Base
  /-- `class_custom_inheritance__callback`, for the stub and for the binding -/
  customStub : List Str
  customPydef : List Str
  isFinal : Bool
  /-- constructors and destructors, in order -/
  specials : List Special
  /-- `_virt_shall_override()` -/
  overridden : Bool
  previous : Str
  eol : Str
  location : Option (Str × Str)
  children : List Child
  /-- the protected methods that are published: `stub_lines()` and `pydef_lines()` (with the name of the publicist class) -/
  protectedMethods : List (List Str × List Str)
  named : NamedCtor
  /-- the custom code of the class for the stub and for the binding -/
  stubCustom : Option Str
  pydefCustom : Option Str

/-- `/repo/src/srcmlcpp/cpp_types/classes/cpp_struct.py:104-112` `qualified_class_name_with_specialization` -/
def qualified (c : Class) : Str :=
  (if c.scope.length = 0 then c.name else c.scope ++ "::".toList ++ c.name) ++ c.specialization

/-! ### Constructors, destructors -/

/-- `/repo/src/srcmlcpp/cpp_types/functions/cpp_function_decl.py:411-421` `is_default_constructor` -/
def isDefaultCtor (s : Special) : Bool := s.isCtor && s.params.all (fun p => p.default.length ≠ 0)

/-- `/repo/src/srcmlcpp/cpp_types/functions/cpp_function_decl.py:423-438` `is_copy_constructor` -/
def isCopyCtor (className : Str) (s : Special) : Bool :=
  s.isCtor && match s.params with
    | [p] =>
      decide (p.type.typenames = [className]) &&
      ((decide ("const".toList ∈ p.type.specifiers) && decide (p.type.modifiers = ["&".toList])) ||
        (decide (p.type.specifiers.length = 0) && decide (p.type.modifiers.length = 0)))
    | _ => false

/-- `/repo/src/srcmlcpp/cpp_types/classes/cpp_struct.py:156-160` `has_user_defined_constructor` -/
def hasUserCtor (c : Class) : Bool := c.specials.any (·.isCtor)

/-- `/repo/src/srcmlcpp/cpp_types/classes/cpp_struct.py:138-148` `has_user_defined_default_constructor_zero_param`,
`has_user_defined_default_constructor_non_zero_param` -/
def hasZeroParamCtor (c : Class) : Bool := c.specials.any (fun s => s.isCtor && s.params.length = 0)
def hasNonZeroParamCtor (c : Class) : Bool := c.specials.any (fun s => s.isCtor && s.params.length > 0)

/-- `/repo/src/srcmlcpp/cpp_types/classes/cpp_struct.py:162-166` `has_deleted_default_constructor` -/
def hasDeletedDefaultCtor (c : Class) : Bool := c.specials.any (fun s => isDefaultCtor s && decide ("delete".toList ∈ s.specifiers))

/-- `/repo/src/srcmlcpp/cpp_types/classes/cpp_struct.py:185-193` `has_private_destructor` -/
def hasPrivateDtor (c : Class) : Bool := c.specials.any (fun s => !s.isCtor && s.access = .private_)

/-! ### (deep)copy -/

/-- `/repo/src/litgen/internal/adapted_types/adapted_class.py:883-897` `_cp_shall_create_copy_impl`, with
`/repo/src/srcmlcpp/cpp_types/classes/cpp_struct.py:168-183`. -/
def shallCopy (o : Options) (c : Class) (what : Str) : Bool :=
  if !(if what = "copy".toList then o.copy else o.deepCopy) c.name then false
  else match c.specials.find? (isCopyCtor c.name) with
    | none => true
    | some s => if s.access ≠ .public_ then false else if "delete".toList ∈ s.specifiers then false else true

/-- `/repo/src/litgen/internal/adapted_types/adapted_class.py:905-919` `_cp_stub_comment` -/
def copyComment (o : Options) (c : Class) : Str :=
  if !o.copyInfo then []
  else
    let l := (if shallCopy o c "copy".toList then ["copy.copy".toList] else []) ++
      (if shallCopy o c "deep_copy".toList then ["copy.deepcopy".toList] else [])
    if l.length > 0 then "(has support for ".toList ++ join " and ".toList l ++ ")".toList else []

/-- The template of `/repo/src/litgen/internal/adapted_types/adapted_class.py:922-929`. -/
def copyTemplateRaw : Str := unlines
  [[],
   spaces 12 ++ ".def(\"__{copy_or_deep_copy}__\",  [](const {qualified_class_name} &self{maybe_pydict}) {".toList,
   spaces 12 ++ "{_i_}return {qualified_class_name}(self);".toList,
   spaces 12 ++ "}{maybe_memo})".toList,
   spaces 8]

/-- `/repo/src/litgen/internal/adapted_types/adapted_class.py:937-952`, the body of the loop: the code for `copy` or `deepcopy`. The items are
those of the dict, in the order of their first assignment. -/
def copyOne (o : Options) (c : Class) (what : Str) : Str :=
  let isCopy := what = "copy".toList
  Template.processCodeTemplate (Indent.unindentCode copyTemplateRaw true)
    [("_i_".toList, o.indent), ("qualified_class_name".toList, qualified c), ("copy_or_deep_copy".toList, what),
     ("maybe_pydict".toList, if isCopy then [] else ", ".toList ++ Fn.lib o.toOptions ++ "::dict".toList),
     ("maybe_memo".toList, if isCopy then [] else ", ".toList ++ Fn.lib o.toOptions ++ "::arg(\"memo\")".toList)]

/-- `/repo/src/litgen/internal/adapted_types/adapted_class.py:921-954` `_cp_pydef` -/
def copyPydef (o : Options) (c : Class) : Str :=
  join "\n".toList ((["copy".toList, "deepcopy".toList].filter (shallCopy o c)).map (copyOne o c))

/-! ### Named constructor -/

/-- `/repo/src/litgen/internal/adapted_types/adapted_class.py:1223-1239` `flag_generate_named_ctor_params` -/
def namedFlag (o : Options) (c : Class) : Bool :=
  if hasNonZeroParamCtor c then false
  else if hasPrivateDtor c then false
  else (if c.isClass then o.classNamedCtor else o.structNamedCtor) c.name

/-- `/repo/src/litgen/internal/adapted_types/adapted_class.py:1241-1246` `flag_generate_void_constructor` -/
def voidFlag (o : Options) (c : Class) : Bool := !hasUserCtor c && !namedFlag o c

/-- The templates of `/repo/src/litgen/internal/adapted_types/adapted_class.py:1420-1448`. -/
def namedTemplateRaw (nanobind : Bool) : Str :=
  if !nanobind then unlines
    [[],
     spaces 16 ++ ".def(py::init<>([](".toList,
     spaces 16 ++ "{all_params_signature})".toList,
     spaces 16 ++ "{".toList,
     spaces 16 ++ "{_i_}auto r_ctor_ = std::make_unique<{qualified_struct_name}>();".toList,
     spaces 16 ++ "{all_params_set_values}".toList,
     spaces 16 ++ "{_i_}return r_ctor_;".toList,
     spaces 16 ++ "})".toList,
     spaces 16 ++ ", {maybe_pyargs}".toList,
     spaces 16 ++ ")".toList,
     spaces 12]
  else unlines
    [[],
     spaces 16 ++ ".def(\"__init__\", []({all_params_signature})".toList,
     spaces 16 ++ "{".toList,
     spaces 16 ++ "{_i_}new (self) {qualified_struct_name}();  // placement new".toList,
     spaces 16 ++ "{_i_}auto r_ctor_ = self;".toList,
     spaces 16 ++ "{all_params_set_values}".toList,
     spaces 16 ++ "},".toList,
     spaces 16 ++ "{maybe_pyargs}".toList,
     spaces 16 ++ ")".toList,
     spaces 12]

/-- `/repo/src/litgen/internal/adapted_types/adapted_class.py:1474-1484`: the statement that sets a member. -/
def setValue (o : Options) (n : NamedCtor) (original modified : Param) : Str :=
  let x := modified.name
  if n.madeOptional original then
    Indent.unindentCode (unlines
      [[],
       spaces 20 ++ "if (".toList ++ x ++ ".has_value())".toList,
       spaces 20 ++ o.indent ++ "r_ctor_->".toList ++ x ++ " = ".toList ++ x ++ ".value();".toList,
       spaces 20 ++ "else".toList,
       spaces 20 ++ o.indent ++ "r_ctor_->".toList ++ x ++ " = ".toList ++ original.default ++ ";".toList,
       spaces 20]) true
  else "r_ctor_->".toList ++ original.name ++ " = ".toList ++ original.name ++ ";".toList

/-- `/repo/src/litgen/internal/adapted_types/adapted_class.py:1466-1467`: without a first parameter `self`. -/
def withoutSelf : List Param → List Param
  | [] => []
  | p :: r => if p.name = "self".toList then r else p :: r

/-- `/repo/src/litgen/internal/adapted_types/adapted_class.py:1463-1488` `get_all_params_set_values`; `none` is the failed assertion. -/
def setValues (o : Options) (n : NamedCtor) : Option Str :=
  let modified := withoutSelf n.adapted
  if n.params.length ≠ modified.length then none
  else some (Indent.indentCode (unlines (List.zipWith (setValue o n) n.params modified)) 1 false (some o.indent))

/-- `/repo/src/litgen/internal/adapted_types/adapted_class.py:1395-1495` `pydef_code` -/
def namedPydef (o : Options) (c : Class) : Option Str :=
  let n := c.named
  if voidFlag o c then some (o.indent ++ ".def(".toList ++ Fn.lib o.toOptions ++ "::init<>()) // implicit default constructor\n".toList)
  else if !namedFlag o c then some []
  else if n.params.length = 0 ∧ hasZeroParamCtor c = true then some []
  else if n.params.length = 0 then
    some (o.indent ++ ".def(".toList ++ Fn.lib o.toOptions ++ "::init<>()) // implicit default constructor \n".toList)
  else (setValues o n).map (fun sets =>
    Indent.indentCode (Template.processCodeTemplate (Indent.unindentCode (namedTemplateRaw o.nanobind) true)
      [("_i_".toList, o.indent), ("qualified_struct_name".toList, qualified c),
       ("all_params_signature".toList, join ", ".toList (n.adapted.map Fn.signatureOf)), ("all_params_set_values".toList, sets)]
      [("maybe_pyargs".toList, some (join ", ".toList n.pyargs))]) 1 false (some o.indent) ++ "\n".toList)

/-- `/repo/src/litgen/internal/adapted_types/adapted_class.py:1497-1520` `stub_code` -/
def namedStub (o : Options) (c : Class) : Str :=
  if voidFlag o c then unlines
    ["def __init__(self) -> None:".toList, "    \"\"\"Autogenerated default constructor\"\"\"".toList, "    pass".toList]
  else if !namedFlag o c then []
  else if c.named.params.length = 0 ∧ hasZeroParamCtor c = true then []
  else unlines c.named.stub

/-! ### Binding -/

/-- `/repo/src/litgen/internal/adapted_types/adapted_element.py:107-112` `str_pydef` -/
def strPydef (ls : List Str) : Str := if ls.length = 0 then [] else unlines ls ++ "\n".toList

/-- The template of `/repo/src/litgen/internal/adapted_types/adapted_class.py:709-716`. -/
def creationTemplateRaw : Str := unlines
  [[],
   spaces 20 ++ "auto {pydef_class_var} =".toList,
   spaces 20 ++ "{_i_}{py}::class_<{qualified_struct_name}{other_template_params}{maybe_shared_ptr_holder}>{location}".toList,
   spaces 20 ++
     "{_i_}{_i_}({pydef_class_var_parent}, \"{class_name_python}\"{maybe_py_is_final}{maybe_py_is_dynamic}, \"{comment}\")".toList,
   spaces 20]

/-- `/repo/src/litgen/internal/adapted_types/adapted_class.py:686-693`: the base classes in the binding; `none` is the `AssertionError`. -/
def pydefBases (c : Class) : Option (List Str) :=
  if c.customPydef ≠ [] then some c.customPydef
  else if c.hasBases then
    (Fn.allSome (c.bases.map (fun b => (accessFromName b.specifier).map (fun a => (a, b.cppName))))).map
      (fun l => (l.filter (fun x => decide (x.1 = .public_) || decide (x.1 = .protected_))).map (·.2))
  else some []

/-- `/repo/src/litgen/internal/adapted_types/adapted_class.py:679-702`: the additional arguments of `py::class_`. -/
def otherParams (o : Options) (c : Class) : Option (List Str) :=
  (pydefBases c).map (fun bases => bases ++
    (if hasPrivateDtor c && !o.nanobind then ["std::unique_ptr<".toList ++ qualified c ++ ", py::nodelete>".toList] else []) ++
    (if c.overridden then [(if c.scope.length > 0 then c.scope ++ "::".toList else []) ++ c.name ++ "_trampoline".toList] else []))

/-- `/repo/src/litgen/internal/adapted_types/adapted_class.py:668-761` `make_pyclass_creation_code` -/
def creationCode (o : Options) (c : Class) : Option Str :=
  (otherParams o c).map (fun other =>
    Template.processCodeTemplate (Indent.unindentCode creationTemplateRaw true)
      [("py".toList, Fn.lib o.toOptions), ("_i_".toList, o.indent), ("pydef_class_var".toList, c.var),
       ("qualified_struct_name".toList, qualified c),
       ("other_template_params".toList, if other.length > 0 then ", ".toList ++ join ", ".toList other else []),
       ("location".toList, locationText o c.location "//".toList), ("class_name_python".toList, c.pyName),
       ("pydef_class_var_parent".toList, c.parentVar),
       ("maybe_py_is_final".toList, if c.isFinal then ", ".toList ++ Fn.lib o.toOptions ++ "::is_final()".toList else []),
       ("maybe_py_is_dynamic".toList,
         if o.dynamicAttributes c.name then ", ".toList ++ Fn.lib o.toOptions ++ "::dynamic_attr()".toList else []),
       ("comment".toList, docOneLine o (fullComment c.previous c.eol)),
       ("maybe_shared_ptr_holder".toList,
         if o.heldAsShared c.name && !o.nanobind then ", std::shared_ptr<".toList ++ qualified c ++ ">".toList else [])])

/-- `/repo/src/litgen/internal/adapted_types/adapted_class.py:763-770` `make_default_constructor_code` -/
def defaultCtorCode (o : Options) (c : Class) : Option Str :=
  if hasDeletedDefaultCtor c then some (o.indent ++ "// (default constructor explicitly deleted)\n".toList)
  else if !hasUserCtor c then namedPydef o c
  else some []

/-- `/repo/src/litgen/internal/adapted_types/adapted_class.py:659-666` -/
def isInner (ch : Child) : Bool := decide (ch.kind = .cls) || decide (ch.kind = .enum_)

/-- `/repo/src/litgen/internal/adapted_types/adapted_class.py:774-776, 783-785, 797-800`: the code of a child, indented. -/
def indented (o : Options) (ls : List Str) : Str := Indent.indentCode (strPydef ls) 1 false (some o.indent)

/-- `/repo/src/litgen/internal/adapted_types/adapted_class.py:772-777` `make_public_children_code` -/
def publicCode (o : Options) (c : Class) : Str := (c.children.filter (fun ch => !isInner ch)).flatMap (fun ch => indented o ch.pydef)

/-- `/repo/src/litgen/internal/adapted_types/adapted_class.py:779-787` `make_inner_classes_code` -/
def innerCode (o : Options) (c : Class) : Str :=
  let inner := c.children.filter isInner
  if inner.length > 0 then
    "\n{ // inner classes & enums of ".toList ++ c.pyName ++ "\n".toList ++ inner.flatMap (fun ch => indented o ch.pydef) ++
    "} // end of inner classes & enums of ".toList ++ c.pyName
  else []

/-- `/repo/src/litgen/internal/adapted_types/adapted_class.py:789-801` `make_protected_methods_code` -/
def protectedCode (o : Options) (c : Class) : Str := c.protectedMethods.flatMap (fun m => indented o m.2)

/-- `/repo/src/litgen/internal/adapted_types/adapted_class.py:803-805` `make_copy_deepcopy_code` -/
def copyCode (o : Options) (c : Class) : Str := Indent.indentCode (copyPydef o c) 1 false (some o.indent)

/-- The templates of `/repo/src/litgen/internal/adapted_types/adapted_class.py:812-835`. -/
def iterableTemplateRaw (nanobind : Bool) : Str :=
  if !nanobind then unlines
    [[],
     spaces 20 ++
       ".def(\"__iter__\", [](const {qualified_struct_name} &v) { return py::make_iterator(v.begin(), v.end()); }, py::keep_alive<0, 1>())".toList,
     spaces 20 ++ ".def(\"__len__\", [](const {qualified_struct_name} &v) { return v.size(); })".toList,
     spaces 20]
  else unlines
    [[],
     spaces 20 ++ ".def(\"__iter__\", [](const {qualified_struct_name} &v) {".toList,
     spaces 28 ++ "return nb::make_iterator(nb::type<{qualified_struct_name}>(), \"iterator\", v.begin(), v.end());".toList,
     spaces 24 ++ "}, nb::keep_alive<0, 1>())".toList,
     spaces 20 ++ ".def(\"__len__\", [](const {qualified_struct_name} &v) { return v.size(); })".toList,
     spaces 20]

/-- `/repo/src/litgen/internal/adapted_types/adapted_class.py:807-844` `make_iterable_code` -/
def iterableCode (o : Options) (c : Class) : Str :=
  match o.iterable c.pyName with
  | none => []
  | some _ =>
    Indent.indentCode (Template.processCodeTemplate (Indent.unindentCode (iterableTemplateRaw o.nanobind) true ++ "\n".toList)
      [("_i_".toList, o.indent), ("qualified_struct_name".toList, qualified c)]) o.indent.length

/-- `/repo/src/litgen/internal/adapted_types/adapted_class.py:846-852` `make_all_children_code` -/
def childrenCode (o : Options) (c : Class) : Option Str :=
  (defaultCtorCode o c).map (fun d => d ++ publicCode o c ++ protectedCode o c ++ copyCode o c ++ iterableCode o c)

/-- `/repo/src/litgen/internal/adapted_types/adapted_class.py:854-871` -/
def pydefCode (o : Options) (c : Class) : Option Str :=
  (creationCode o c).bind (fun head => (childrenCode o c).map (fun body =>
    let inner := innerCode o c
    (if inner.length > 0 then head ++ ";\n".toList ++ inner ++ "\n\n".toList ++ c.var ++ "\n".toList ++ body
     else head ++ "\n".toList ++ body) ++ o.indent ++ ";".toList ++
    (match c.pydefCustom with
      | none => []
      | some code => "\n".toList ++ code ++ "\n".toList)))

/-- `/repo/src/litgen/internal/adapted_types/adapted_class.py:639-874` `pydef_lines` -/
def pydefLines (o : Options) (c : Class) : Option (List Str) := (pydefCode o c).map lines

/-! ### Stub -/

/-- `s.splitlines()`, for a text whose only line breaks are `\n`. -/
def splitlines (s : Str) : List Str := if s = [] then [] else if endsWith s "\n".toList then lines s.dropLast else lines s

/-- `/repo/src/litgen/internal/adapted_types/adapted_class.py:523-546` `str_parent_classes_python`; `none` is the `AssertionError`. -/
def parentsPython (c : Class) : Option Str :=
  if c.customStub = [] ∧ c.hasBases = false then some []
  else
    let parents := if c.customStub ≠ [] then some c.customStub
      else Fn.allSome (c.bases.map (fun b => (accessFromName b.specifier).map (fun _ => b.pyName)))
    parents.map (fun ps => if ps.length = 0 then [] else "(".toList ++ join ", ".toList ps ++ ")".toList)

/-- `/repo/src/litgen/internal/adapted_types/adapted_class.py:559-563`: the comment of the class after its stub was made. -/
def stubComment (o : Options) (c : Class) : Str :=
  c.previous ++ (if c.isFinal then "\n(final class)".toList else []) ++
  (if (copyComment o c).length > 0 then "\n".toList ++ copyComment o c else [])

/-- The elements that `/repo/src/litgen/internal/adapted_types/line_spacer.py:53-97` tells apart: those that it spaces by two lines, by one
line, comments, members, and the others. -/
def spacing (o : Options) (last : Option Kind) (k : Kind) : List Str :=
  match last with
  | none => []
  | some l =>
    let two := fun (x : Kind) => decide (x = .cls) || decide (x = .enum_)
    if k = .member ∧ l = .comment ∧ o.reproduceLayout = false then [[]]
    else if !(two k || decide (k = .func) || decide (k = .comment)) then []
    else if two l || two k then [[], []] else [[]]

/-- `/repo/src/litgen/internal/adapted_types/adapted_class.py:569-572, 585-590`: the lines of the elements with the lines between them;
the second value is the last element. -/
def spaced (o : Options) : Option Kind → List (Kind × List Str) → List Str × Option Kind
  | last, [] => ([], last)
  | last, (k, ls) :: rest =>
    if o.reproduceLayout || decide (ls.length = 0) then
      let r := spaced o last rest
      (ls ++ r.1, r.2)
    else
      let r := spaced o (some k) rest
      (spacing o last k ++ ls ++ r.1, r.2)

/-- The elements that `dedup_stub_lines` keeps, with their kinds: it drops elements and keeps the order of the others; a dropped element and an
equal one that is kept are functions. -/
def withKinds : List Child → List (Overload.Elem × List Str) → List (Kind × List Str)
  | ch :: cs, e :: es => if ch.stub = e.1 then (ch.kind, e.2) :: withKinds cs es else withKinds cs (e :: es)
  | _, _ => []

/-- `dedup_stub_lines(self.adapted_public_children)`: `/repo/src/litgen/internal/adapted_types/stub_overload_dedup.py:10-62` (see
`Verif.Overload`). -/
def stubChildren (c : Class) : List (Kind × List Str) := withKinds c.children (Overload.dedupStubLines (c.children.map (·.stub)))

/-- `/repo/src/litgen/internal/adapted_types/adapted_class.py:593-615` `make_iterable_code` of the stub. -/
def iterableStub (o : Options) (c : Class) : List Str :=
  match o.iterable c.pyName with
  | none => []
  | some t =>
    ["def __iter__(self) -> Iterator[".toList ++ t ++ "]:".toList, o.indent ++ "pass".toList, "def __len__(self) -> int:".toList,
     o.indent ++ "pass".toList]

/-- `/repo/src/litgen/internal/adapted_types/adapted_class.py:565-623`: the body of the class. -/
def bodyLines (o : Options) (c : Class) : List Str :=
  let pub := spaced o none (stubChildren c)
  let prot := spaced o pub.2 (c.protectedMethods.map (fun m => (Kind.func, m.1)))
  pub.1 ++
  (if !hasUserCtor c && !hasDeletedDefaultCtor c then lines (namedStub o c) else []) ++
  (if c.protectedMethods.length > 0 then [[], "# <protected_methods>".toList] ++ prot.1 ++ ["# </protected_methods>".toList, []] else []) ++
  iterableStub o c ++
  (match c.stubCustom with
    | none => []
    | some code => splitlines code)

/-- `/repo/src/litgen/internal/adapted_types/adapted_element.py:162-191` `_elm_str_stub_layout_lines` -/
def layoutLines (o : Options) (location : Option (Str × Str)) (comment title : Str) (body : List Str) : List Str :=
  let body := Comment.alignPythonCommentsInBlockLines (if body.length = 0 then ["pass".toList] else body)
  let doc := Fn.docstringLines (Fn.applyCommentReplacements o.toOptions comment)
  Indent.indentCodeLines ([title ++ locationText o location "#".toList] ++ doc ++
    (if doc.length > 0 ∧ o.reproduceLayout = false ∧ body ≠ ["pass".toList] then [[]] else []) ++ body) 1 true (some o.pyIndent)

/-- `/repo/src/litgen/internal/adapted_types/adapted_class.py:499-626` `stub_lines`: the lines, and the class as it is afterwards (its comment
is changed). -/
def stubLines (o : Options) (c : Class) : Option (List Str × Class) :=
  (parentsPython c).map (fun parents =>
    let c' := { c with previous := stubComment o c }
    (layoutLines o c.location (fullComment c'.previous c.eol) ("class ".toList ++ c.pyName ++ parents ++ ":".toList) (bodyLines o c), c'))

end Verif.Cls
