import Verif.Cls.ModelClass

/-! Specification of the bindings and of the stubs of classes: how they are read. -/

namespace Verif.Cls.Spec
open Verif.Py Verif.Type Verif.Adapt

/-! ### Data members -/

/-- What Python can do with an attribute: its name, whether it belongs to the class, whether it can be set. -/
structure Attr where
  name : Str
  static : Bool
  writable : Bool
deriving DecidableEq

/-- The methods of `py::class_` and `nb::class_` that bind a data member: whether it is static, whether it can be set. -/
def modes : List (Str × Bool × Bool) :=
  [("def_readwrite".toList, false, true), ("def_readonly".toList, false, false),
   ("def_readwrite_static".toList, true, true), ("def_readonly_static".toList, true, false),
   ("def_rw".toList, false, true), ("def_ro".toList, false, false),
   ("def_rw_static".toList, true, true), ("def_ro_static".toList, true, false), ("def_prop_ro".toList, false, false)]

/-- The setter of a property, `}, [](Foo& self, int v) {`, needs a parameter for the value. -/
def isSetter (line : Str) : Bool :=
  startsWith (strip line) "}, [](".toList && decide (',' ∈ ((strip line).drop 6).takeWhile (· ≠ ')'))

/-- Reads `.def_readwrite("name", …`; a property can be set if it has a setter. -/
def readBinding (ls : List Str) : Option Attr :=
  match ls with
  | ('.' :: r) :: rest =>
    let method := r.takeWhile (· ≠ '(')
    let name := ((r.dropWhile (· ≠ '(')).drop 2).takeWhile (· ≠ '"')
    if method = "def_property".toList then some ⟨name, false, rest.any isSetter⟩
    else (modes.find? (fun m => decide (m.1 = method))).map (fun m => ⟨name, m.2.1, m.2.2⟩)
  | _ => none

/-- The remarks at the end of a line of the stub. -/
def remarks (line : Str) : List Str := ((splitOn '#' line).drop 1).map strip

/-- Reads `name: type = value # (const)`. -/
def readStub (line : Str) : Attr :=
  ⟨line.takeWhile (· ≠ ':'), decide ("(C++ static member)".toList ∈ remarks line),
   !(decide ("(const)".toList ∈ remarks line) || decide ("(read-only)".toList ∈ remarks line))⟩

/-- The words with a meaning for `readStub`. -/
def tags : List Str := ["(C++ static member)".toList, "(const)".toList, "(read-only)".toList]

/-- A member can be set if it is not constant and the options do not say otherwise. -/
def attr (o : Options) (m : Member) : Attr :=
  ⟨o.varName m.name, decide ("static".toList ∈ m.type.specifiers),
   !(decide ("const".toList ∈ m.type.specifiers) || decide ("constexpr".toList ∈ m.type.specifiers) ||
     o.readonlyType (print m.type) || o.readonlyName m.name)⟩

/-- The binding of an array of numbers: a getter that gives an array of numpy on the array of the object, with its size. -/
def arrayBinding (nanobind : Bool) (py loc owner type size name doc : Str) : List Str :=
  if nanobind then
    [".def_prop_ro(\"".toList ++ py ++ "\",".toList ++ loc,
     spaces 4 ++ "[](".toList ++ owner ++ " &self) -> nb::ndarray<".toList ++ type ++ ", nb::numpy, nb::shape<".toList ++ size ++ ">, nb::c_contig>".toList,
     spaces 4 ++ "{".toList,
     spaces 8 ++ "return self.".toList ++ name ++ ";".toList,
     spaces 4 ++ "},".toList,
     spaces 4 ++ "\"".toList ++ doc ++ "\")".toList]
  else
    [".def_property(\"".toList ++ py ++ "\",".toList ++ loc,
     spaces 4 ++ "[](".toList ++ owner ++ " &self) -> pybind11::array".toList,
     spaces 4 ++ "{".toList,
     spaces 8 ++ "auto dtype = pybind11::dtype(pybind11::format_descriptor<".toList ++ type ++ ">::format());".toList,
     spaces 8 ++ "auto base = pybind11::array(dtype, {".toList ++ size ++ "}, {sizeof(".toList ++ type ++ ")});".toList,
     spaces 8 ++ "return pybind11::array(dtype, {".toList ++ size ++ "}, {sizeof(".toList ++ type ++ ")}, self.".toList ++ name ++ ", base);".toList,
     spaces 4 ++ "}, [](".toList ++ owner ++ "& self) {},".toList,
     spaces 4 ++ "\"".toList ++ doc ++ "\")".toList]

/-- There is a pointer to the member: it is neither a bit field nor a reference; an array is an array of numbers with a known size, that the
options accept. -/
def bindable (o : Options) (m : Member) : Bool :=
  decide (m.bitfield = []) && decide ("&".toList ∉ m.type.modifiers) && decide ("&&".toList ∉ m.type.modifiers) &&
  (decide (m.arrayCode = []) ||
    (m.arraySize.isSome && decide (print m.type ∈ o.numericTypes) && o.replaceArray m.name))

/-- The options exclude the member. -/
def excluded (o : Options) (className : Str) (m : Member) : Bool :=
  o.excludeNameClass className m.name || o.excludeName m.name || o.excludeType (print m.type) ||
  (decide (m.arrayCode = []) && o.excludeTpl m.type)

/-! ### Classes -/

/-- A text between quotes. -/
def quoted (s : Str) : Str := "\"".toList ++ s ++ "\"".toList

/-- The statement that declares a class, `auto var = lib::class_<args> (call);`, without its end. -/
def classHead (lib ind var : Str) (args : List Str) (loc : Str) (call : List Str) : List Str :=
  ["auto ".toList ++ var ++ " =".toList,
   ind ++ lib ++ "::class_<".toList ++ join ", ".toList args ++ ">".toList ++ loc,
   ind ++ ind ++ "(".toList ++ join ", ".toList call ++ ")".toList]

/-- The access of a base class in C++: without a specifier, `class` means private and `struct` means public. -/
def access (isClass : Bool) (specifier : Str) : Option Access :=
  if specifier = "public".toList then some .public_
  else if specifier = "protected".toList then some .protected_
  else if specifier = "private".toList then some .private_
  else if specifier = [] then some (if isClass then .private_ else .public_)
  else none

/-- The bases that a binding can convert to: the public ones. -/
def publicBases (c : Class) : List Base := c.bases.filter (fun b => decide (access c.isClass b.specifier = some .public_))

/-- The scope of a name, `A::B::name`. -/
def inScope (scope name : Str) : Str := if scope = [] then name else scope ++ "::".toList ++ name

/-- The name of a class in C++. -/
def className (c : Class) : Str := inScope c.scope c.name ++ c.specialization

/-- The holder of a class: an object whose destructor is private is never deleted; otherwise the options ask for a shared pointer or for nothing.
Only pybind11 has holders. -/
def holder (o : Options) (c : Class) : Option Str :=
  if o.nanobind then none
  else if c.specials.any (fun s => !s.isCtor && decide (s.access = .private_)) then
    some ("std::unique_ptr<".toList ++ className c ++ ", py::nodelete>".toList)
  else if o.heldAsShared c.name then some ("std::shared_ptr<".toList ++ className c ++ ">".toList)
  else none

/-- The arguments of `class_` after the class, in any order: its bases, its trampoline, its holder. -/
def classArgs (o : Options) (c : Class) : List Str :=
  (if c.customPydef ≠ [] then c.customPydef else (publicBases c).map (·.cppName)) ++
  (if c.overridden then [inScope c.scope (c.name ++ "_trampoline".toList)] else []) ++ (holder o c).toList

/-- The arguments of the constructor of `class_`: where the class is put, its name, `is_final`, `dynamic_attr`, its docstring. -/
def classCall (lib : Str) (c : Class) (dynamic : Bool) (doc : Str) : List Str :=
  [c.parentVar, quoted c.pyName] ++ (if c.isFinal then [lib ++ "::is_final()".toList] else []) ++
  (if dynamic then [lib ++ "::dynamic_attr()".toList] else []) ++ [quoted doc]

/-- The assignment of the member `x` in a constructor with named arguments: an optional argument falls back to the default value. -/
def setLines (ind : Str) (optional : Bool) (x default : Str) : List Str :=
  if optional then
    ["if (".toList ++ x ++ ".has_value())".toList, ind ++ "r_ctor_->".toList ++ x ++ " = ".toList ++ x ++ ".value();".toList,
     "else".toList, ind ++ "r_ctor_->".toList ++ x ++ " = ".toList ++ default ++ ";".toList]
  else ["r_ctor_->".toList ++ x ++ " = ".toList ++ x ++ ";".toList]

/-- The constructor with named arguments: it makes an object, assigns the members, and gives the object to the library. -/
def namedLines (nanobind : Bool) (ind cls : Str) (params sets pyargs : List Str) : List Str :=
  if nanobind then
    [".def(\"__init__\", [](".toList ++ join ", ".toList params ++ ")".toList,
     "{".toList,
     ind ++ "new (self) ".toList ++ cls ++ "();  // placement new".toList,
     ind ++ "auto r_ctor_ = self;".toList] ++ sets.map (ind ++ ·) ++
    ["},".toList,
     join ", ".toList pyargs,
     ")".toList]
  else
    [".def(py::init<>([](".toList,
     join ", ".toList params ++ ")".toList,
     "{".toList,
     ind ++ "auto r_ctor_ = std::make_unique<".toList ++ cls ++ ">();".toList] ++ sets.map (ind ++ ·) ++
    [ind ++ "return r_ctor_;".toList,
     "})".toList,
     ", ".toList ++ join ", ".toList pyargs,
     ")".toList]

/-- The binding of `copy.copy` or of `copy.deepcopy`: a lambda that calls the copy constructor. -/
def copyLines (lib ind cls : Str) (deep : Bool) : List Str :=
  if deep then
    [".def(\"__deepcopy__\",  [](const ".toList ++ cls ++ " &self, ".toList ++ lib ++ "::dict) {".toList,
     ind ++ "return ".toList ++ cls ++ "(self);".toList,
     "}, ".toList ++ lib ++ "::arg(\"memo\"))".toList]
  else
    [".def(\"__copy__\",  [](const ".toList ++ cls ++ " &self) {".toList,
     ind ++ "return ".toList ++ cls ++ "(self);".toList,
     "})".toList]

/-- The binding of an iterable class. -/
def iterableLines (nanobind : Bool) (cls : Str) : List Str :=
  (if nanobind then
    [".def(\"__iter__\", [](const ".toList ++ cls ++ " &v) {".toList,
     "        return nb::make_iterator(nb::type<".toList ++ cls ++ ">(), \"iterator\", v.begin(), v.end());".toList,
     "    }, nb::keep_alive<0, 1>())".toList]
  else
    [".def(\"__iter__\", [](const ".toList ++ cls ++
      " &v) { return py::make_iterator(v.begin(), v.end()); }, py::keep_alive<0, 1>())".toList]) ++
  [".def(\"__len__\", [](const ".toList ++ cls ++ " &v) { return v.size(); })".toList]

/-! ### Copies -/

/-- The type is the class itself, in the class or with its scope. -/
def isOwn (c : Class) (t : CppType) : Bool := decide (t.typenames = [c.name]) || decide (t.typenames = [inScope c.scope c.name])

/-- A constructor from one object of the class: `Foo(const Foo&)`, `Foo(Foo&)`, `Foo(Foo&&)`; other parameters have default values. -/
def fromOwn (c : Class) (s : Special) : Bool :=
  s.isCtor && match s.params with
    | [] => false
    | p :: r => isOwn c p.type && (decide (p.type.modifiers = ["&".toList]) || decide (p.type.modifiers = ["&&".toList])) &&
      r.all (fun q => decide (q.default ≠ []))

/-- Such a constructor accepts a constant object. -/
def fromConst (s : Special) : Bool :=
  match s.params with
  | [] => false
  | p :: _ => decide ("const".toList ∈ p.type.specifiers) && decide (p.type.modifiers = ["&".toList])

/-- Python can copy an object: one of the constructors that accept a constant object of the class can be called; or there is the implicit copy
constructor, which no constructor from an object of the class replaces. -/
def copyable (c : Class) : Bool :=
  let own := c.specials.filter (fromOwn c)
  decide (own = []) || (decide (own.filter fromConst ≠ []) &&
    (own.filter fromConst).all (fun s => decide (s.access = .public_) && decide ("delete".toList ∉ s.specifiers)))

/-- The remark on copies in the docstring. -/
def copyRemark (copy deep : Bool) : Str :=
  match copy, deep with
  | false, false => []
  | true, false => "(has support for copy.copy)".toList
  | false, true => "(has support for copy.deepcopy)".toList
  | true, true => "(has support for copy.copy and copy.deepcopy)".toList

/-! ### Stub -/

/-- The line that declares a class in Python. -/
def stubTitle (name : Str) (bases : List Str) : Str :=
  "class ".toList ++ name ++ (if bases = [] then [] else "(".toList ++ join ", ".toList bases ++ ")".toList) ++ ":".toList

/-- A line of Python with a statement: it is neither blank nor a comment. -/
def Statement (l : Str) : Prop := ∃ w c r, l = w ++ c :: r ∧ (∀ x ∈ w, isSpace x = true) ∧ isSpace c = false ∧ c ≠ '#'

/-- A line inside a block: it is empty, or it starts with the indentation. -/
def Inside (ind l : Str) : Prop := l = [] ∨ ∃ t, l = ind ++ t

/-! ### Contents -/

/-- A text without its blanks. -/
def ink (s : Str) : Str := s.filter (fun c => !isSpace c)

/-- The options want a constructor with named arguments, and the class can be destroyed. -/
def wantsNamed (o : Options) (c : Class) : Bool :=
  (if c.isClass then o.classNamedCtor else o.structNamedCtor) c.name && !c.specials.any (fun s => !s.isCtor && decide (s.access = .private_))

/-- Where the constructor of a class comes from: it is written in the class, it is implicit, or it is made from the members. -/
inductive Ctor where
  | written
  | implicit
  | named
deriving DecidableEq

def ctor (o : Options) (c : Class) : Ctor :=
  if c.specials.any (·.isCtor) then .written else if wantsNamed o c && decide (c.named.params ≠ []) then .named else .implicit

/-- What the stub adds for the constructor. -/
def ctorStub (o : Options) (c : Class) : List Str :=
  if ctor o c = .written then []
  else if wantsNamed o c then c.named.stub
  else ["def __init__(self) -> None:".toList, "    \"\"\"Autogenerated default constructor\"\"\"".toList, "    pass".toList]

end Verif.Cls.Spec
