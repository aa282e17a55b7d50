import Verif.Fn.Model
import Verif.Glue.Model
import Verif.Overload.Model

/-! Model of the binding and of the stub of a class and of its data members, in
`/repo/src/litgen/internal/adapted_types/adapted_class.py`, for a class that is not a template.

Simplifications: as in `Verif.Fn`, the conversions of names, types and values are parameters (`Fn.Options`; those that depend on a scope are
the ones of the scope of the class). The code of the functions, enumerations and inner classes of a class is given (`Child`); what the named
constructor becomes after srcML and the adapters is given (`NamedCtor`). A regex option is the function that tells whether it matches. -/

namespace Verif.Cls
open Verif.Py Verif.Type Verif.Adapt

/-- The options that matter for a class, besides those of the functions. -/
structure Options extends Fn.Options where
  /-- `python_reproduce_cpp_layout` -/
  reproduceLayout : Bool
  /-- `_member_numeric_c_array_types_list()` -/
  numericTypes : List Str
  /-- `member_numeric_c_array_replace__regex` -/
  replaceArray : Str → Bool
  /-- `member_readonly_by_type__regex`, `member_readonly_by_name__regex` -/
  readonlyType : Str → Bool
  readonlyName : Str → Bool
  /-- `member_exclude_by_name_and_class__regex`: the class, then the member -/
  excludeNameClass : Str → Str → Bool
  excludeName : Str → Bool
  excludeType : Str → Bool
  /-- `class_template_options.shall_exclude_type` -/
  excludeTpl : CppType → Bool
  /-- `class_create_default_named_ctor__regex`, `struct_create_default_named_ctor__regex` -/
  classNamedCtor : Str → Bool
  structNamedCtor : Str → Bool
  /-- `class_copy__regex`, `class_deep_copy__regex`, `class_copy_add_info_in_stub` -/
  copy : Str → Bool
  deepCopy : Str → Bool
  copyInfo : Bool
  /-- `class_dynamic_attributes__regex`, `class_held_as_shared__regex` -/
  dynamicAttributes : Str → Bool
  heldAsShared : Str → Bool
  /-- `class_iterables_infos`, by the Python name of a class: the type of its items -/
  iterable : Str → Option Str

/-! ### Data members -/

/-- A data member: `CppDecl` with `c_array_size_as_int()`, its comments, its place in the source (shown with `original_location_flag_show`) and
`_elm_stub_original_code_lines_info()`. -/
structure Member where
  type : CppType
  name : Str
  init : Str
  arrayCode : Str
  arraySize : Option Nat
  bitfield : Str
  previous : Str
  eol : Str
  location : Option (Str × Str)
  original : List Str
deriving DecidableEq

/-- `/repo/src/srcmlcpp/cpp_types/decls_types/cpp_decl.py:168-178` `c_array_size_as_str`, for an array. -/
def arraySizeStr (m : Member) : Str := ((m.arrayCode.dropWhile (· ≠ '[')).drop 1).dropLast

/-- `/repo/src/srcmlcpp/cpp_types/decls_types/cpp_decl.py:228-238` `is_c_array_fixed_size_unparsable` -/
def sizeUnparsable (m : Member) : Bool :=
  if m.arrayCode = [] then false else decide ((strip (arraySizeStr m)).length > 0) && m.arraySize.isNone

/-- `/repo/src/litgen/internal/adapted_types/adapted_class.py:72-88` `_is_numeric_c_array` -/
def isNumericArray (o : Options) (m : Member) : Bool :=
  if print m.type ∉ o.numericTypes then false
  else if !o.replaceArray m.name then false
  else if m.arraySize.isNone then false
  else true

/-- `/repo/src/litgen/internal/adapted_types/adapted_class.py:90-128` `_check_can_add_c_array_known_fixed_size`, without its warnings. -/
def canAddArray (o : Options) (m : Member) : Bool :=
  if print m.type ∉ o.numericTypes then false
  else if !o.replaceArray m.name then false
  else if m.arraySize.isNone then false
  else true

/-- `/repo/src/litgen/internal/adapted_types/adapted_class.py:130-154` `check_can_publish` -/
def canPublish (o : Options) (m : Member) : Bool :=
  if m.bitfield.length > 0 then false
  else if sizeUnparsable m then false
  else if m.arraySize.isSome then canAddArray o m
  else if o.excludeTpl m.type then false
  else true

/-- `/repo/src/litgen/internal/adapted_types/adapted_class.py:400-416` `_init_add_adapted_class_member`: the members that are published. -/
def published (o : Options) (className : Str) (ms : List Member) : List Member :=
  ms.filter (fun m => !o.excludeNameClass className m.name && !o.excludeName m.name && !o.excludeType (print m.type) && canPublish o m)

/-- `/repo/src/srcmlcpp/cpp_types/base/cpp_element_comments.py:111-115` `full_comment` -/
def fullComment (previous eol : Str) : Str :=
  if previous ≠ [] ∧ eol ≠ [] then previous ++ "\n\n".toList ++ eol else previous ++ eol

/-- `/repo/src/litgen/internal/cpp_to_python.py:42-46` `comment_pydef_one_line` -/
def docOneLine (o : Options) (comment : Str) : Str :=
  Fn.applyCommentReplacements o.toOptions
    (Escape.formatCppCommentOnOneLine (some (Fn.applyCommentReplacements o.toOptions comment)))

/-- `/repo/src/litgen/internal/cpp_to_python.py:537-553` `info_original_location` -/
def locationText (o : Options) (l : Option (Str × Str)) (token : Str) : Str :=
  match l with
  | none => []
  | some (file, line) => o.indent ++ token ++ " ".toList ++ file ++ ":".toList ++ line

/-- `/repo/src/litgen/internal/cpp_to_python.py:593-600` `comment_python_shall_place_at_end_of_line` -/
def commentAtEnd (o : Options) (previous eol : Str) : Bool :=
  if !o.reproduceLayout then false
  else decide ((Fn.applyCommentReplacements o.toOptions eol).length > 0) &&
    decide ((Fn.applyCommentReplacements o.toOptions previous).length = 0)

/-- `/repo/src/litgen/internal/cpp_to_python.py:603-609` `comment_python_end_of_line` -/
def endComment (o : Options) (eol : Str) : Str :=
  let c := Fn.applyCommentReplacements o.toOptions eol
  if c.length > 0 then "  #".toList ++ c else []

/-- `/repo/src/litgen/internal/cpp_to_python.py:612-637` `comment_python_previous_lines` -/
def previousLines (o : Options) (comment : Str) : List Str :=
  let c := Fn.applyCommentReplacements o.toOptions comment
  if c.length = 0 then []
  else ((lines c).map (fun s => if o.reproduceLayout then "#".toList ++ s else "# ".toList ++ lstrip s)).map rstrip

/-- `/repo/src/litgen/internal/adapted_types/adapted_decl.py:38-45` `AdaptedDecl.decl_value_python`; `none` is the exception of a type without
name. -/
def declValue (o : Options) (m : Member) : Option Str :=
  let v := strip m.init
  if startsWith v "{".toList && endsWith v "}".toList then
    m.type.typenames.head?.map (fun t => o.valuePy (t ++ "(".toList ++ (v.drop 1).dropLast ++ ")".toList))
  else some (o.valuePy v)

/-- `/repo/src/litgen/internal/adapted_types/adapted_class.py:161-165` `decl_type_python` -/
def typePython (o : Options) (m : Member) : Str :=
  if isNumericArray o m then "np.ndarray".toList else o.qualify (o.typePy (print m.type))

/-- `/repo/src/litgen/internal/adapted_types/adapted_class.py:167-171` `decl_value_python` -/
def valuePython (o : Options) (m : Member) : Option Str :=
  if isNumericArray o m then some [] else (declValue o m).map o.qualify

/-- `/repo/src/litgen/internal/adapted_types/adapted_class.py:173-185` `comment_array` -/
def arrayComment (o : Options) (m : Member) : Option Str :=
  if isNumericArray o m then
    (declValue o m).map (fun v =>
      "  # ndarray[type=".toList ++ print m.type ++ ", size=".toList ++ (toString (m.arraySize.getD 0)).toList ++ "]".toList ++
      (if v.length > 0 then " default:".toList ++ v else []))
  else some []

/-- `/repo/src/srcmlcpp/cpp_types/decls_types/cpp_type.py:133-134, 139-140` `is_const`, `is_static` -/
def isConst (t : CppType) : Bool := decide ("const".toList ∈ t.specifiers) || decide ("constexpr".toList ∈ t.specifiers)
def isStatic (t : CppType) : Bool := decide ("static".toList ∈ t.specifiers)

/-- `/repo/src/litgen/internal/adapted_types/adapted_class.py:225-235` `_is_published_readonly` -/
def isReadonly (o : Options) (m : Member) : Bool :=
  isConst m.type || o.readonlyType (print m.type) || o.readonlyName m.name

/-- `/repo/src/litgen/internal/adapted_types/adapted_class.py:187-223` `_str_pydef_lines_numeric_array`; `owner` is
`qualified_class_name_with_specialization()` of the class. -/
def arrayLines (o : Options) (owner : Str) (m : Member) : List Str :=
  let loc := locationText o m.location "//".toList
  let py := o.varName m.name
  let doc := docOneLine o (fullComment m.previous m.eol)
  let t := print m.type
  let n := (toString (m.arraySize.getD 0)).toList
  let body := if !o.nanobind then
      [spaces 16 ++ ".def_property(\"".toList ++ py ++ "\",".toList ++ loc,
       spaces 20 ++ "[](".toList ++ owner ++ " &self) -> pybind11::array".toList,
       spaces 20 ++ "{".toList,
       spaces 24 ++ "auto dtype = pybind11::dtype(pybind11::format_descriptor<".toList ++ t ++ ">::format());".toList,
       spaces 24 ++ "auto base = pybind11::array(dtype, {".toList ++ n ++ "}, {sizeof(".toList ++ t ++ ")});".toList,
       spaces 24 ++ "return pybind11::array(dtype, {".toList ++ n ++ "}, {sizeof(".toList ++ t ++ ")}, self.".toList ++ m.name ++ ", base);".toList,
       spaces 20 ++ "}, [](".toList ++ owner ++ "& self) {},".toList,
       spaces 20 ++ "\"".toList ++ doc ++ "\")".toList]
    else
      [spaces 16 ++ ".def_prop_ro(\"".toList ++ py ++ "\",".toList ++ loc,
       spaces 20 ++ "[](".toList ++ owner ++ " &self) -> nb::ndarray<".toList ++ t ++ ", nb::numpy, nb::shape<".toList ++ n ++
         ">, nb::c_contig>".toList,
       spaces 20 ++ "{".toList,
       spaces 24 ++ "return self.".toList ++ m.name ++ ";".toList,
       spaces 20 ++ "},".toList,
       spaces 20 ++ "\"".toList ++ doc ++ "\")".toList]
  lines (Indent.unindentCode (unlines ([[]] ++ body ++ [spaces 16])) true)

/-- `/repo/src/litgen/internal/adapted_types/adapted_class.py:247-251` -/
def definitionMode (o : Options) (m : Member) : Str :=
  (if isReadonly o m then (if !o.nanobind then "def_readonly".toList else "def_ro".toList)
   else (if !o.nanobind then "def_readwrite".toList else "def_rw".toList)) ++
  (if isStatic m.type then "_static".toList else [])

/-- `/repo/src/litgen/internal/adapted_types/adapted_class.py:237-254` `_str_pydef_lines_field` -/
def fieldLines (o : Options) (owner : Str) (m : Member) : List Str :=
  [".".toList ++ definitionMode o m ++ "(\"".toList ++ o.varName m.name ++ "\", &".toList ++ owner ++ "::".toList ++ m.name ++ ", \"".toList ++
   docOneLine o (fullComment m.previous m.eol) ++ "\")".toList ++ locationText o m.location "//".toList]

/-- `/repo/src/litgen/internal/adapted_types/adapted_class.py:306-310` `pydef_lines` -/
def memberPydef (o : Options) (owner : Str) (m : Member) : List Str :=
  if isNumericArray o m then arrayLines o owner m else fieldLines o owner m

/-- `/repo/src/litgen/internal/adapted_types/adapted_class.py:272-277` -/
def isNullPointer (m : Member) : Bool :=
  decide ("*".toList ∈ m.type.modifiers) && (strip m.init = "nullptr".toList || strip m.init = "NULL".toList)

/-- `/repo/src/litgen/internal/adapted_types/adapted_class.py:267-299`: the line that declares the member in the stub. -/
def stubLine (o : Options) (m : Member) : Option Str :=
  (valuePython o m).bind (fun v => (arrayComment o m).map (fun ac =>
    let t := if isNullPointer m then "Optional[".toList ++ typePython o m ++ "]".toList else typePython o m
    let v := if isNullPointer m then "None".toList else v
    o.varName m.name ++ ": ".toList ++ t ++ (if v.length > 0 then " = ".toList ++ v else []) ++ ac ++
    (if commentAtEnd o m.previous m.eol then endComment o m.eol else []) ++
    (if isStatic m.type then " # (C++ static member)".toList else []) ++
    (if isConst m.type then " # (const)".toList else []) ++
    (if isReadonly o m && !isConst m.type then " # (read-only)".toList else []) ++
    locationText o m.location "#".toList))

/-- `/repo/src/litgen/internal/adapted_types/adapted_class.py:261-303` `stub_lines` -/
def memberStub (o : Options) (m : Member) : Option (List Str) :=
  (stubLine o m).map (fun l =>
    m.original ++ (if commentAtEnd o m.previous m.eol then [] else previousLines o (fullComment m.previous m.eol)) ++ [l])

end Verif.Cls
