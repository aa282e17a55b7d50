import Verif.Py.Str

/-! Model of `/repo/src/litgen/internal/template_options.py` and of the choice of the template instantiations in
`/repo/src/litgen/internal/adapted_types/adapted_function.py` and `adapted_class.py`. Regular expressions and the parser of
types are parameters: everything is proved for all of them. -/

namespace Verif.Tpl
open Verif.Py

/-- `/repo/src/litgen/internal/template_options.py:18-31` `_apply_template_naming` -/
def typeSuffix (t : Str) : Str :=
  let t := replace t "std::".toList []
  let t := replace t "::".toList "_".toList
  let t := replace t " &&".toList "_uref".toList
  let t := replace t "&&".toList "_uref".toList
  let t := replace t " &".toList "_ref".toList
  let t := replace t "&".toList "_ref".toList
  let t := replace t " *".toList "_ptr".toList
  let t := replace t "*".toList "_ptr".toList
  replace t " ".toList "_".toList

def naming (name t : Str) : Str := name ++ "_".toList ++ typeSuffix t

/-- `/repo/src/litgen/internal/template_options.py:34-37` `CppTypeSynonym` -/
structure Synonym where
  name : Str
  target : Str
deriving DecidableEq

/-- `/repo/src/litgen/internal/template_options.py:40-49` `_make_cpp_type_synonym_list`; `none` is the assertion. -/
def makeSynonym (s : Str) : Option Synonym :=
  match splitOn '=' s with
  | [a, b] => some ⟨a, b⟩
  | _ => none

def makeSynonyms (l : List Str) : Option (List Synonym) := l.mapM makeSynonym

/-- A `CppType`: `" ".join(typenames)`. `str_code()` of the types of the options is compared with that of the arguments, so
types of the options are given by it. -/
structure CppTy where
  joined : Str
deriving DecidableEq

/-- `code_to_cpp_type(options, s).str_code()`, or `none` when it raises. -/
abbrev Parser := Str → Option Str

/-- `/repo/src/srcmlcpp/cpp_types/decls_types/cpp_type.py:151-154` `is_template` -/
def CppTy.isTemplate (t : CppTy) : Bool := '<' ∈ t.joined ∧ '>' ∈ t.joined

/-- `/repo/src/srcmlcpp/cpp_types/decls_types/cpp_type.py:161-166` `template_name` (of a template) -/
def CppTy.templateName (t : CppTy) : Str := t.joined.takeWhile (· ≠ '<')

/-- `/repo/src/srcmlcpp/cpp_types/decls_types/cpp_type.py:186-189`: the text between the first `<` and the last `>` (empty
when the last `>` comes first). -/
def CppTy.argText (t : CppTy) : Str :=
  let start := (t.joined.takeWhile (· ≠ '<')).length
  let end_ := t.joined.length - 1 - (t.joined.reverse.takeWhile (· ≠ '>')).length
  (t.joined.take end_).drop (start + 1)

/-- `/repo/src/srcmlcpp/cpp_types/decls_types/cpp_type.py:168-195` `template_instantiated_unique_type`, as `str_code()` -/
def CppTy.uniqueArg (parse : Parser) (t : CppTy) : Option Str := if t.isTemplate then parse t.argText else none

/-- `/repo/src/litgen/internal/template_options.py:52-57` `_TemplateSpecializationSpec`; the regular expression is given by
the names it matches. -/
structure TSpec where
  matches_ : Str → Bool
  types : List Str
  suffix : Bool
  synonyms : List Synonym

/-- `/repo/src/litgen/internal/template_options.py:63-69` -/
def TSpec.handlesInstantiation (s : TSpec) (t : Str) : Bool := s.types.any (fun h => t = h)

/-- `/repo/src/litgen/internal/template_options.py:71-77` -/
def TSpec.handlesSynonym (s : TSpec) (t : Str) : Bool := s.synonyms.any (fun y => t = y.name)

/-- `/repo/src/litgen/internal/template_options.py:79-89` -/
def TSpec.shallSynonymize (parse : Parser) (s : TSpec) (t : CppTy) : Bool :=
  if !t.isTemplate then false
  else if !s.matches_ t.templateName then false
  else match t.uniqueArg parse with
    | none => false
    | some u => s.handlesSynonym u

/-- `/repo/src/litgen/internal/template_options.py:91-101` -/
def TSpec.shallSpecialize (parse : Parser) (s : TSpec) (t : CppTy) : Bool :=
  if !t.isTemplate then false
  else if !s.matches_ t.templateName then false
  else match t.uniqueArg parse with
    | none => false
    | some u => s.handlesInstantiation u

/-- `/repo/src/litgen/internal/template_options.py:103-123` -/
def TSpec.shallExclude (parse : Parser) (s : TSpec) (t : CppTy) : Bool :=
  if !t.isTemplate then false
  else if !s.matches_ t.templateName then false
  else match t.uniqueArg parse with
    | none => true
    | some u => !s.handlesInstantiation u && !s.handlesSynonym u

/-- `/repo/src/litgen/internal/template_options.py:125-135`, where `repl` is `type_replacements.apply` -/
def TSpec.pythonName (parse : Parser) (repl : Str → Str) (s : TSpec) (t : CppTy) : Option Str :=
  if !s.shallSpecialize parse t && !s.shallSynonymize parse t then none
  else (t.uniqueArg parse).map (fun u => repl (naming t.templateName u))

/-- `/repo/src/litgen/internal/template_options.py:163-169` -/
def shallSpecialize (parse : Parser) (specs : List TSpec) (t : CppTy) : Bool :=
  if !t.isTemplate then false else specs.any (fun s => s.shallSpecialize parse t)

/-- `/repo/src/litgen/internal/template_options.py:171-177` -/
def shallSynonymize (parse : Parser) (specs : List TSpec) (t : CppTy) : Bool :=
  if !t.isTemplate then false else specs.any (fun s => s.shallSynonymize parse t)

/-- `/repo/src/litgen/internal/template_options.py:179-185` -/
def shallExclude (parse : Parser) (specs : List TSpec) (t : CppTy) : Bool :=
  if !t.isTemplate then false else specs.any (fun s => s.shallExclude parse t)

/-- `/repo/src/litgen/internal/template_options.py:320-326` -/
def pythonName (parse : Parser) (repl : Str → Str) (specs : List TSpec) (t : CppTy) : Option Str :=
  if !shallSpecialize parse specs t && !shallSynonymize parse specs t then none
  else (specs.find? (fun s => s.shallSpecialize parse t || s.shallSynonymize parse t)).bind (fun s => s.pythonName parse repl t)

/-- `/repo/src/litgen/internal/template_options.py:225-235` `specialized_function_python_name` -/
def functionPythonName : List TSpec → Str → Str → Option Str
  | [], _, _ => none
  | s :: specs, f, t =>
    if s.matches_ f && (s.handlesInstantiation t || s.handlesSynonym t) then
      (if s.suffix then some (naming f t) else some f)
    else functionPythonName specs f t

/-- `/repo/src/litgen/internal/adapted_types/adapted_function.py:1406-1409` and
`/repo/src/litgen/internal/adapted_types/adapted_class.py:993-996`: the loop keeps the last one that matches. -/
def matchingSpec (specs : List TSpec) (name : Str) : Option TSpec :=
  specs.foldl (fun r s => if s.matches_ name then some s else r) none

/-- `/repo/src/litgen/internal/adapted_types/adapted_function.py:1403-1431` and
`/repo/src/litgen/internal/adapted_types/adapted_class.py:990-1015` `_tpl_split_into_template_instantiations`: the types for
which the template `name` is instantiated. -/
def instantiations (specs : List TSpec) (name : Str) (nbParams : Nat) : List Str :=
  match matchingSpec specs name with
  | none => []
  | some s => if nbParams ≠ 1 && s.types.length > 0 then [] else s.types

/-- `/repo/src/litgen/internal/adapted_types/adapted_function.py:1425-1431` with `:1179-1189`: the Python names of the
instantiations of a function, before the conversion of the case. `none` is the assertion at line 1188. -/
def functionNames (specs : List TSpec) (name : Str) (nbParams : Nat) : Option (List Str) :=
  (instantiations specs name nbParams).mapM (functionPythonName specs name)

end Verif.Tpl
