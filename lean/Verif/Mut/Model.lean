import Verif.Re.Model
import Verif.Scope.Model

/-! Model of the detection of mutable default values: `/repo/src/srcmlcpp/cpp_types/functions/cpp_parameter.py:19-166` and `:253-262`,
`/repo/src/litgen/internal/adapt_function_params/_adapt_mutable_param_with_default_value.py:55-97`. `\d` means the ASCII digits. -/

namespace Verif.Mut
open Verif.Py Verif.Re

/-! ### The patterns -/

/-- `[...]` -/
def oneOf (s : Str) : Re := .set false (s.map .one)

/-- `r?` -/
def maybe (r : Re) : Re := .alt r .eps

/-- `r*` -/
def many (r : Re) : Re := .star true r

/-- `r+` -/
def many1 (r : Re) : Re := .seq r (many r)

/-- `\d` -/
def digit : Re := .set false [.digit false]

/-- `[\da-fA-F]` -/
def hexDigit : Re := .set false [.digit false, .range 'a' 'f', .range 'A' 'F']

/-- `[1-9]` -/
def digit19 : Re := .set false [.range '1' '9']

/-- `[0-7]` -/
def digit07 : Re := .set false [.range '0' '7']

/-- `/repo/src/srcmlcpp/cpp_types/functions/cpp_parameter.py:26-30`: `\d+\.\d*|\.\d+|\d+` -/
def reBody : Re :=
  .alt (.seq (many1 digit) (.seq (.chr '.') (many digit))) (.alt (.seq (.chr '.') (many1 digit)) (many1 digit))

/-- `/repo/src/srcmlcpp/cpp_types/functions/cpp_parameter.py:31`: `(?:[eE][+-]?\d+)?` -/
def reExp : Re := maybe (.seq (oneOf "eE".toList) (.seq (maybe (oneOf "+-".toList)) (many1 digit)))

/-- `/repo/src/srcmlcpp/cpp_types/functions/cpp_parameter.py:21-36`: floating point literals; `match` begins at the start of the text. -/
def reFloat : Re := .seq (maybe (.chr '-')) (.seq reBody (.seq reExp (.seq (maybe (oneOf "fFdDlL".toList)) .atEnd)))

/-- `/repo/src/srcmlcpp/cpp_types/functions/cpp_parameter.py:42-48` -/
def reIntBody : Re :=
  .alt (.seq (.chr '0') (.seq (oneOf "xX".toList) (many1 hexDigit)))
    (.alt (.seq (.chr '0') (.seq (oneOf "bB".toList) (many1 (oneOf "01".toList))))
      (.alt (.seq (.chr '0') (.seq (oneOf "oO".toList) (many1 digit07)))
        (.alt (.seq digit19 (many digit)) (.chr '0'))))

/-- `/repo/src/srcmlcpp/cpp_types/functions/cpp_parameter.py:37-53`: integer literals. -/
def reInt : Re := .seq (maybe (.chr '-')) (.seq reIntBody (.seq (many (oneOf "uUlL".toList)) .atEnd))

/-- `/repo/src/srcmlcpp/cpp_types/functions/cpp_parameter.py:54`: `^".*"$` -/
def reString : Re := .seq (.chr '"') (.seq (many .any) (.seq (.chr '"') .atEnd))

/-- `/repo/src/srcmlcpp/cpp_types/functions/cpp_parameter.py:55`: `^'.{1,2}'$` -/
def reChar : Re := .seq (.chr '\'') (.seq .any (.seq (maybe .any) (.seq (.chr '\'') .atEnd)))

/-- `/repo/src/srcmlcpp/cpp_types/functions/cpp_parameter.py:20-56` `_IMMUTABLE_VALUES_PATTERNS` -/
def patterns : List Re := [reFloat, reInt, reString, reChar]

/-- `pattern.match(s)` is not `None`. -/
def matchesStart (u : Char → Bool) (r : Re) (s : Str) : Bool := (matchAt u r none s).isSome

/-- `/repo/src/srcmlcpp/cpp_types/functions/cpp_parameter.py:58` `_IMMUTABLE_VALUES_KEYWORDS` -/
def keywords : List Str :=
  ["nullptr".toList, "NULL".toList, "true".toList, "false".toList, "TRUE".toList, "FALSE".toList, "nullopt".toList, "std::nullopt".toList]

/-- `/repo/src/srcmlcpp/cpp_types/functions/cpp_parameter.py:61-110` `_BASE_IMMUTABLE_TYPES` -/
def baseTypes : List Str :=
  ["int".toList, "signed int".toList, "unsigned int".toList, "char".toList, "signed char".toList, "unsigned char".toList, "long".toList,
   "signed long".toList, "unsigned long".toList, "long long".toList, "signed long long".toList, "unsigned long long".toList, "short".toList,
   "signed short".toList, "unsigned short".toList, "float".toList, "double".toList, "long double".toList, "float32_t".toList, "float64_t".toList,
   "float128_t".toList, "bool".toList, "std::string".toList, "std::string_view".toList, "std::wstring".toList, "std::u16string".toList,
   "std::u32string".toList, "std::byte".toList, "int8_t".toList, "int16_t".toList, "int32_t".toList, "int64_t".toList, "uint8_t".toList,
   "uint16_t".toList, "uint32_t".toList, "uint64_t".toList, "intptr_t".toList, "uintptr_t".toList, "size_t".toList, "ssize_t".toList,
   "std::size_t".toList]

/-! ### The default value -/

/-- `/repo/src/srcmlcpp/cpp_types/functions/cpp_parameter.py:150-156` `try_extract_type` -/
def extractType (s : Str) : Option Str :=
  let r := if '(' ∈ s then some (s.takeWhile (fun c => c != '(')) else none
  if '{' ∈ s then some (s.takeWhile (fun c => c != '{')) else r

/-- `/repo/src/srcmlcpp/cpp_types/functions/cpp_parameter.py:113-166` `_looks_like_mutable_default_value`; a function that is `None` is one that says no. -/
def looksMutable (u : Char → Bool) (immutableType immutableValue : Str → Bool) (value : Str) : Bool :=
  let s := strip value
  if immutableValue s then false
  else if patterns.any (fun r => matchesStart u r s) then false
  else if s ∈ keywords then false
  else match extractType s with
    | none => true
    | some t => if t ∈ baseTypes then false else !immutableType t

/-- `/repo/src/srcmlcpp/cpp_types/functions/cpp_parameter.py:253-262`: the end of `seems_mutable_param_with_default_value` (the rest is in
`Verif.Adapt`); `type` is `cpp_type.str_code()`. -/
def seemsMutable (u : Char → Bool) (immutableType immutableValue : Str → Bool) (type value : Str) : Bool :=
  if type ∈ baseTypes then false
  else if immutableType type then false
  else looksMutable u immutableType immutableValue value

/-! ### Enumerations -/

/-- `/repo/src/litgen/internal/adapt_function_params/_adapt_mutable_param_with_default_value.py:55-69` `_can_access_enum_with_type`; `enum_` is
`cpp_enum.cpp_scope_str(include_self=True)`. -/
def canAccess (scope : Scope.CppScope) (type enum_ : Str) : Bool :=
  let type := type.dropWhile (fun c => c == ':')
  (Scope.scopeHierarchyList scope).any (fun s => Scope.qualifiedName s type == enum_)

/-- `/repo/src/litgen/internal/adapt_function_params/_adapt_mutable_param_with_default_value.py:90-95` `_fn_immutables_types`; `enums` are the
enumerations that are known so far, `user` is the function of the options. -/
def immutableType (enums : List Str) (scope : Scope.CppScope) (user : Str → Bool) (type : Str) : Bool :=
  enums.any (canAccess scope type) || user type

end Verif.Mut
