import Verif.Publish.Model

/-! Specification of the published functions and of the operators. -/

namespace Verif.Publish.Spec
open Verif.Py

/-- `p` is one of the configured API prefixes (separated by `|`). -/
def ApiPrefix (o : Options) (p : Str) : Prop := p ≠ [] ∧ p ∈ splitOn '|' o.apiPrefixes

/-- A function carries one of the API prefixes. -/
def CarriesPrefix (o : Options) (ret : Ty) : Prop := ∃ p, ApiPrefix o p ∧ p ∈ ret.specifiers

/-- The types of the parameters and of the result. -/
def types (f : Func) : List Ty := f.params ++ f.returnType.toList

/-- The conditions of the documentation, but those on the API and on the signature. -/
structure NotExcluded (o : Options) (f : Func) : Prop where
  notDestructor : ¬ ∃ rest, f.name = '~' :: rest
  notDeleted : "delete".toList ∉ f.specifiers
  notOutOfClass : ¬ ∃ a b, f.name = a ++ "::".toList ++ b
  templates : ∀ t ∈ types f, o.excludeTemplateType t = false
  name : o.excludeName f.name = false
  typesAccepted : ∀ t ∈ types f, o.excludeType t.code = false

/-- The types of the parameters, as written in the option `fn_exclude_by_name_and_signature`. -/
def signature (f : Func) : Str := join ", ".toList (f.params.map Ty.code)

/-- The option excludes this overload. -/
def SignatureExcluded (o : Options) (f : Func) : Prop := dictGet o.excludeSignature f.name = some (signature f)

/-- The API condition: only functions with a prefix, when there are prefixes and the others are excluded. -/
def ApiOk (o : Options) (f : Func) : Prop :=
  (∃ p, ApiPrefix o p) → o.excludeNonApi = true → ∃ ret, f.returnType = some ret ∧ CarriesPrefix o ret

/-! ### Python operators -/

/-- The special methods of the Python data model with the C++ spelling of their operator and the number of arguments after
`self`. -/
def pyMethods : List (Str × Str × Nat) :=
  [("__add__".toList, "+".toList, 1), ("__sub__".toList, "-".toList, 1), ("__mul__".toList, "*".toList, 1),
   ("__truediv__".toList, "/".toList, 1), ("__mod__".toList, "%".toList, 1), ("__lshift__".toList, "<<".toList, 1),
   ("__rshift__".toList, ">>".toList, 1), ("__and__".toList, "&".toList, 1), ("__or__".toList, "|".toList, 1),
   ("__xor__".toList, "^".toList, 1), ("__iadd__".toList, "+=".toList, 1), ("__isub__".toList, "-=".toList, 1),
   ("__imul__".toList, "*=".toList, 1), ("__itruediv__".toList, "/=".toList, 1), ("__imod__".toList, "%=".toList, 1),
   ("__ilshift__".toList, "<<=".toList, 1), ("__irshift__".toList, ">>=".toList, 1), ("__iand__".toList, "&=".toList, 1),
   ("__ior__".toList, "|=".toList, 1), ("__ixor__".toList, "^=".toList, 1), ("__lt__".toList, "<".toList, 1),
   ("__le__".toList, "<=".toList, 1), ("__eq__".toList, "==".toList, 1), ("__ne__".toList, "!=".toList, 1),
   ("__gt__".toList, ">".toList, 1), ("__ge__".toList, ">=".toList, 1), ("__getitem__".toList, "[]".toList, 1),
   ("__neg__".toList, "-".toList, 0), ("__pos__".toList, "+".toList, 0), ("__invert__".toList, "~".toList, 0),
   ("__bool__".toList, "bool".toList, 0)]

/-- Operators on the bits. -/
def bitOperators : List Str :=
  ["<<".toList, ">>".toList, "&".toList, "|".toList, "^".toList, "<<=".toList, ">>=".toList, "&=".toList, "|=".toList,
   "^=".toList, "~".toList]

/-- The method is the Python counterpart of the operator: the same symbol and arity. A call operator is callable with any number
of arguments. -/
def Counterpart (method op : Str) (n : Nat) : Prop :=
  (method, op, n) ∈ pyMethods ∨ (method = "__call__".toList ∧ op = "()".toList)

/-- The comparison operators of C++ but `!=`, which Python derives from `==`. -/
def comparisons : List Str := ["<".toList, "<=".toList, "==".toList, ">=".toList, ">".toList]

/-- An identifier, which is not an operator: `operator` followed by a letter, a digit or `_`. -/
def PlainIdentifier (s : Str) : Prop := s ≠ [] ∧ ∀ c ∈ s, c.isAlphanum = true ∨ c = '_'

end Verif.Publish.Spec
