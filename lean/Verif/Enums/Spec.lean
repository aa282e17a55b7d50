import Verif.Enums.Model
import Verif.Keyword.Spec
import Verif.Escape.Spec

/-! What the binding of an enumeration has to look like. -/

namespace Verif.Enums.Spec
open Verif.Py Verif.Name

/-- The member is taken for the number of members: it is named like a size and, in a C enumeration, one of the words of its name (between
underscores) is the name of the enumeration, whatever the case of the letters. -/
def Counts (o : Options) (e : EnumDecl) (value : Str) : Prop :=
  o.skipCount = true ∧ o.isSize value = true ∧ (e.isClass = true ∨ lower e.name ∈ splitOn '_' (lower value))

instance (o : Options) (e : EnumDecl) (value : Str) : Decidable (Counts o e value) := inferInstanceAs (Decidable (_ ∧ _))

/-- One bound value: the name in Python, the C++ expression, the comment. -/
structure Entry where
  python : Str
  cpp : Str
  comment : Str

/-- The call that binds it. -/
def Entry.line (en : Entry) : Str :=
  ".value(\"".toList ++ en.python ++ "\", ".toList ++ en.cpp ++ ", \"".toList ++ en.comment ++ "\")".toList

/-- The C++ name of a value: the values of an `enum class` are inside the enumeration, those of a C enumeration are beside it. -/
def valueName (e : EnumDecl) (value : Str) : Str :=
  join "::".toList (e.scope ++ (if e.isClass then [e.name] else []) ++ [value])

/-- The entry binds the member. -/
def Binds (o : Options) (e : EnumDecl) (m : Member) (en : Entry) : Prop :=
  Keyword.memberName o.names e.isClass e.name m.name = some en.python ∧ en.cpp = valueName e m.name ∧ en.comment = m.comment

/-- Names, scopes and comments as they come out of the parser; the replacements of the options keep identifiers. -/
structure WellFormed (o : Options) (e : EnumDecl) : Prop where
  name : Keyword.Spec.Identifier e.name
  python : '\n' ∉ Keyword.enumName o.names e.name
  scope : ∀ s ∈ e.scope, Keyword.Spec.Identifier s
  members : ∀ m ∈ e.members, Keyword.Spec.Identifier m.name ∧ Escape.Spec.LiteralBody m.comment
  comment : Escape.Spec.LiteralBody e.comment
  location : '\n' ∉ e.location ∧ ∀ c ∈ e.location.getLast?, isSpace c = false
  parent : '\n' ∉ e.parentVar
  vars : ∀ s, Keyword.Spec.Identifier s → Keyword.Spec.Identifier (Repl.apply o.names.sub o.names.vars s)
  reserved : ∀ s, ¬ Keyword.Spec.Reserved s → ¬ Keyword.Spec.Reserved (Repl.apply o.names.sub o.names.vars s)
  indent : ∀ c ∈ o.indent, c = ' '

end Verif.Enums.Spec
