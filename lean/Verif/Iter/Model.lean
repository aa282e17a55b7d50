import Verif.Py.Str

/-! Model of `/repo/src/litgen/internal/class_iterable_info.py`: which classes are iterable, and the type of their items. -/

namespace Verif.Iter
open Verif.Py

/-- `/repo/src/litgen/internal/class_iterable_info.py:8-11` `_ClassIterableInfo`. `python_class_name__regex` is given by the names that it matches
(`does_match_regex_or_matcher`). -/
structure Info where
  matches_ : Str → Bool
  type : Str

/-- `/repo/src/litgen/internal/class_iterable_info.py:20-24` `is_class_iterable`. -/
def isClassIterable : List Info → Str → Bool
  | [], _ => false
  | i :: is, name => if i.matches_ name then true else isClassIterable is name

/-- `/repo/src/litgen/internal/class_iterable_info.py:28-31`, the loop of `python_iterable_type`. -/
def firstType : List Info → Str → Str
  | [], _ => []
  | i :: is, name => if i.matches_ name then i.type else firstType is name

/-- `/repo/src/litgen/internal/class_iterable_info.py:26-31` `python_iterable_type`: `none` if the `assert` fails. -/
def pythonIterableType (is : List Info) (name : Str) : Option Str :=
  if isClassIterable is name then some (firstType is name) else none

/-- `/repo/src/litgen/internal/class_iterable_info.py:33-34` `add_iterable_class`. -/
def addIterableClass (is : List Info) (regex : Str → Bool) (type : Str) : List Info := is ++ [⟨regex, type⟩]

/-- The options after some calls of `add_iterable_class`, the first call first: `/repo/src/litgen/internal/class_iterable_info.py:17-18` (no class)
and 33-34. -/
def afterCalls (calls : List ((Str → Bool) × Str)) : List Info := calls.foldl (fun is c => addIterableClass is c.1 c.2) []

end Verif.Iter
