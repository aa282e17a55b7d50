import Verif.Py.Str

/-! Model of what the construction of an adapted function
(`/repo/src/litgen/internal/adapted_types/adapted_function.py:255-281`) does to the comment at the end of the
line of the C++ function: the request for `# type: ignore` is read and taken out (1331-1341), the note about
an inferred return type is added (277-278).

The comment belongs to the C++ function, which is shared: the next adaptation of the same function starts
from the comment that this one leaves. The rest of the constructor (parameters, policy, name) is modelled in
the part `Fn`; it leaves this comment alone. -/

namespace Verif.Ignore
open Verif.Py

/-- `/repo/src/litgen/internal/adapted_types/adapted_function.py:1332` `token = "type: ignore"` -/
def token : Str := ['t', 'y', 'p', 'e', ':', ' ', 'i', 'g', 'n', 'o', 'r', 'e']

/-- `/repo/src/litgen/internal/adapted_types/adapted_function.py:278` -/
def note : Str :=
  ['\n', '(', 'C', '+', '+', ' ', 'a', 'u', 't', 'o', ' ', 'r', 'e', 't', 'u', 'r', 'n', ' ', 't', 'y', 'p', 'e', ')']

/-- `/repo/src/litgen/internal/adapted_types/adapted_function.py:1331-1341` `_stub_fill_is_type_ignore`:
`is_type_ignore`, which is false before (line 232), and the comment. -/
def fillIsTypeIgnore (eol : Str) : Bool × Str :=
  if contains eol token then
    let eol := lstrip (replace eol token [])
    (true, if startsWith (lstrip eol) ['/', '/'] then (lstrip eol).drop 2 else eol)
  else (false, eol)

/-- `/repo/src/srcmlcpp/cpp_types/functions/cpp_function_decl.py:256-259` `is_inferred_return_type`, on the
type names of the returned type (`none`: there is no returned type). -/
def isInferred (typenames : Option (List Str)) : Bool := typenames == some [['a', 'u', 't', 'o']]

/-- `/repo/src/litgen/internal/adapted_types/adapted_function.py:272-278`: `is_type_ignore` and the comment
of the C++ function after the construction. -/
def adapt (typenames : Option (List Str)) (eol : Str) : Bool × Str :=
  let r := fillIsTypeIgnore eol
  (r.1, if isInferred typenames then r.2 ++ note else r.2)

end Verif.Ignore
