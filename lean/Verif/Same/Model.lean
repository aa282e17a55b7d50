import Verif.Indent.Model
import Verif.Space.Model

/-! Model of the comparison of two codes, `/repo/src/codemanip/code_utils.py`: the functions by which the tests of the project compare a generated
code with the expected one. What is logged when the codes differ is not modelled. -/

namespace Verif.Same
open Verif.Py

/-- `/repo/src/codemanip/code_utils.py:622-623`, the code that is compared. -/
def processed (code : Str) : Str := Lines.stripEmptyLines (Indent.unindentCode code)

/-- `/repo/src/codemanip/code_utils.py:620-647` `assert_are_codes_equal`: whether no `AssertionError` is raised. -/
def codesEqual (generated expected : Str) : Bool := processed generated == processed expected

/-- `/repo/src/codemanip/code_utils.py:590-617` `assert_are_equal_ignore_spaces`: whether no `AssertionError` is raised. -/
def equalIgnoreSpaces (generated expected : Str) : Bool := Space.removeRedundantSpaces generated == Space.removeRedundantSpaces expected

end Verif.Same
