import Verif.Adapt.Model

/-! Model of the text of the return statement of `adapt_modifiable_immutable_to_return`. -/

namespace Verif.Adapt
open Verif.Py

/-- `/repo/src/litgen/internal/adapt_function_params/adapt_modifiable_immutable_to_return.py:196-227`
`new_return_type_and_names`: the new return type and the returned expression. `outs` are the types and the names of the
returned parameters. `none` stands for the failed assertion. The branch at line 203 is not reachable after it. -/
def returnText (withResult : Bool) (resultType : Str) (outs : List (Str × Str)) : Option (Str × Str) :=
  if (if withResult then 1 else 0) + outs.length = 0 then none
  else if (if withResult then 1 else 0) + outs.length > 1 then
    some ("std::tuple<".toList ++ join ", ".toList ((if withResult then [resultType] else []) ++ outs.map (·.1)) ++ ">".toList,
      "std::make_tuple(".toList ++ join ", ".toList ((if withResult then [['r']] else []) ++ outs.map (·.2)) ++ ")".toList)
  else
    match (if withResult then [resultType] else []) ++ outs.map (·.1), (if withResult then [['r']] else []) ++ outs.map (·.2) with
    | t :: _, n :: _ => some (t, n)
    | _, _ => none

end Verif.Adapt
