import Verif.Template.Model
import Verif.Indent.Model

/-! Model of the text of the lambdas of the adapters: `/repo/src/litgen/internal/adapt_function_params/apply_all_adapters.py:78-318` and
`/repo/src/litgen/internal/adapt_function_params/adapt_modifiable_immutable_to_return.py:191-277`. The adapters themselves are in `Verif.Adapt`; here the pieces of
code that they give are texts. -/

namespace Verif.Lam
open Verif.Py Verif.Template

/-- What the code of a lambda reads of the adapted function. -/
structure Fn where
  isMethod : Bool
  /-- `function_name_with_specialization()` -/
  name : Str
  /-- `qualified_function_name_with_specialization()` -/
  qualified : Str
  lambdaToCall : Option Str
  /-- `cpp_adapted_function.str_full_return_type()` -/
  ret : Str
  /-- `"&" in cpp_element().return_type.modifiers` -/
  refReturned : Bool
  /-- `cpp_adapter_code` -/
  code : Option Str

/-- `/repo/src/litgen/internal/adapt_function_params/_lambda_adapter.py:7-21` -/
structure Adapter where
  name : Str
  input : Str
  output : Str
  templateEnd : Option Str
  args : List Str
  /-- `new_function_infos.parameter_list.str_code()` -/
  params : Str
  /-- `new_function_infos.str_full_return_type()` -/
  ret : Str

def void_ : Str := "void".toList
def commaSpace : Str := ", ".toList

/-- `/repo/src/litgen/internal/adapt_function_params/apply_all_adapters.py:153-157` -/
def endTemplateRaw : Str :=
  ("\n        {auto_r_equal_or_void}{function_or_lambda_to_call}({adapted_cpp_parameters});\n" ++
  "        {maybe_lambda_output_code}\n        {maybe_return_r};\n    ").toList

/-- `/repo/src/litgen/internal/adapt_function_params/apply_all_adapters.py:158` -/
def endTemplate : Str := Indent.unindentCode endTemplateRaw true

/-- `/repo/src/litgen/internal/adapt_function_params/apply_all_adapters.py:174-178` -/
def autoResult (f : Fn) : Str :=
  if f.ret ≠ void_ then (if f.refReturned then "auto&".toList else "auto".toList) ++ " lambda_result = ".toList else []

/-- `/repo/src/litgen/internal/adapt_function_params/apply_all_adapters.py:181-191`, and `adapt_modifiable_immutable_to_return.py:258-265` -/
def callee (f : Fn) : Str :=
  match f.lambdaToCall with
  | some l => l
  | none => if f.isMethod then "self.".toList ++ f.name else f.qualified

/-- `/repo/src/litgen/internal/adapt_function_params/apply_all_adapters.py:151-223` `_make_adapted_lambda_code_end` -/
def codeEnd (ind : Str) (f : Fn) (a : Adapter) : Str :=
  let maybeReturn := if f.ret = void_ then none else some "return lambda_result".toList
  let maybeOutput := if a.output.length > 0 then some ('\n' :: Lines.stripEmptyLines a.output) else none
  let code := replaceInStringRemoveLineIfNone endTemplate
    [("maybe_return_r".toList, maybeReturn), ("maybe_lambda_output_code".toList, maybeOutput)]
  replaceInString code
    [("_i_".toList, ind), ("auto_r_equal_or_void".toList, autoResult f), ("function_or_lambda_to_call".toList, callee f),
     ("adapted_cpp_parameters".toList, join commaSpace a.args)]

/-- `/repo/src/litgen/internal/adapt_function_params/apply_all_adapters.py:227-233` -/
def lambdaTemplateRaw : Str :=
  ("\n        auto {lambda_name} = [{lambda_captures}]({adapted_python_parameters}){lambda_return_arrow}\n        {\n" ++
  "        {_i_}{maybe_lambda_input_code}\n        {_i_}{lambda_template_end}\n        };\n    ").toList

/-- `/repo/src/litgen/internal/adapt_function_params/apply_all_adapters.py:235` -/
def lambdaTemplate : Str := Indent.unindentCode lambdaTemplateRaw true ++ ['\n']

/-- `/repo/src/litgen/internal/adapt_function_params/apply_all_adapters.py:243-249` -/
def captures (f : Fn) : Str :=
  join commaSpace (match f.lambdaToCall with
    | some l => ['&' :: l]
    | none => if f.isMethod then ["&self".toList] else [])

/-- `/repo/src/litgen/internal/adapt_function_params/apply_all_adapters.py:255-261` -/
def arrow (ret : Str) : Str := if ret = void_ then [] else " -> ".toList ++ ret

/-- `/repo/src/litgen/internal/adapt_function_params/apply_all_adapters.py:226-303` `_make_adapted_lambda_code` -/
def lambdaCode (ind : Str) (f : Fn) (a : Adapter) : Str :=
  let maybeInput := if a.input.length > 0 then some (Indent.indentCode a.input 1 true (some ind)) else none
  let end_ := Indent.indentCode (a.templateEnd.getD (codeEnd ind f a)) 1 true (some ind)
  let code := replaceInStringRemoveLineIfNone lambdaTemplate [("maybe_lambda_input_code".toList, maybeInput)]
  replaceInString code
    [("_i_".toList, ind), ("lambda_name".toList, a.name), ("lambda_captures".toList, captures f), ("lambda_return_arrow".toList, arrow a.ret),
     ("adapted_python_parameters".toList, a.params), ("lambda_template_end".toList, end_)]

/-- `/repo/src/litgen/internal/adapt_function_params/apply_all_adapters.py:306-318` `_apply_lambda_adapter`; the names of the new function are those of the old
one, and `cpp_element()` does not change. -/
def apply (ind : Str) (f : Fn) (a : Adapter) : Fn :=
  { f with
    code := some (match f.code with
      | none => lambdaCode ind f a
      | some c => c ++ lambdaCode ind f a)
    ret := a.ret
    lambdaToCall := some a.name }

/-- `/repo/src/litgen/internal/adapt_function_params/apply_all_adapters.py:65-68`: several adapters. -/
def applyAll (ind : Str) (f : Fn) (l : List Adapter) : Fn := l.foldl (apply ind) f

/-! ### Results -/

/-- `/repo/src/litgen/internal/adapt_function_params/adapt_modifiable_immutable_to_return.py:197-229`: the type and the expression of the result, for the type of
the function (`none`: void), and the types and names of the outputs. -/
def returnOf (old : Option Str) (outs : List (Str × Str)) : Str × Str :=
  let types := (match old with | none => [] | some t => [t]) ++ outs.map Prod.fst
  let names := (match old with | none => [] | some _ => ["r".toList]) ++ outs.map Prod.snd
  if types.length > 1 then
    ("std::tuple<".toList ++ join commaSpace types ++ ">".toList, "std::make_tuple(".toList ++ join commaSpace names ++ ")".toList)
  else (types.headD [], names.headD [])

/-- `/repo/src/litgen/internal/adapt_function_params/adapt_modifiable_immutable_to_return.py:242-246` -/
def returnTemplateRaw : Str := "\n        {maybe_store_function_output}{lambda_to_call}({params});\n        return {output_tuple};\n        ".toList

def returnTemplate : Str := Indent.unindentCode returnTemplateRaw true

/-- `/repo/src/litgen/internal/adapt_function_params/adapt_modifiable_immutable_to_return.py:236-275` `fill_lambda_template_end`; `old` is the type of the function
(`str_full_return_type`), `none` for void. -/
def returnEnd (f : Fn) (old : Option Str) (args : List Str) (tuple : Str) : Str :=
  replaceInString returnTemplate
    [("maybe_store_function_output".toList, match old with | none => [] | some t => t ++ " r = ".toList), ("lambda_to_call".toList, callee f),
     ("params".toList, join commaSpace args), ("output_tuple".toList, tuple)]

/-! ### Constructors -/

/-- `/repo/src/litgen/internal/adapt_function_params/apply_all_adapters.py:84-117` -/
def ctorSignatureRaw (nanobind : Bool) : Str :=
  if nanobind then "\n                void ctor_wrapper({class_name}* self, {parameters_code});\n            ".toList
  else "\n                std::unique_ptr<{class_name}> ctor_wrapper({parameters_code});\n            ".toList

/-- `/repo/src/litgen/internal/adapt_function_params/apply_all_adapters.py:91-99`, `:109-117` -/
def ctorLambdaRaw (nanobind : Bool) : Str :=
  if nanobind then
    ("\n                auto ctor_wrapper = []({class_name}* self, {parameters_code}) ->  void\n                {\n" ++
    "                    new(self) {class_name}({parameters_names}); // placement new\n                };\n            ").toList
  else
    ("\n                auto ctor_wrapper = []({parameters_code}) ->  std::unique_ptr<{class_name}>\n                {\n" ++
    "                    return std::make_unique<{class_name}>({parameters_names});\n                };\n            ").toList

def ctorReplacements (params cls names : Str) : List (Str × Str) :=
  [("parameters_code".toList, params), ("class_name".toList, cls), ("parameters_names".toList, names)]

/-- `/repo/src/litgen/internal/adapt_function_params/apply_all_adapters.py:124` -/
def ctorSignature (nanobind : Bool) (params cls names : Str) : Str :=
  processCodeTemplate (Indent.unindentCode (ctorSignatureRaw nanobind) true) (ctorReplacements params cls names)

/-- `/repo/src/litgen/internal/adapt_function_params/apply_all_adapters.py:125` -/
def ctorLambda (nanobind : Bool) (params cls names : Str) : Str :=
  processCodeTemplate (Indent.unindentCode (ctorLambdaRaw nanobind) true) (ctorReplacements params cls names)

/-- `/repo/src/litgen/internal/adapt_function_params/apply_all_adapters.py:142-146`: the code of the adapters of the wrapper is after the wrapper. -/
def ctorCode (nanobind : Bool) (params cls names : Str) (adapterCode : Option Str) : Option Str :=
  adapterCode.map (fun c => ctorLambda nanobind params cls names ++ ['\n'] ++ c)

end Verif.Lam
