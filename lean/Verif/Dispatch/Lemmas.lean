import Verif.Dispatch.Spec
import Verif.Template.Props
import Verif.Arr.Props

/-! Lemmas for the texts of the dispatch. -/

namespace Verif.Dispatch
open Verif.Py Verif.Template Verif.Template.Spec Verif.Dispatch.Spec

def loopPieces : List Piece :=
  [.hole kElse, .text "if (".toList, .hole kBuffer, .text "_type == '".toList, .hole kChar, .text "')\n".toList, .hole kIndent,
   .hole kReturn, .hole kCall, .text "(".toList, .hole kArgs, .text ");\n".toList]

def outroPieces : List Piece :=
  [.text "// If we reach this point, the array type is not supported!\nelse\n".toList, .hole kIndent,
   .text "throw std::runtime_error(std::string(\"Bad array type ('\") + ".toList, .hole kBuffer, .text "_type + \"') for param ".toList,
   .hole kBuffer, .text "\");".toList]

def introPyPieces : List Piece :=
  [.text "#ifdef _WIN32\nusing np_uint_l = uint32_t;\nusing np_int_l = int32_t;\n#else\n".toList,
   .text "using np_uint_l = uint64_t;\nusing np_int_l = int64_t;\n#endif\n".toList,
   .text "// call the correct template version by casting\nchar ".toList, .hole kBuffer, .text "_type = ".toList, .hole kBuffer,
   .text ".dtype().char_();".toList]

def introNbPieces : List Piece :=
  [.text "using np_uint_l = uint64_t;\nusing np_int_l = int64_t;\n\n".toList,
   .text "// Define a lambda to compute the letter code for the buffer type\n".toList,
   .text "auto _nanobind_buffer_type_to_letter_code = [](uint8_t dtype_code, size_t sizeof_item)  -> char\n".toList,
   .text "{\n    #define DCODE(T) static_cast<uint8_t>(nb::dlpack::dtype_code::T)\n".toList,
   .text "        const std::array<std::tuple<uint8_t, size_t, char>, 11> mappings = {{\n".toList,
   .text "            {DCODE(UInt), 1, 'B'}, {DCODE(UInt), 2, 'H'}, {DCODE(UInt), 4, 'I'}, {DCODE(UInt), 8, 'L'},\n".toList,
   .text "            {DCODE(Int), 1, 'b'}, {DCODE(Int), 2, 'h'}, {DCODE(Int), 4, 'i'}, {DCODE(Int), 8, 'l'},\n".toList,
   .text "            {DCODE(Float), 4, 'f'}, {DCODE(Float), 8, 'd'}, {DCODE(Float), 16, 'g'}\n".toList,
   .text "        }};\n    #undef DCODE\n    for (const auto& [code_val, size, letter] : mappings)\n".toList,
   .text "        if (code_val == dtype_code && size == sizeof_item)\n            return letter;\n".toList,
   .text "    throw std::runtime_error(\"Unsupported dtype\");\n};\n\n".toList,
   .text "// Compute the letter code for the buffer type\nuint8_t dtype_code_".toList, .hole kBuffer, .text " = ".toList, .hole kBuffer,
   .text ".dtype().code;\nsize_t sizeof_item_".toList, .hole kBuffer, .text " = ".toList, .hole kBuffer,
   .text ".dtype().bits / 8;\nchar ".toList, .hole kBuffer, .text "_type = _nanobind_buffer_type_to_letter_code(dtype_code_".toList,
   .hole kBuffer, .text ", sizeof_item_".toList, .hole kBuffer, .text ");\n\n// call the correct template version by casting".toList]

def checkPyPieces : List Piece :=
  [.text "// Ensure '".toList, .hole kOther, .text "' shares the dtype of '".toList, .hole kBuffer,
   .text "' (the C++ function is templated on a single type)\nchar ".toList, .hole kOther, .text "_type = ".toList, .hole kOther,
   .text ".dtype().char_();\nif (".toList, .hole kOther, .text "_type != ".toList, .hole kBuffer, .text "_type)\n".toList, .hole kIndent,
   .text "throw std::runtime_error(\n".toList, .hole kIndent, .hole kIndent, .text "std::string(\"".toList, .hole kFunction,
   .text ": all numeric arrays must share the same dtype, \")\n".toList, .hole kIndent, .hole kIndent, .text "+ \"but \\\"".toList,
   .hole kOther, .text "\\\" has dtype \" + _pybind_dtype_letter_to_name(".toList, .hole kOther, .text "_type)\n".toList, .hole kIndent,
   .hole kIndent, .text "+ \" while \\\"".toList, .hole kBuffer, .text "\\\" has dtype \" + _pybind_dtype_letter_to_name(".toList,
   .hole kBuffer, .text "_type)\n".toList, .hole kIndent, .hole kIndent, .text "+ \". Convert them to a common dtype, e.g. ".toList,
   .hole kOther, .text " = ".toList, .hole kOther, .text ".astype(".toList, .hole kBuffer, .text ".dtype).\");\n".toList]

def checkNbPieces : List Piece :=
  [.text "// Ensure '".toList, .hole kOther, .text "' shares the dtype of '".toList, .hole kBuffer,
   .text "' (the C++ function is templated on a single type)\nchar ".toList, .hole kOther,
   .text "_type = _nanobind_buffer_type_to_letter_code(".toList, .hole kOther, .text ".dtype().code, ".toList, .hole kOther,
   .text ".dtype().bits / 8);\nif (".toList, .hole kOther, .text "_type != ".toList, .hole kBuffer, .text "_type)\n".toList, .hole kIndent,
   .text "throw std::runtime_error(\n".toList, .hole kIndent, .hole kIndent, .text "std::string(\"".toList, .hole kFunction,
   .text ": all numeric arrays must share the same dtype, \")\n".toList, .hole kIndent, .hole kIndent, .text "+ \"but \\\"".toList,
   .hole kOther, .text "\\\" has dtype \" + _nanobind_dtype_letter_to_name(".toList, .hole kOther, .text "_type)\n".toList, .hole kIndent,
   .hole kIndent, .text "+ \" while \\\"".toList, .hole kBuffer, .text "\\\" has dtype \" + _nanobind_dtype_letter_to_name(".toList,
   .hole kBuffer, .text "_type)\n".toList, .hole kIndent, .hole kIndent, .text "+ \". Convert them to a common dtype, e.g. ".toList,
   .hole kOther, .text " = ".toList, .hole kOther, .text ".astype(".toList, .hole kBuffer, .text ".dtype).\");\n".toList]

theorem loop_eq : Indent.unindentCode Dispatch.loopRaw true ++ [Char.ofNat 10] = source loopPieces := by
  unfold Dispatch.loopRaw loopPieces
  rw [List.map_cons]
  repeat rw [List.map_cons]
  rw [List.map_nil]
  repeat rw [String.toList_ofList]
  decide +kernel

theorem outro_eq : Indent.unindentCode Dispatch.outroRaw true = source outroPieces := by
  unfold Dispatch.outroRaw outroPieces
  rw [List.map_cons]
  repeat rw [List.map_cons]
  rw [List.map_nil]
  repeat rw [String.toList_ofList]
  decide +kernel

theorem introPy_eq : Indent.unindentCode Dispatch.introPybind true = source introPyPieces := by
  unfold Dispatch.introPybind introPyPieces
  rw [List.map_cons]
  repeat rw [List.map_cons]
  rw [List.map_nil]
  repeat rw [String.toList_ofList]
  decide +kernel

theorem introNb_eq : Indent.unindentCode Dispatch.introNanobind true = source introNbPieces := by
  unfold Dispatch.introNanobind introNbPieces
  rw [List.map_cons]
  repeat rw [List.map_cons]
  rw [List.map_nil]
  repeat rw [String.toList_ofList]
  decide +kernel

theorem checkPy_eq : Indent.unindentCode Dispatch.checkPybind true ++ [Char.ofNat 10] = source checkPyPieces := by
  unfold Dispatch.checkPybind checkPyPieces
  rw [List.map_cons]
  repeat rw [List.map_cons]
  rw [List.map_nil]
  repeat rw [String.toList_ofList]
  decide +kernel

theorem checkNb_eq : Indent.unindentCode Dispatch.checkNanobind true ++ [Char.ofNat 10] = source checkNbPieces := by
  unfold Dispatch.checkNanobind checkNbPieces
  rw [List.map_cons]
  repeat rw [List.map_cons]
  rw [List.map_nil]
  repeat rw [String.toList_ofList]
  decide +kernel

theorem namesPy_eq : Indent.unindentCode Dispatch.namesPybind true ++ [Char.ofNat 10] = Spec.namesPybind := by
  unfold Dispatch.namesPybind Spec.namesPybind
  rw [List.map_cons]
  repeat rw [List.map_cons]
  rw [List.map_nil]
  repeat rw [String.toList_ofList]
  decide +kernel

theorem namesNb_eq : Indent.unindentCode Dispatch.namesNanobind true ++ [Char.ofNat 10] = Spec.namesNanobind := by
  unfold Dispatch.namesNanobind Spec.namesNanobind
  rw [List.map_cons]
  repeat rw [List.map_cons]
  rw [List.map_nil]
  repeat rw [String.toList_ofList]
  decide +kernel

theorem look_here (k v : Str) (l : List (Str × Str)) : lookup ((k, v) :: l) k = some v := by
  simp [lookup]

theorem look_next {k k' : Str} (h : k' ≠ k) (v : Str) (l : List (Str × Str)) : lookup ((k', v) :: l) k = lookup l k := by
  have : (k' == k) = false := by simpa using h
  unfold lookup
  rw [List.find?_cons, this]

theorem fill_nil (f : Str → Option Str) : fill f [] = [] := rfl

theorem fill_text (f : Str → Option Str) (t : Str) (ps : List Piece) : fill f (.text t :: ps) = t ++ fill f ps := rfl

theorem fill_hole {f : Str → Option Str} {k v : Str} (h : f k = some v) (ps : List Piece) : fill f (.hole k :: ps) = v ++ fill f ps := by
  unfold fill
  rw [List.flatMap_cons]
  simp only [h, Option.getD_some]

/-- A decidable form of `PlainText`. -/
def plainB : Str → Bool
  | [] => true
  | [c] => decide (c ≠ '{')
  | c :: d :: cs => (decide (c ≠ '{') || !nameChar d) && plainB (d :: cs)

theorem plain_of : ∀ (s : Str), plainB s = true → PlainText nameChar s
  | [], _ => trivial
  | [c], h => ⟨fun e => absurd e (by simpa [plainB] using h), trivial⟩
  | c :: d :: cs, h => by
    simp only [plainB, Bool.and_eq_true, Bool.or_eq_true, decide_eq_true_eq, Bool.not_eq_true'] at h
    exact ⟨fun e => ⟨d, cs, rfl, h.1.resolve_left (fun n => n e)⟩, plain_of (d :: cs) h.2⟩

theorem key_of (k : Str) (h : (decide (k ≠ []) && k.all nameChar) = true) : Key nameChar k := by
  simp only [Bool.and_eq_true, decide_eq_true_eq, List.all_eq_true] at h
  exact h

/-- A decidable form of `Piece.WF`. -/
def wfB : Piece → Bool
  | .text t => plainB t
  | .hole k => decide (k ≠ []) && k.all nameChar

theorem wf_of (ps : List Piece) (h : ps.all wfB = true) : ∀ p ∈ ps, p.WF nameChar := by
  intro p hp
  have := List.all_eq_true.mp h p hp
  cases p with
  | text t => exact plain_of t this
  | hole k => exact key_of k this

theorem loop_wf : ∀ p ∈ loopPieces, p.WF nameChar := by
  unfold loopPieces
  repeat rw [String.toList_ofList]
  exact wf_of _ (by decide +kernel)

theorem outro_wf : ∀ p ∈ outroPieces, p.WF nameChar := by
  unfold outroPieces
  repeat rw [String.toList_ofList]
  exact wf_of _ (by decide +kernel)

theorem introPy_wf : ∀ p ∈ introPyPieces, p.WF nameChar := by
  unfold introPyPieces
  repeat rw [String.toList_ofList]
  exact wf_of _ (by decide +kernel)

theorem introNb_wf : ∀ p ∈ introNbPieces, p.WF nameChar := by
  unfold introNbPieces
  repeat rw [String.toList_ofList]
  exact wf_of _ (by decide +kernel)

theorem checkPy_wf : ∀ p ∈ checkPyPieces, p.WF nameChar := by
  unfold checkPyPieces
  repeat rw [String.toList_ofList]
  exact wf_of _ (by decide +kernel)

theorem checkNb_wf : ∀ p ∈ checkNbPieces, p.WF nameChar := by
  unfold checkNbPieces
  repeat rw [String.toList_ofList]
  exact wf_of _ (by decide +kernel)

end Verif.Dispatch
