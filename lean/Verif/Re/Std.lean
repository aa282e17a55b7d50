import Verif.Re.ModelStd
import Verif.Re.Words
import Verif.Py.StrLemmas

/-! The standard replacements, read. -/

namespace Verif.Re
open Verif.Py

/-- `\s` -/
def reS : Re := .set false [.space false]
/-- `\s*` -/
def reS0 : Re := .star true reS
/-- `[0-9]` -/
def reD : Re := .set false [.range '0' '9']
/-- `[0-9]+` -/
def reD1 : Re := .seq reD (.star true reD)
/-- `(.*?)` -/
def reLazy (n : Nat) : Re := .group n (.seq (.star false .any) .eps)
/-- `(.*)` -/
def reGreedy (n : Nat) : Re := .group n (.seq (.star true .any) .eps)
/-- `[+-]?` -/
def reSign : Re := .alt (.set false [.one '+', .one '-']) .eps

/-- A number without its suffix: `[+-]?[0-9]+(?:\.[0-9]*)?(?:[eE][+-]?[0-9]+)?` -/
def reNum : Re :=
  .seq reSign (.seq reD1
    (.seq (.alt (.seq (.chr '.') (.seq (.star true reD) .eps)) .eps)
      (.seq (.alt (.seq (.set false [.one 'e', .one 'E']) (.seq reSign (.seq reD1 .eps))) .eps) .eps)))

/-- A number with a suffix of the set. -/
def reSuffix (items : List Item) : Re :=
  .seq (.notBehind [.range 'a' 'z', .range 'A' 'Z', .range '0' '9'])
    (.seq (.group 1 reNum) (.seq (.group 2 (.seq (.set false items) .eps))
      (.seq (.ahead (.alt (.seq (.set false [.word true]) .eps) (.seq .atEnd .eps))) .eps)))

/-- `1'000` -/
def reSep : Re := .seq (.group 1 (.seq reD .eps)) (.seq (.chr '\'') (.seq (.group 2 (.seq reD .eps)) .eps))

/-- A rule for a word. -/
def wordRule (h v : String) : Re × List Tok := (wordRe h.toList, litTmpl v.toList)

/-- `\b` and a text that is not followed by a boundary. -/
def open_ (h : String) (k : Re) : Re := .seq .wordB (lits h.toList k)

def valueRules : List (Re × List Tok) :=
  [wordRule "true" "True", wordRule "false" "False", (open_ "void" (.seq reS0 (.seq (.chr '*') .eps)), litTmpl "Any".toList),
   wordRule "void" "None", wordRule "NULL" "None", wordRule "nullptr" "None", wordRule "std::nullopt" "None",
   (open_ "std" (.seq .any (lits "nullopt".toList (.seq .wordB .eps))), litTmpl "None".toList),
   (open_ "std::string()" .eps, litTmpl "\"\"".toList), (open_ "std" (.seq .any (lits "string()".toList .eps)), litTmpl "\"\"".toList),
   wordRule "FLT_MIN" "sys.float_info.min", wordRule "FLT_MAX" "sys.float_info.max", wordRule "DBL_MIN" "sys.float_info.min",
   wordRule "DBL_MAX" "sys.float_info.max", wordRule "LDBL_MIN" "sys.float_info.min", wordRule "LDBL_MAX" "sys.float_info.max",
   (reSep, [.ref 1, .chr '_', .ref 2]), (reSuffix [.one 'f', .one 'F', .one 'd', .one 'D'], [.ref 1]), (lits "::".toList .eps, litTmpl ".".toList)]

def commentRules : List (Re × List Tok) :=
  [wordRule "true" "True", wordRule "false" "False", wordRule "void" "None", wordRule "NULL" "None", wordRule "nullptr" "None",
   (reSuffix [.one 'f', .one 'd'], [.ref 1])]

def typeRules : List (Re × List Tok) :=
  let L := fun s : String => litTmpl s.toList
  [(open_ "unsigned " (.seq reS0 (lits "int".toList (.seq .wordB .eps))), L "int"),
   (open_ "unsigned " (.seq reS0 (lits "short".toList (.seq .wordB .eps))), L "int"),
   (open_ "unsigned " (.seq reS0 (lits "long long".toList (.seq .wordB .eps))), L "int"),
   (open_ "unsigned " (.seq reS0 (lits "long".toList (.seq .wordB .eps))), L "int"),
   (open_ "long " (.seq reS0 (lits "long".toList (.seq .wordB .eps))), L "int"),
   (open_ "long " (.seq reS0 (lits "double".toList (.seq .wordB .eps))), L "float"),
   (open_ "const " (.seq reS0 (lits "cha".toList (.seq (.star true (.chr 'r')) (.seq .wordB .eps)))), L "str"),
   (open_ "const " (.seq reS0 (lits "char".toList (.seq (.star true (.chr ' ')) (.seq .wordB .eps)))), L "str"),
   wordRule "uint8_t" "int", wordRule "int8_t" "int", wordRule "uint16_t" "int", wordRule "int16_t" "int", wordRule "uint32_t" "int",
   wordRule "int32_t" "int", wordRule "uint64_t" "int", wordRule "int64_t" "int", wordRule "long" "int", wordRule "short" "int",
   wordRule "double" "float", wordRule "float" "float", wordRule "size_t" "int",
   (open_ "std::function<" (.seq (reGreedy 1) (.seq (.chr '(') (.seq (reGreedy 2) (lits ")>".toList .eps)))),
     L "Callable[[" ++ [.ref 2] ++ L "], " ++ [.ref 1] ++ L "]"),
   wordRule "std::string_view" "str", (open_ "std::string()" .eps, L "\"\""), wordRule "std::string" "str",
   (open_ "std::unique_ptr<" (.seq (reLazy 1) (.seq (.chr '>') .eps)), [.ref 1]),
   (open_ "std::shared_ptr<" (.seq (reLazy 1) (.seq (.chr '>') .eps)), [.ref 1]),
   (open_ "std::vector" (.seq reS0 (.seq (.chr '<') (.seq reS0 (.seq (reLazy 1) (.seq reS0 (.seq (.chr '>') .eps)))))), L "List[" ++ [.ref 1] ++ L "]"),
   (open_ "std::array" (.seq reS0 (.seq (.chr '<') (.seq reS0 (.seq (reLazy 1) (.seq reS0 (.seq (.chr ',') (.seq reS0 (.seq (reLazy 2)
     (.seq reS0 (.seq (.chr '>') .eps)))))))))), L "List[" ++ [.ref 1] ++ L "]"),
   (open_ "std::tuple<" (.seq (reLazy 1) (.seq (.chr '>') .eps)), L "Tuple[" ++ [.ref 1] ++ L "]"),
   (open_ "std::pair<" (.seq (reLazy 1) (.seq (.chr '>') .eps)), L "Tuple[" ++ [.ref 1] ++ L "]"),
   (open_ "std::variant<" (.seq (reLazy 1) (.seq (.chr '>') .eps)), L "Union[" ++ [.ref 1] ++ L "]"),
   (open_ "std::optional<" (.seq (reLazy 1) (.seq (.chr '>') .eps)), L "Optional[" ++ [.ref 1] ++ L "]"),
   (open_ "std::map<" (.seq reS0 (.seq (reLazy 1) (.seq reS0 (.seq (.chr ',') (.seq reS0 (.seq (reLazy 2) (.seq reS0 (.seq (.chr '>') .eps)))))))),
     L "Dict[" ++ [.ref 1] ++ L ", " ++ [.ref 2] ++ L "]"),
   (open_ "void" (.seq reS0 (.seq (.chr '*') .eps)), L "Any"), wordRule "void" "None",
   wordRule "py::array" "np.ndarray", (open_ "py::ndarray<" (.seq (reLazy 1) (.seq (.chr '>') .eps)), L "np.ndarray"),
   wordRule "nb::array" "np.ndarray", (open_ "nb::ndarray<" (.seq (reLazy 1) (.seq (.chr '>') .eps)), L "np.ndarray"),
   wordRule "const" "", wordRule "mutable" "", (lits "&".toList .eps, []), (lits "*".toList .eps, [])]

/-- The rules as they are written. -/
def valueList : List Repl.Replacement :=
  [⟨"\\btrue\\b".toList, "True".toList⟩,
   ⟨"\\bfalse\\b".toList, "False".toList⟩,
   ⟨"\\bvoid\\s*\\*".toList, "Any".toList⟩,
   ⟨"\\bvoid\\b".toList, "None".toList⟩,
   ⟨"\\bNULL\\b".toList, "None".toList⟩,
   ⟨"\\bnullptr\\b".toList, "None".toList⟩,
   ⟨"\\bstd::nullopt\\b".toList, "None".toList⟩,
   ⟨"\\bstd.nullopt\\b".toList, "None".toList⟩,
   ⟨"\\bstd::string\\(\\)".toList, "\"\"".toList⟩,
   ⟨"\\bstd.string\\(\\)".toList, "\"\"".toList⟩,
   ⟨"\\bFLT_MIN\\b".toList, "sys.float_info.min".toList⟩,
   ⟨"\\bFLT_MAX\\b".toList, "sys.float_info.max".toList⟩,
   ⟨"\\bDBL_MIN\\b".toList, "sys.float_info.min".toList⟩,
   ⟨"\\bDBL_MAX\\b".toList, "sys.float_info.max".toList⟩,
   ⟨"\\bLDBL_MIN\\b".toList, "sys.float_info.min".toList⟩,
   ⟨"\\bLDBL_MAX\\b".toList, "sys.float_info.max".toList⟩,
   ⟨"([0-9])'([0-9])".toList, "\\1_\\2".toList⟩,
   ⟨"(?<![a-zA-Z0-9])([+-]?[0-9]+(?:\\.[0-9]*)?(?:[eE][+-]?[0-9]+)?)([fFdD])(?=\\W|$)".toList, "\\1".toList⟩,
   ⟨"::".toList, ".".toList⟩]

def commentList : List Repl.Replacement :=
  [⟨"\\btrue\\b".toList, "True".toList⟩,
   ⟨"\\bfalse\\b".toList, "False".toList⟩,
   ⟨"\\bvoid\\b".toList, "None".toList⟩,
   ⟨"\\bNULL\\b".toList, "None".toList⟩,
   ⟨"\\bnullptr\\b".toList, "None".toList⟩,
   ⟨"(?<![a-zA-Z0-9])([+-]?[0-9]+(?:\\.[0-9]*)?(?:[eE][+-]?[0-9]+)?)([fd])(?=\\W|$)".toList, "\\1".toList⟩]

def typeList : List Repl.Replacement :=
  [⟨"\\bunsigned \\s*int\\b".toList, "int".toList⟩,
   ⟨"\\bunsigned \\s*short\\b".toList, "int".toList⟩,
   ⟨"\\bunsigned \\s*long long\\b".toList, "int".toList⟩,
   ⟨"\\bunsigned \\s*long\\b".toList, "int".toList⟩,
   ⟨"\\blong \\s*long\\b".toList, "int".toList⟩,
   ⟨"\\blong \\s*double\\b".toList, "float".toList⟩,
   ⟨"\\bconst \\s*char*\\b".toList, "str".toList⟩,
   ⟨"\\bconst \\s*char *\\b".toList, "str".toList⟩,
   ⟨"\\buint8_t\\b".toList, "int".toList⟩,
   ⟨"\\bint8_t\\b".toList, "int".toList⟩,
   ⟨"\\buint16_t\\b".toList, "int".toList⟩,
   ⟨"\\bint16_t\\b".toList, "int".toList⟩,
   ⟨"\\buint32_t\\b".toList, "int".toList⟩,
   ⟨"\\bint32_t\\b".toList, "int".toList⟩,
   ⟨"\\buint64_t\\b".toList, "int".toList⟩,
   ⟨"\\bint64_t\\b".toList, "int".toList⟩,
   ⟨"\\blong\\b".toList, "int".toList⟩,
   ⟨"\\bshort\\b".toList, "int".toList⟩,
   ⟨"\\bdouble\\b".toList, "float".toList⟩,
   ⟨"\\bfloat\\b".toList, "float".toList⟩,
   ⟨"\\bsize_t\\b".toList, "int".toList⟩,
   ⟨"\\bstd::function<(.*)\\((.*)\\)>".toList, "Callable[[\\2], \\1]".toList⟩,
   ⟨"\\bstd::string_view\\b".toList, "str".toList⟩,
   ⟨"\\bstd::string\\(\\)".toList, "\"\"".toList⟩,
   ⟨"\\bstd::string\\b".toList, "str".toList⟩,
   ⟨"\\bstd::unique_ptr<(.*?)>".toList, "\\1".toList⟩,
   ⟨"\\bstd::shared_ptr<(.*?)>".toList, "\\1".toList⟩,
   ⟨"\\bstd::vector\\s*<\\s*(.*?)\\s*>".toList, "List[\\1]".toList⟩,
   ⟨"\\bstd::array\\s*<\\s*(.*?)\\s*,\\s*(.*?)\\s*>".toList, "List[\\1]".toList⟩,
   ⟨"\\bstd::tuple<(.*?)>".toList, "Tuple[\\1]".toList⟩,
   ⟨"\\bstd::pair<(.*?)>".toList, "Tuple[\\1]".toList⟩,
   ⟨"\\bstd::variant<(.*?)>".toList, "Union[\\1]".toList⟩,
   ⟨"\\bstd::optional<(.*?)>".toList, "Optional[\\1]".toList⟩,
   ⟨"\\bstd::map<\\s*(.*?)\\s*,\\s*(.*?)\\s*>".toList, "Dict[\\1, \\2]".toList⟩,
   ⟨"\\bvoid\\s*\\*".toList, "Any".toList⟩,
   ⟨"\\bvoid\\b".toList, "None".toList⟩,
   ⟨"\\bpy::array\\b".toList, "np.ndarray".toList⟩,
   ⟨"\\bpy::ndarray<(.*?)>".toList, "np.ndarray".toList⟩,
   ⟨"\\bnb::array\\b".toList, "np.ndarray".toList⟩,
   ⟨"\\bnb::ndarray<(.*?)>".toList, "np.ndarray".toList⟩,
   ⟨"\\bconst\\b".toList, "".toList⟩,
   ⟨"\\bmutable\\b".toList, "".toList⟩,
   ⟨"&".toList, "".toList⟩,
   ⟨"\\*".toList, "".toList⟩]

theorem lines_value : lines valueText = valueLines := lines_unlines (List.cons_ne_nil _ _) (by decide +kernel)
theorem strip_value : ((valueLines.map strip).filter (fun s => s.length > 0)).mapM Repl.fromLine = some valueList := by decide +kernel
theorem from_value : Repl.fromString valueText = some valueList := by
  rw [Repl.fromString, lines_value, strip_value]
theorem lines_comment : lines commentText = commentLines := lines_unlines (List.cons_ne_nil _ _) (by decide +kernel)
theorem strip_comment : ((commentLines.map strip).filter (fun s => s.length > 0)).mapM Repl.fromLine = some commentList := by decide +kernel
theorem from_comment : Repl.fromString commentText = some commentList := by
  rw [Repl.fromString, lines_comment, strip_comment]
theorem lines_type : lines typeText = typeLines := lines_unlines (List.cons_ne_nil _ _) (by decide +kernel)
theorem strip_type : ((typeLines.map strip).filter (fun s => s.length > 0)).mapM Repl.fromLine = some typeList := by decide +kernel
theorem from_type : Repl.fromString typeText = some typeList := by
  rw [Repl.fromString, lines_type, strip_type]

theorem read_value : valueList.mapM (fun r => rule r.what r.byWhat) = some valueRules := by decide +kernel
theorem read_comment : commentList.mapM (fun r => rule r.what r.byWhat) = some commentRules := by decide +kernel
theorem read_type : typeList.mapM (fun r => rule r.what r.byWhat) = some typeRules := by decide +kernel

theorem rules_value : rules valueText = some valueRules := by rw [rules, from_value, Option.bind_some, read_value]
theorem rules_comment : rules commentText = some commentRules := by rw [rules, from_comment, Option.bind_some, read_comment]
theorem rules_type : rules typeText = some typeRules := by rw [rules, from_type, Option.bind_some, read_type]

/-- One pass over rules that are read. -/
def passR (u : Char → Bool) (rs : List (Re × List Tok)) (s : Str) : Str := rs.foldl (fun s r => sub u r.1 r.2 s) s

theorem pass_rules (u : Char → Bool) (rs : List Repl.Replacement) : ∀ {rr : List (Re × List Tok)}, rs.mapM (fun r => rule r.what r.byWhat) = some rr →
    ∀ s, Repl.pass (engine u) rs s = passR u rr s := by
  induction rs with
  | nil => intro rr h s; cases h; rfl
  | cons r rs ih =>
    intro rr h s
    rw [List.mapM_cons] at h
    cases h1 : rule r.what r.byWhat with
    | none => rw [h1] at h; cases h
    | some x =>
      cases h2 : rs.mapM (fun r => rule r.what r.byWhat) with
      | none => rw [h1, h2] at h; cases h
      | some xs =>
        rw [h1, h2] at h
        cases h
        show Repl.pass (engine u) rs (engine u r.what r.byWhat s) = passR u xs (sub u x.1 x.2 s)
        rw [ih h2]
        unfold engine
        rw [h1]

end Verif.Re
