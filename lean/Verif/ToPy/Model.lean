import Verif.TArgs.Model
import Verif.Re.Model
import Verif.Py.Split

/-! Model of the last steps of the translation of types and values to Python: `/repo/src/litgen/internal/cpp_to_python.py:123-195` and `:249-324`,
`/repo/src/litgen/internal/template_options.py:280-306`, `/repo/src/litgen/internal/context/litgen_context.py:94-105`. -/

namespace Verif.ToPy
open Verif.Py
open Verif.Scope (isWordChar)

/-! ### Names of the parameters of callables -/

/-- `/repo/src/litgen/internal/cpp_to_python.py:143`: `^[a-zA-Z_]\w*$` (a field has no newline at its end). -/
def isName (u : Char → Bool) : Str → Bool
  | [] => false
  | c :: s => (('a' ≤ c && c ≤ 'z') || ('A' ≤ c && c ≤ 'Z') || c == '_') && s.all (isWordChar u)

/-- `/repo/src/litgen/internal/cpp_to_python.py:136-145` `_strip_one_param` -/
def stripOne (u : Char → Bool) (param : Str) : Str :=
  let p := strip param
  if p = [] then p
  else
    let tokens := fields p
    if 2 ≤ tokens.length ∧ (tokens.getLast?.any (isName u)) = true then join [' '] tokens.dropLast else p

def callableHead : Str := "Callable[[".toList

/-- The text before the first `]`, if there is one. -/
def upTo : Str → Option Str
  | [] => none
  | c :: s => if c = ']' then some [] else (upTo s).map (c :: ·)

/-- `/repo/src/litgen/internal/cpp_to_python.py:147-152`: `re.sub(r"Callable\[\[([^\]]*)\]", ...)`. `skip` is the number of characters that the
last match still covers. -/
def stripCallableFrom (u : Char → Bool) : Nat → Str → Str
  | _, [] => []
  | n + 1, _ :: s => stripCallableFrom u n s
  | 0, c :: s =>
    if callableHead.isPrefixOf (c :: s) then
      match upTo ((c :: s).drop callableHead.length) with
      | some inside =>
        callableHead ++ join ", ".toList ((splitOn ',' inside).map (stripOne u)) ++ "]".toList ++
          stripCallableFrom u (callableHead.length + inside.length) s
      | none => c :: stripCallableFrom u 0 s
    else c :: stripCallableFrom u 0 s

/-- `/repo/src/litgen/internal/cpp_to_python.py:123-152` `_strip_callable_param_names` -/
def stripCallable (u : Char → Bool) (s : Str) : Str := stripCallableFrom u 0 s

/-! ### Types -/

/-- What the translation reads of the options and the context. `special` is `specialized_type_python_name_str` (it needs srcML); `namespaces` are
the names of `unqualified_stub_namespaces()` with `namespace_name_to_python` of each, in the order in which Python iterates the set. -/
structure Ctx where
  repl : Str → Str
  special : Str → Option Str
  namespaces : List (Str × Str)
  roots : List Str

/-- `/repo/src/litgen/internal/cpp_to_python.py:181-185` (and `:270-274`): the namespaces whose name is different in Python. -/
def renameNamespaces (nss : List (Str × Str)) (r : Str) : Str :=
  nss.foldl (fun r q => if q.2 ≠ q.1 then replace r (q.1 ++ ['.']) (q.2 ++ ['.']) else r) r

/-- `/repo/src/litgen/internal/cpp_to_python.py:186-187` (and `:275-276`) -/
def dropRoots (roots : List Str) (r : Str) : Str := roots.foldl (fun r n => replace r (n ++ ['.']) []) r

/-- `/repo/src/litgen/internal/cpp_to_python.py:155-195` `type_to_python`; an error is one of `_perform_cpp_type_replacements_recursively`. -/
def typeToPython (u : Char → Bool) (x : Ctx) (cppType : Str) : Except TArgs.Err Str :=
  let r := (x.special cppType).getD cppType
  let r := replace r "static ".toList []
  let r := replace r "constexpr ".toList []
  match TArgs.translate x.repl r with
  | .error e => .error e
  | .ok r =>
    let r := replace r "::".toList ".".toList
    let r := strip (TArgs.squeeze r)
    let r := replace r "Optional[ ".toList "Optional[".toList
    .ok (stripCallable u (dropRoots x.roots (renameNamespaces x.namespaces r)))

/-- The declarations of a unit, in their order: a text that is translated, or a block of a namespace. -/
inductive Decl where
  | use (s : Str)
  | block (name : Str) (body : List Decl)

mutual
/-- `/repo/src/litgen/internal/adapted_types/adapted_namespace.py:87-112` `stub_lines`, with `:68-72` and
`/repo/src/litgen/internal/context/namespaces_code_tree.py:107-114`: the text of the block is made before the namespace is registered. `made` are the
namespaces that are registered, given by their own name; the result has the texts that are translated, in their order. Of the translation only the
namespaces (`/repo/src/litgen/internal/cpp_to_python.py:181-185`) are kept. -/
def Decl.texts (py : Str → Str) (made : List Str) : Decl → List Str × List Str
  | .use s => ([renameNamespaces (made.map (fun n => (n, py n))) s], made)
  | .block n body =>
    let r := textsAll py made body
    (r.1, if n ∈ r.2 then r.2 else r.2 ++ [n])

/-- The declarations, one after the other. -/
def textsAll (py : Str → Str) (made : List Str) : List Decl → List Str × List Str
  | [] => ([], made)
  | d :: ds =>
    let r := d.texts py made
    let r' := textsAll py r.2 ds
    (r.1 ++ r'.1, r'.2)
end

/-! ### Values -/

/-- `/repo/src/litgen/internal/template_options.py:280-306` `specialized_type_python_default_value`, where `special` is
`specialized_type_python_name_str`. -/
def specialDefault (special : Str → Option Str) (s : Str) : Option Str :=
  if '<' ∉ s then none
  else
    let paren := '(' ∈ s ∧ ')' ∈ s
    let braces := '{' ∈ s ∧ '}' ∈ s
    if ¬ paren ∧ ¬ braces then none
    else
      let mark := if braces then '{' else '('
      let type := s.takeWhile (fun c => c != mark)
      let params := s.dropWhile (fun c => c != mark)
      let params := if braces then replace (replace params ['{'] ['(']) ['}'] [')'] else params
      (special type).map (fun n => n ++ params)

/-- `/repo/src/litgen/internal/cpp_to_python.py:263-268`: braces. -/
def braces (r : Str) : Str :=
  if startsWith r ['{'] && endsWith r ['}'] then
    let inner := (r.drop 1).dropLast
    if strip inner = [] then "initialized with default value".toList else "initialized with ".toList ++ inner
  else r

/-- What the translation of values reads. `scopes` are the replacements of the scopes, the innermost first
(`/repo/src/litgen/internal/context/litgen_context.py:94-105`). -/
structure ValueCtx where
  typeRepl : Str → Str
  valueRepl : Str → Str
  macros : List (Str × Str)
  scopes : List (Str → Str)
  special : Str → Option Str
  namespaces : List (Str × Str)
  roots : List Str

/-- `/repo/src/litgen/internal/cpp_to_python.py:258-259`: the macros that are numbers (names that are not empty). -/
def putMacros (macros : List (Str × Str)) (r : Str) : Str := macros.foldl (fun r q => replace r q.1 q.2) r

/-- `/repo/src/litgen/internal/cpp_to_python.py:249-285` `var_value_to_python` -/
def valueToPython (x : ValueCtx) (value : Str) : Str :=
  let r := x.valueRepl (x.typeRepl value)
  let r := putMacros x.macros r
  let r := x.scopes.foldl (fun r f => f r) r
  let r := braces r
  let r := dropRoots x.roots (renameNamespaces x.namespaces r)
  (specialDefault x.special value).getD r

/-! ### Names of the enclosing scopes -/

/-- `/repo/src/litgen/internal/cpp_to_python.py:320`: `(?<![.\w])name\b`; the names are identifiers, which `re.escape` keeps. -/
def qualRe (name : Str) : Re.Re :=
  .seq (.notBehind [.one '.', .word false]) (name.foldr (fun c r => .seq (.chr c) r) (.seq .wordB .eps))

/-- `/repo/src/litgen/internal/cpp_to_python.py:321-322` -/
def qualName (u : Char → Bool) (pre name s : Str) : Str := Re.sub u (qualRe name) ((pre ++ '.' :: name).map .chr) s

/-- One step of `sorted(names, key=len, reverse=True)`: after the names that are as long. -/
def insertLen (n : Str) : List Str → List Str
  | [] => [n]
  | m :: l => if m.length < n.length then n :: m :: l else m :: insertLen n l

/-- `/repo/src/litgen/internal/cpp_to_python.py:317`; the set is given in the order in which Python iterates it. -/
def sortLen (names : List Str) : List Str := names.foldl (fun l n => insertLen n l) []

/-- One scope. -/
def qualScope (u : Char → Bool) (pre : Str) (names : List Str) (s : Str) : Str := (sortLen names).foldl (fun s n => qualName u pre n s) s

/-- `/repo/src/litgen/internal/cpp_to_python.py:288-324` `qualify_sibling_in_scope`; `members` is `scope_members.get`, with the Python name of the
scope and the names of its members. -/
def qualify (u : Char → Bool) (roots : List Str) (members : Str → Option (Str × List Str)) (parts : List Str) (s : Str) : Str :=
  parts.foldl (fun s p =>
    if p ∈ roots then s
    else match members p with
      | none => s
      | some (pre, names) => qualScope u pre names s) s

/-- `/repo/src/litgen/internal/context/litgen_context.py:59` `scope_members`, after the assignments of
`/repo/src/litgen/internal/adapted_types/adapted_class.py:392-398` and of `/repo/src/litgen/internal/adapted_types/adapted_namespace.py:49-52`, in
their order: the key is the name of the class or of the namespace, without its scope. -/
def scopeMembers (assigned : List (Str × Str × List Str)) (name : Str) : Option (Str × List Str) :=
  (assigned.reverse.find? (fun e => e.1 == name)).map Prod.snd

end Verif.ToPy
