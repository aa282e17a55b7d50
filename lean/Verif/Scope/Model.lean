import Verif.Py.Str

/-! Model of `/repo/src/srcmlcpp/cpp_types/scope/cpp_scope.py` and
`/repo/src/srcmlcpp/cpp_types/scope/cpp_scope_process.py`. -/

namespace Verif.Scope
open Verif.Py

/-- The C++ scope separator. -/
def colons : Str := [':', ':']

/-- `/repo/src/srcmlcpp/cpp_types/scope/cpp_scope.py:15-30`: a scope is the list of the names of its
parts, from the outermost one (`scope_type` is left out: no function below looks at it). -/
abbrev CppScope := List Str

/-- `/repo/src/srcmlcpp/cpp_types/scope/cpp_scope.py:33-40` `str_cpp` -/
def strCpp (s : CppScope) : Str :=
  if s.length = 0 then [] else join colons s

/-- `/repo/src/srcmlcpp/cpp_types/scope/cpp_scope.py:33-41` `str_cpp_prefix` -/
def strCppPrefix (s : CppScope) : Str :=
  if s.length = 0 then [] else join colons s ++ colons

/-- `/repo/src/srcmlcpp/cpp_types/scope/cpp_scope.py:43` `parent_scope` -/
def parentScope (s : CppScope) : Option CppScope :=
  if s.length > 0 then some s.dropLast else none

/-- The loop `while current_scope is not None`, with as fuel the number of parts plus one (enough:
each parent has one part less). -/
def hierarchyLoop : Nat → Option CppScope → List CppScope
  | _, none => []
  | 0, some _ => []
  | n + 1, some s => s :: hierarchyLoop n (parentScope s)

/-- `/repo/src/srcmlcpp/cpp_types/scope/cpp_scope.py:47-54` `_make_scope_hierarchy_list` -/
def scopeHierarchyList (s : CppScope) : List CppScope := hierarchyLoop (s.length + 1) (some s)

/-- `/repo/src/srcmlcpp/cpp_types/scope/cpp_scope.py:45` `scope_hierarchy_prefix_list` -/
def scopeHierarchyPrefixList (s : CppScope) : List Str := (scopeHierarchyList s).map strCppPrefix

/-- `/repo/src/srcmlcpp/cpp_types/scope/cpp_scope.py:57-61` `from_string` -/
def fromString (s : Str) : CppScope := split s colons

/-- `/repo/src/srcmlcpp/cpp_types/scope/cpp_scope.py:63-66` `__eq__` -/
def scopeEq (a b : CppScope) : Bool := strCpp a == strCpp b

/-- The loop of `can_access_scope`, with fuel as above. -/
def accessLoop : Nat → Option CppScope → CppScope → Bool
  | _, none, _ => false
  | 0, some _, _ => false
  | n + 1, some p, other => if scopeEq p other then true else accessLoop n (parentScope p) other

/-- `/repo/src/srcmlcpp/cpp_types/scope/cpp_scope.py:68-74` `can_access_scope` -/
def canAccessScope (s other : CppScope) : Bool := accessLoop (s.length + 1) (some s) other

/-- `/repo/src/srcmlcpp/cpp_types/scope/cpp_scope.py:76-77` `make_child_scope` -/
def makeChildScope (s : CppScope) (child : Str) : CppScope := s ++ [child]

/-- `/repo/src/srcmlcpp/cpp_types/scope/cpp_scope.py:79-80` `qualified_name` -/
def qualifiedName (s : CppScope) (name : Str) : Str := strCppPrefix s ++ name

/-- `char.isalnum() or char == "_"`: exact on ASCII; `u` says which other characters are
alphanumeric (every theorem holds for every `u`). -/
def isWordChar (u : Char → Bool) (c : Char) : Bool :=
  if c.toNat < 128 then
    (48 ≤ c.toNat && c.toNat ≤ 57) || (65 ≤ c.toNat && c.toNat ≤ 90) || (97 ≤ c.toNat && c.toNat ≤ 122) || c == '_'
  else u c

/-- `/repo/src/srcmlcpp/cpp_types/scope/cpp_scope_process.py:5-30`
`current_token_matches_scoped_identifier` -/
def tokenMatches (identifier : Str) (hierarchy : List Str) (token : Str) : Bool :=
  if startsWith token colons then false
  else hierarchy.any (fun pre => pre ++ token == identifier)

/-- `/repo/src/srcmlcpp/cpp_types/scope/cpp_scope_process.py:62-66, 81-85`: the loop over the known
identifiers. -/
def qualifyToken (hierarchy identifiers : List Str) (token : Str) : Str :=
  identifiers.foldl (fun tok id => if tokenMatches id hierarchy tok then id else tok) token

/-- `if current_token: ... new_code += current_token`, where `f` is what is done to the token. -/
def flush (f : Str → Str) (token : Str) : Str := if token = [] then [] else f token

/-- The scanner shared by `apply_scoped_identifiers_to_code`
(`/repo/src/srcmlcpp/cpp_types/scope/cpp_scope_process.py:33-89`) and `make_terse_code`
(`/repo/src/srcmlcpp/cpp_types/scope/cpp_scope_process.py:124-169`), which differ only in what is done to
a token (`f`). Arguments: whether the next character was already consumed (`i += 1` after a `::`),
`current_token`, `in_string`, `in_comment`, the rest of the code; the result is what is added to
`new_code`. -/
def scanAux (u : Char → Bool) (f : Str → Str) : Bool → Str → Bool → Bool → Str → Str
  | _, token, _, _, [] => flush f token
  | true, token, inString, inComment, _ :: rest => scanAux u f false token inString inComment rest
  | false, token, inString, inComment, c :: rest =>
    -- string literal start/end
    let inString := if c == '"' && !inComment then !inString else inString
    -- comment start
    let inComment := if c == '/' && rest.head? == some '/' && !inString then true else inComment
    if !inString && !inComment then
      if isWordChar u c then scanAux u f false (token ++ [c]) inString false rest
      else if c == ':' && rest.head? == some ':' then scanAux u f true (token ++ colons) inString false rest
      else flush f token ++ c :: scanAux u f false [] inString false rest
    else c :: scanAux u f false token inString (if c == '\n' then false else inComment) rest

/-- The scanner, see `scanAux`. -/
def scan (u : Char → Bool) (f : Str → Str) (token : Str) (inString inComment : Bool) (code : Str) : Str :=
  scanAux u f false token inString inComment code

/-- `/repo/src/srcmlcpp/cpp_types/scope/cpp_scope_process.py:33-89` `apply_scoped_identifiers_to_code` -/
def applyScopedIdentifiersToCode (u : Char → Bool) (code : Str) (hierarchy identifiers : List Str) : Str :=
  scan u (qualifyToken hierarchy identifiers) [] false false code

/-- `/repo/src/srcmlcpp/cpp_types/scope/cpp_scope_identifiers.py:41-66` `qualify_cpp_code` -/
def qualifyCppCode (u : Char → Bool) (identifiers : List Str) (code : Str) (scope : CppScope) : Str :=
  applyScopedIdentifiersToCode u code (scopeHierarchyPrefixList scope) identifiers

/-- `/repo/src/srcmlcpp/cpp_types/scope/cpp_scope_process.py:99-102` -/
def cutScope (first : Str) (scopeParts : List Str) : List Str :=
  if first ∈ scopeParts then scopeParts.drop (scopeParts.idxOf first) else scopeParts

/-- `if scoped_identifier.startswith(scope_extract): return scoped_identifier[len(scope_extract):]` -/
def removeExtract (identifier : Str) (parts : List Str) : Option Str :=
  let extract := join colons parts ++ colons
  if startsWith identifier extract then some (identifier.drop extract.length) else none

/-- `/repo/src/srcmlcpp/cpp_types/scope/cpp_scope_process.py:92-121` `_make_terse_scoped_identifier` -/
def makeTerse (scope identifier : Str) : Str :=
  let parts := cutScope ((split identifier colons).headD []) (split scope colons)
  match (List.range parts.length).findSome? (fun i => removeExtract identifier (parts.take (parts.length - i))) with
  | some r => r
  | none =>
    match (List.range parts.length).findSome? (fun i => removeExtract identifier (parts.drop i)) with
    | some r => r
    | none => identifier

/-- `/repo/src/srcmlcpp/cpp_types/scope/cpp_scope_process.py:124-169` `make_terse_code` -/
def makeTerseCode (u : Char → Bool) (code scopePrefix : Str) : Str :=
  scan u (makeTerse scopePrefix) [] false false code

end Verif.Scope
