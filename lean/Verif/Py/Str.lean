/-
Python strings and the `str` methods litgen uses, modelled on `List Char`.

These definitions transcribe CPython's documented behaviour of `str.split`, `str.join`,
`str.replace`, `str.strip`, `str.startswith`, `in`, ...; they are part of the trusted base.
-/

namespace Verif.Py

/-- A Python `str`. -/
abbrev Str := List Char

/-- Python `str.isspace` of a one character string (all Unicode white space characters). -/
def isSpace (c : Char) : Bool :=
  let n := c.toNat
  (9 ≤ n && n ≤ 13) || (28 ≤ n && n ≤ 31) || n == 32 || n == 133 || n == 160 || n == 5760 ||
  (8192 ≤ n && n ≤ 8202) || n == 8232 || n == 8233 || n == 8239 || n == 8287 || n == 12288

/-- `s.lstrip()` -/
def lstrip (s : Str) : Str := s.dropWhile isSpace

/-- `s.rstrip()` -/
def rstrip (s : Str) : Str := (s.reverse.dropWhile isSpace).reverse

/-- `s.strip()` -/
def strip (s : Str) : Str := rstrip (lstrip s)

/-- `len(s.strip()) == 0`: the line is blank. -/
def isBlank (s : Str) : Bool := (strip s).length == 0

/-- `s.split(c)` for a one character separator: never empty. -/
def splitOn (c : Char) : Str → List Str
  | [] => [[]]
  | x :: xs =>
    if x = c then [] :: splitOn c xs
    else match splitOn c xs with
      | [] => [[x]]
      | l :: ls => (x :: l) :: ls

/-- `sep.join(parts)` -/
def join (sep : Str) : List Str → Str
  | [] => []
  | [l] => l
  | l :: ls => l ++ sep ++ join sep ls

/-- `s.split("\n")` -/
def lines (s : Str) : List Str := splitOn '\n' s

/-- `"\n".join(ls)` -/
def unlines (ls : List Str) : Str := join ['\n'] ls

/-- `s.startswith(p)` -/
def startsWith (s p : Str) : Bool := p.isPrefixOf s

/-- `s.endswith(p)` -/
def endsWith (s p : Str) : Bool := p.isSuffixOf s

/-- `p in s` -/
def contains (s p : Str) : Bool :=
  match s with
  | [] => p.isPrefixOf []
  | c :: cs => p.isPrefixOf (c :: cs) || contains cs p

/-- Scanner behind `s.replace(old, new)`, `old` non empty: left to right, non overlapping.
`k` is the number of characters still to skip after a match. -/
def replaceAux (old new : Str) : Nat → Str → Str
  | _, [] => []
  | k + 1, _ :: cs => replaceAux old new k cs
  | 0, c :: cs =>
    if old.isPrefixOf (c :: cs) then new ++ replaceAux old new (old.length - 1) cs
    else c :: replaceAux old new 0 cs

/-- `s.replace(old, new)` for a non empty `old` (the only use in the modelled code). -/
def replace (s old new : Str) : Str := replaceAux old new 0 s

/-- `" " * n` -/
def spaces (n : Nat) : Str := List.replicate n ' '

/-- Scanner behind `s.split(sep)`, `sep` non empty: `cur` is the (reversed) current piece. -/
def splitAux (sep : Str) : Nat → Str → Str → List Str
  | _, cur, [] => [cur.reverse]
  | k + 1, cur, _ :: cs => splitAux sep k cur cs
  | 0, cur, c :: cs =>
    if sep.isPrefixOf (c :: cs) then cur.reverse :: splitAux sep (sep.length - 1) [] cs
    else splitAux sep 0 (c :: cur) cs

/-- `s.split(sep)` for a non empty `sep`. -/
def split (s sep : Str) : List Str := splitAux sep 0 [] s

end Verif.Py
