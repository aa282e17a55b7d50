import Verif.Print.Model

/-! The lines of a C++ file: each line has a depth and a text. -/

namespace Verif.Print.Spec
open Verif.Py Verif.Print

structure Row where
  depth : Nat
  text : Str

/-- A line, indented by its depth; blanks at the end do not count. -/
def Row.line (ind : Str) (r : Row) : Str := rstrip ((List.replicate r.depth ind).flatten ++ r.text)

/-- The lines of a text. -/
def own (d : Nat) (s : Str) : List Row := (if endsWith s ['\n'] then (lines s).dropLast else lines s).map (Row.mk d)

mutual
/-- The lines of an element: the comment above, the element, the comment at the end of its (last) line. The elements of a namespace, of an enum and of
an access zone are one level deeper. `comma`: an enumerator which is not the last one. -/
def rows (prefixes : List Str) (d : Nat) (comma : Bool) : Elem → List Row
  | .emptyLine => [⟨d, []⟩]
  | .comment c t => own d (topCode c ++ (commentCode t ++ eolCode c))
  | .unprocessed c tag => own d (topCode c ++ (Print.unprocessed tag ++ eolCode c))
  | .define c n p v => own d (topCode c ++ (defineCode n p v ++ eolCode c))
  | .condition c s => own d (topCode c ++ (rstrip s ++ eolCode c))
  | .decl c x => own d (topCode c ++ (x.code ++ ((if comma then [','] else []) ++ eolCode c)))
  | .decls c ds => own d (topCode c ++ (declsCode ds ++ eolCode c))
  | .fn c f => own d (topCode c ++ (f.code prefixes ++ eolCode c))
  | .enum c k n t l => own d (topCode c ++ (enumCode k n t ++ ['\n'])) ++ [⟨d, ['{']⟩] ++ rowsAll prefixes (d + 1) true l ++ own d ("};".toList ++ eolCode c)
  | .namespace_ c n l => own d (topCode c ++ ("namespace ".toList ++ (n ++ ['\n']))) ++ [⟨d, ['{']⟩] ++ rowsAll prefixes (d + 1) false l ++
      own d ("}".toList ++ eolCode c)
  | .struct c h l => own d (topCode c ++ (h.code ++ ['\n'])) ++ [⟨d, ['{']⟩] ++ rowsAll prefixes d false l ++ own d ("};".toList ++ eolCode c)
  | .access c n dflt l => own d (topCode c ++ (n ++ (":".toList ++ ((if dflt then " // <default_access_type/>".toList else eolCode c) ++ ['\n'])))) ++
      rowsAll prefixes (d + 1) false l
/-- One element after the other. -/
def rowsAll (prefixes : List Str) (d : Nat) (isEnum : Bool) : List Elem → List Row
  | [] => []
  | e :: l => rows prefixes d (isEnum && !l.isEmpty) e ++ rowsAll prefixes d isEnum l
end

/-- The elements of an enum: the enumerators and the empty lines can be followed by others. -/
def enumerators : List Elem → Bool
  | [] => true
  | [_] => true
  | .decl _ _ :: l => enumerators l
  | .emptyLine :: l => enumerators l
  | _ => false

mutual
/-- No comment at the end of the line of a class or of an enum, no comment on an access zone, only enumerators (and empty lines) in an enum. -/
def clear : Elem → Bool
  | .enum c _ _ _ l => c.eol = [] && enumerators l && clearAll l
  | .struct c _ l => c.eol = [] && clearAll l
  | .namespace_ _ _ l => clearAll l
  | .access c _ _ l => c.top = [] && !c.cStyle && c.eol = [] && clearAll l
  | _ => true
def clearAll : List Elem → Bool
  | [] => true
  | e :: l => clear e && clearAll l
end

end Verif.Print.Spec
