import Verif.Prep.Model

/-! Specification: a file is a sequence of pieces of code, comments and conditional regions. -/

namespace Verif.Prep.Spec
open Verif.Py

mutual
/-- A sequence of pieces of code, comments and regions. A region has an opening directive (with its
line and the name of its macro), a first branch, other branches, and an `#endif` with its line. -/
inductive Doc where
  | nil
  | code (e : Elem) (rest : Doc)
  | comment (e : Elem) (rest : Doc)
  | region (opening : Elem) (line : Int) (guard : Str) (first : Doc) (others : Branches)
      (closing : Elem) (closingLine : Int) (rest : Doc)
/-- The other branches, each introduced by `#else` or `#elif` (with its line). -/
inductive Branches where
  | nil
  | cons (directive : Elem) (line : Int) (body : Doc) (rest : Branches)
end

mutual
/-- The elements of a file, in order. -/
def Doc.flat : Doc → List Elem
  | .nil => []
  | .code e r => e :: r.flat
  | .comment e r => e :: r.flat
  | .region o _ _ f b c _ r => o :: (f.flat ++ (b.flat ++ c :: r.flat))
def Branches.flat : Branches → List Elem
  | .nil => []
  | .cons d _ body r => d :: (body.flat ++ r.flat)
end

/-- Only the directives of the other branches. -/
def Branches.bare : Branches → Branches
  | .nil => .nil
  | .cons d l _ r => .cons d l .nil r.bare

/-- What shall be kept: `active` tells whether every enclosing region is acceptable and in its first
branch; `last` is the line of the last directive seen. A comment on the line of the last directive is
removed with it. Nothing is kept at an inactive place. A region at an active place is kept when its
macro is acceptable: its directives, and what is kept of its first branch; nothing of its other
branches. -/
def Doc.keep (acc : Str → Bool) : Bool → Int → Doc → Doc
  | _, _, .nil => .nil
  | active, last, .code e r =>
    if active = true then .code e (r.keep acc active last) else r.keep acc active last
  | active, last, .comment e r =>
    if active = true ∧ e.startLine ≠ some last then .comment e (r.keep acc active last)
    else r.keep acc active last
  | active, _, .region o l m f b c cl r =>
    if active = true ∧ acc m = true then
      .region o l m (f.keep acc true l) b.bare c cl (r.keep acc active cl)
    else r.keep acc active cl

mutual
/-- The tags agree with the kind of item, directives have a position and a macro name. -/
def Doc.WF : Doc → Prop
  | .nil => True
  | .code e r => (∃ n, e.tag = .other n) ∧ r.WF
  | .comment e r => e.tag = .comment ∧ r.WF
  | .region o l m f b c cl r =>
    (o.tag = .if_ ∨ o.tag = .ifdef ∨ o.tag = .ifndef) ∧ o.endLine = some l ∧ macroName o = some m ∧
    f.WF ∧ b.WF ∧ c.tag = .endif ∧ c.endLine = some cl ∧ r.WF
def Branches.WF : Branches → Prop
  | .nil => True
  | .cons d l body r => (d.tag = .else_ ∨ d.tag = .elif) ∧ d.endLine = some l ∧ body.WF ∧ r.WF
end

mutual
/-- `At doc path e`: the piece of code `e` is in `doc`; `path` lists the regions around it, outermost
first, each with its macro and whether the code is in the first branch. -/
inductive At : Doc → List (Str × Bool) → Elem → Prop
  | here (e : Elem) (r : Doc) : At (.code e r) [] e
  | code (x : Elem) (r : Doc) (path : List (Str × Bool)) (e : Elem) (h : At r path e) :
      At (.code x r) path e
  | comment (x : Elem) (r : Doc) (path : List (Str × Bool)) (e : Elem) (h : At r path e) :
      At (.comment x r) path e
  | after (o : Elem) (l : Int) (m : Str) (f : Doc) (b : Branches) (c : Elem) (cl : Int) (r : Doc)
      (path : List (Str × Bool)) (e : Elem) (h : At r path e) : At (.region o l m f b c cl r) path e
  | first (o : Elem) (l : Int) (m : Str) (f : Doc) (b : Branches) (c : Elem) (cl : Int) (r : Doc)
      (path : List (Str × Bool)) (e : Elem) (h : At f path e) :
      At (.region o l m f b c cl r) ((m, true) :: path) e
  | other (o : Elem) (l : Int) (m : Str) (f : Doc) (b : Branches) (c : Elem) (cl : Int) (r : Doc)
      (path : List (Str × Bool)) (e : Elem) (h : AtBranch b path e) :
      At (.region o l m f b c cl r) ((m, false) :: path) e
inductive AtBranch : Branches → List (Str × Bool) → Elem → Prop
  | here (d : Elem) (l : Int) (body : Doc) (r : Branches) (path : List (Str × Bool)) (e : Elem)
      (h : At body path e) : AtBranch (.cons d l body r) path e
  | next (d : Elem) (l : Int) (body : Doc) (r : Branches) (path : List (Str × Bool)) (e : Elem)
      (h : AtBranch r path e) : AtBranch (.cons d l body r) path e
end

mutual
/-- The candidates for the macro name of an `#if`, in document order: the texts of the names other
than `defined`, and the non blank texts of the arguments. -/
def candidates : Xml → List Str
  | .node tag text children =>
    (if tag = "name".toList ∧ text ≠ some "defined".toList then text.toList
     else if tag = "argument".toList then (text.map strip).toList.filter (fun t => decide (t ≠ []))
     else []) ++ candidatesList children
def candidatesList : List Xml → List Str
  | [] => []
  | x :: xs => candidates x ++ candidatesList xs
end

mutual
/-- Texts of names are not empty (an empty XML text is absent). -/
def TextsOK : Xml → Prop
  | .node tag text children => (tag = "name".toList → text ≠ some []) ∧ TextsOKList children
def TextsOKList : List Xml → Prop
  | [] => True
  | x :: xs => TextsOK x ∧ TextsOKList xs
end

end Verif.Prep.Spec
