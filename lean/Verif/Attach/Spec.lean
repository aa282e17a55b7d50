import Verif.Attach.Model

/-! Specification: how comments are grouped, and where they go. -/

namespace Verif.Attach.Spec
open Verif.Py

/-- Empty line markers are removed from comments of several lines (when they are put on top of an
element). -/
def topText (s : Str) : Str := if '\n' ∈ s then replace s "// _SRCML_EMPTY_LINE_".toList [] else s

/-- Reading the children from left to right, each child is used exactly once: an element that is not
a comment is always in the result; a comment is either standalone, or on top of the next element
(which starts on the next line), or at the end of the line of the previous element. -/
inductive Placed : List Child → List Out → Prop
  | nil : Placed [] []
  | standalone (c : Child) (cs : List Child) (os : List Out) (hc : c.isComment = true)
      (h : Placed cs os) : Placed (c :: cs) (⟨c, [], []⟩ :: os)
  | plain (e : Child) (cs : List Child) (os : List Out) (he : e.isComment = false)
      (h : Placed cs os) : Placed (e :: cs) (⟨e, [], []⟩ :: os)
  | top (c e : Child) (cs : List Child) (os : List Out) (hc : c.isComment = true)
      (he : e.isComment = false) (hl : c.stop + 1 = e.start) (h : Placed cs os) :
      Placed (c :: e :: cs) (⟨e, topText c.textD, []⟩ :: os)
  | eol (e d : Child) (cs : List Child) (os : List Out) (he : e.isComment = false)
      (hd : d.isComment = true) (hl : d.start = e.stop) (h : Placed cs os) :
      Placed (e :: d :: cs) (⟨e, [], d.textD⟩ :: os)
  | both (c e d : Child) (cs : List Child) (os : List Out) (hc : c.isComment = true)
      (he : e.isComment = false) (hd : d.isComment = true) (hl : c.stop + 1 = e.start)
      (hl' : d.start = e.stop) (h : Placed cs os) :
      Placed (c :: e :: d :: cs) (⟨e, topText c.textD, d.textD⟩ :: os)

/-- The comment marks an empty line. -/
def Marked (c : Child) : Prop := ∃ t a b, c.text = some t ∧ t = a ++ "_SRCML_EMPTY_LINE_".toList ++ b

/-- Consecutive comments that can be grouped: each starts on the line after the end of the one
before, and none marks an empty line. -/
def Groupable : List Child → Prop
  | [] => True
  | [_] => True
  | a :: b :: cs => a.isComment = true ∧ b.isComment = true ∧ b.start = a.stop + 1 ∧
      ¬ Marked a ∧ ¬ Marked b ∧ Groupable (b :: cs)

/-- The text after the leading `//`, if there is one. -/
def body (t : Str) : Str := if ['/', '/'] <+: t then t.drop 2 else t

/-- The comment that stands for a group: the first one, with the texts of all, to the end of the
last one. -/
def merged : List Child → Option Child
  | [] => none
  | c :: cs => some { c with
      text := c.text.map (fun t => t ++ cs.flatMap (fun d => "_SRCML_LINEFEED_".toList ++ body d.textD)),
      stop := (c :: cs).getLast?.elim c.stop Child.stop }

/-- The comments that are in the result, each in one place: on top of an element, at the end of its
line, or as an element. -/
def texts (o : Out) : List Str :=
  [o.onPreviousLines] ++ (if o.element.isComment then [o.element.textD] else []) ++ [o.endOfLine]

end Verif.Attach.Spec
