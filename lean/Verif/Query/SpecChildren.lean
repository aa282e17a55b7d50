import Verif.Query.ModelChildren

/-! What a class publishes, element by element. -/

namespace Verif.Query.Spec
open Verif.Py Verif.Query

/-- The elements of a class with the access `a`, in the order of the code. -/
def within (a : Str) (block : List Child) : List Child :=
  block.flatMap (fun z => match z with | .zone b l => if a = b then l else [] | _ => [])

/-- The names of the functions of a class, whatever their access. -/
def functionNames (block : List Child) : List Str :=
  block.flatMap (fun z => match z with | .zone _ l => l.filterMap (fun c => match c with | .fn n _ _ => some n | _ => none) | _ => [])

/-- A published element, without the content of the classes. The flag of a function says that the class has another function with this name. -/
inductive Item where
  | emptyLine
  | comment (text : Str)
  | fn (name : Str) (overloaded : Bool)
  | member (name : Str)
  | cls (name : Str)
  | enum (name : Str)
  | macro_
deriving DecidableEq

/-- The item of an adapted element. -/
def itemOf : Pub → Item
  | .emptyLine => .emptyLine
  | .comment t => .comment t
  | .fn n b => .fn n b
  | .member n => .member n
  | .cls n _ _ => .cls n
  | .enum n => .enum n
  | .macro_ => .macro_

/-- The function of a protected zone that is published when the protected methods are exposed. -/
def protectedFn (block : List Child) : Child → Option (Str × Bool)
  | .fn n true _ => some (n, decide (2 ≤ (functionNames block).count n))
  | _ => none

/-- A function that is publishable and raises. -/
def bad : Child → Bool
  | .fn _ p r => p && r
  | _ => false

/-- The class can be adapted: its protected methods are not exposed, or none of those that are publishable raises. -/
def adaptable (o : Options) (cls : Str) (block : List Child) : Bool :=
  !o.exposeProtected cls || (within "protected".toList block).all (fun c => !bad c)

/-- A member that is published. -/
def memberOk (o : Options) (cls : Str) (d : Member) : Bool :=
  d.canPublish && !o.excludeOfClass cls d.name && !o.excludeMember d.name && !o.excludeType d.type

/-- What is published for an element of a public zone. -/
def shownOf (o : Options) (cls : Str) (block : List Child) : Child → List Item
  | .emptyLine => [.emptyLine]
  | .comment t => [.comment t]
  | .fn n p r => if p ∧ ¬ r ∧ ¬ o.excludeOfClass cls n then [.fn n (decide (2 ≤ (functionNames block).count n))] else []
  | .decls ds => (ds.filter (memberOk o cls)).map (fun d => .member d.name)
  | .struct n b => if ¬ o.excludeClass n ∧ adaptable o n b then [.cls n] else []
  | .enum n => if ¬ o.excludeEnum n then [.enum n] else []
  | .macro_ => [.macro_]
  | _ => []

/-- What the class `cls` publishes, without the content of its inner classes. -/
def shown (o : Options) (cls : Str) (block : List Child) : List Item := (within "public".toList block).flatMap (shownOf o cls block)

/-- The item `i` is published by the inner class at the path `path`: all the classes of the path are public, not excluded, adaptable. -/
def ShownAt (o : Options) : Str → List Child → List Str → Item → Prop
  | cls, block, [], i => i ∈ shown o cls block
  | _, block, n :: path, i =>
    ∃ b, .struct n b ∈ within "public".toList block ∧ o.excludeClass n = false ∧ adaptable o n b = true ∧ ShownAt o n b path i

/-- The item `i` is in the adapted class at the path `path`. -/
def PresentAt : List Pub → List Str → Item → Prop
  | l, [], i => i ∈ l.map itemOf
  | l, n :: path, i => ∃ ch prot, .cls n ch prot ∈ l ∧ PresentAt ch path i

mutual
/-- The class without the content of its private zones, save the names of the functions. -/
def hide : Child → Child
  | .zone a l =>
    if a = "private".toList then .zone a (l.filterMap (fun c => match c with | .fn n _ _ => some (.fn n false false) | _ => none)) else .zone a (hideAll l)
  | .struct n b => .struct n (hideAll b)
  | .emptyLine => .emptyLine
  | .comment t => .comment t
  | .fn n p r => .fn n p r
  | .decls ds => .decls ds
  | .unprocessed => .unprocessed
  | .enum n => .enum n
  | .macro_ => .macro_
  | .other => .other
/-- The same for the elements of a block. -/
def hideAll : List Child → List Child
  | [] => []
  | c :: r => hide c :: hideAll r
end

end Verif.Query.Spec
