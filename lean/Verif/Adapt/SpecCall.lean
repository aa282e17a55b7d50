import Mathlib.Data.List.Forall2
import Verif.Adapt.SpecRun
import Verif.Adapt.SpecBuffers

/-! What each kind of adaptation promises about a call: for one parameter `p`, what Python gives, what C++ receives, what
C++ leaves and what Python sees afterwards. -/

namespace Verif.Adapt.Spec
open Verif.Py Verif.Type

/-- The parameter is passed as it is. -/
inductive Kept (p : Param) : Passing → Prop
  | mk (v v' : Val) : MayBecome p v v' → Kept p { python := [v], cpp := [v], cppAfter := [v'], pythonAfter := [v'] }

/-- Hidden parameters: C++ receives the default value. -/
inductive ExcludeCall (code : Code) (o : Options) (p : Param) : Passing → Prop
  | hidden (v' : Val) : Excluded o p →
      ExcludeCall code o p { python := [], cpp := [code p.default], cppAfter := [v'], pythonAfter := [] }
  | kept (x : Passing) : ¬ Excluded o p → Kept p x → ExcludeCall code o p x

/-- The default value is an object that may be modified: `looksMutable`, and the parameter is passed by value or by
constant reference. -/
def MutableDefault (o : Options) (p : Param) : Prop :=
  strip p.default ≠ [] ∧ "&&".toList ∉ p.type.modifiers ∧ "*".toList ∉ p.type.modifiers ∧ "...".toList ∉ p.type.modifiers ∧
  ¬ (p.type.typenames = ["void".toList] ∧ p.type.specifiers = [] ∧ p.type.modifiers = []) ∧
  ("&".toList ∈ p.type.modifiers → "const".toList ∈ p.type.specifiers ∨ "constexpr".toList ∈ p.type.specifiers) ∧
  o.looksMutable p.type p.default = true

/-- Mutable default values: Python may give `None`, then C++ receives a new default value. -/
inductive MutableCall (code : Code) (o : Options) (p : Param) : Passing → Prop
  | missing (v' : Val) : MutableDefault o p →
      MutableCall code o p { python := [.none_], cpp := [code p.default], cppAfter := [v'], pythonAfter := [.none_] }
  | given (v v' : Val) : MutableDefault o p →
      MutableCall code o p { python := [.some_ v], cpp := [v], cppAfter := [v'], pythonAfter := [.some_ v] }
  | kept (x : Passing) : ¬ MutableDefault o p → Kept p x → MutableCall code o p x

/-- The parameter is an array of `n` items. -/
def IsArrayOf (o : Options) (p : Param) (n : Nat) : Prop := p.arrayCode ≠ [] ∧ o.arraySize p.arrayCode = some n

/-- A constant array of `n` items, which the options ask to convert. -/
def StdArray (o : Options) (fname : Str) (p : Param) (n : Nat) : Prop :=
  "const".toList ∈ p.type.specifiers ∧ IsArrayOf o p n ∧ o.stdArrays fname = true

/-- An array of `n` items that can be modified, which the options ask to convert. -/
def BoxedArray (o : Options) (fname : Str) (p : Param) (n : Nat) : Prop :=
  "const".toList ∉ p.type.specifiers ∧ IsArrayOf o p n ∧ o.boxedArrays fname = true ∧ n ≤ o.boxedArrayMaxSize

/-- C arrays: C++ receives a pointer to the items; each item of an array that is not constant is a parameter of its own,
which is a box if the type is immutable in Python. -/
inductive ArrayCall (o : Options) (fname : Str) (p : Param) : Passing → Prop
  | std (l : List Val) : StdArray o fname p l.length →
      ArrayCall o fname p { python := [.list l], cpp := [.ptr (.list l)], cppAfter := [.ptr (.list l)], pythonAfter := [.list l] }
  | boxes (l l' : List Val) : BoxedArray o fname p l.length → l'.length = l.length →
      o.immutable ((strCode p.type).getD []) = true →
      ArrayCall o fname p { python := l.map .box, cpp := [.ptr (.list l)], cppAfter := [.ptr (.list l')],
                            pythonAfter := l'.map .box }
  | objects (l l' : List Val) : BoxedArray o fname p l.length → l'.length = l.length →
      o.immutable ((strCode p.type).getD []) = false →
      ArrayCall o fname p { python := l, cpp := [.ptr (.list l)], cppAfter := [.ptr (.list l')], pythonAfter := l' }
  | kept (x : Passing) : (∀ n, ¬ StdArray o fname p n ∧ ¬ BoxedArray o fname p n) → Kept p x → ArrayCall o fname p x

/-- `const char * p = nullptr` -/
def NullText (p : Param) : Prop :=
  p.type.modifiers = ["*".toList] ∧ "const".toList ∈ p.type.specifiers ∧ p.type.typenames = ["char".toList] ∧
  (p.default = "NULL".toList ∨ p.default = "nullptr".toList)

/-- Optional texts: `None` is a null pointer. -/
inductive NullTextCall (p : Param) : Passing → Prop
  | none_ : NullText p → NullTextCall p { python := [.none_], cpp := [.null], cppAfter := [.null], pythonAfter := [.none_] }
  | some_ (v : Val) : NullText p →
      NullTextCall p { python := [.some_ v], cpp := [.ptr v], cppAfter := [.ptr v], pythonAfter := [.some_ v] }
  | kept (x : Passing) : ¬ NullText p → Kept p x → NullTextCall p x

/-- A reference (or a pointer, see `m`) to an immutable type that is not constant. -/
def OutputVia (o : Options) (m : Str) (p : Param) : Prop :=
  p.type.modifiers = [m] ∧ "const".toList ∉ p.type.specifiers ∧ o.immutable (join [' '] p.type.typenames) = true

def NullDefault (p : Param) : Prop := p.default = "NULL".toList ∨ p.default = "nullptr".toList

/-- Modifiable parameters: what C++ leaves in them is added to the result. -/
inductive ReturnCall (o : Options) (p : Param) : Passing → Prop
  | ref (v v' : Val) : OutputVia o "&".toList p → p.arrayCode = [] →
      ReturnCall o p { python := [v], cpp := [v], cppAfter := [v'], pythonAfter := [v], output := [v'] }
  | pointer (v v' : Val) : OutputVia o "*".toList p → p.arrayCode = [] → ¬ NullDefault p →
      ReturnCall o p { python := [v], cpp := [.ptr v], cppAfter := [.ptr v'], pythonAfter := [v], output := [v'] }
  | some_ (v v' : Val) : OutputVia o "*".toList p → p.arrayCode = [] → NullDefault p →
      ReturnCall o p { python := [.some_ v], cpp := [.ptr v], cppAfter := [.ptr v'], pythonAfter := [.some_ v], output := [.some_ v'] }
  | none_ : OutputVia o "*".toList p → p.arrayCode = [] → NullDefault p →
      ReturnCall o p { python := [.none_], cpp := [.null], cppAfter := [.null], pythonAfter := [.none_], output := [.none_] }
  | array (l l' : List Val) : HiddenOutput o p → p.type.modifiers = [] → IsArrayOf o p l.length → l'.length = l.length →
      ReturnCall o p { python := [.list l], cpp := [.ptr (.list l)], cppAfter := [.ptr (.list l')], pythonAfter := [.list l],
                       output := [.list l'] }
  | kept (x : Passing) : ¬ HiddenOutput o p → Kept p x → ReturnCall o p x

/-- Modifiable parameters: Python gives a box, and sees in it what C++ leaves. -/
inductive BoxedCall (o : Options) (p : Param) : Passing → Prop
  | ref (v v' : Val) : OutputVia o "&".toList p →
      BoxedCall o p { python := [.box v], cpp := [v], cppAfter := [v'], pythonAfter := [.box v'] }
  | pointer (v v' : Val) : OutputVia o "*".toList p → ¬ NullDefault p →
      BoxedCall o p { python := [.box v], cpp := [.ptr v], cppAfter := [.ptr v'], pythonAfter := [.box v'] }
  | some_ (v v' : Val) : OutputVia o "*".toList p → NullDefault p →
      BoxedCall o p { python := [.ptr (.box v)], cpp := [.ptr v], cppAfter := [.ptr v'], pythonAfter := [.ptr (.box v')] }
  | none_ : OutputVia o "*".toList p → NullDefault p →
      BoxedCall o p { python := [.null], cpp := [.null], cppAfter := [.null], pythonAfter := [.null] }
  | kept (x : Passing) : ¬ OutputVia o "&".toList p → ¬ OutputVia o "*".toList p → Kept p x → BoxedCall o p x

/-- A list of strings as C++ receives it: a pointer to pointers to the strings. -/
def cStrings (l : List Val) : Val := .ptr (.list (l.map .ptr))

/-- Lists of strings without size. -/
inductive StringsCall (p : Param) : Passing → Prop
  | strings (l : List Val) : IsStringList p →
      StringsCall p { python := [.list l], cpp := [cStrings l], cppAfter := [cStrings l], pythonAfter := [.list l] }
  | kept (x : Passing) : ¬ IsStringList p → Kept p x → StringsCall p x

/-- Lists of strings followed by their size: C++ receives the strings and their number. -/
inductive SizedStringsCall (o : Options) : List Param → List Passing → Prop
  | nil : SizedStringsCall o [] []
  | strings (l : List Val) {p q : Param} {ps : List Param} {xs : List Passing} : IsStringList p → o.bufferSizeName q.name = true →
      SizedStringsCall o ps xs →
      SizedStringsCall o (p :: q :: ps)
        ({ python := [.list l], cpp := [cStrings l, .data l.length], cppAfter := [cStrings l, .data l.length],
           pythonAfter := [.list l] } :: xs)
  | kept {p : Param} {ps : List Param} {x : Passing} {xs : List Passing} :
      ¬ (IsStringList p ∧ ∃ q r, ps = q :: r ∧ o.bufferSizeName q.name = true) → Kept p x →
      SizedStringsCall o ps xs → SizedStringsCall o (p :: ps) (x :: xs)

/-- Variadic functions `(..., const char * fmt, ...)`: C++ receives the format `"%s"` and the text. -/
inductive FormatCall (code : Code) : List Param → List Passing → Prop
  | format (fmt last : Param) (v v' c : Val) : MayBecome fmt v v' →
      FormatCall code [fmt, last]
        [{ python := [v], cpp := [code "\"%s\"".toList, v], cppAfter := [c, v'], pythonAfter := [v'] }]
  | kept {p : Param} {ps : List Param} {x : Passing} {xs : List Passing} :
      Kept p x → FormatCall code ps xs → FormatCall code (p :: ps) (x :: xs)

/-- The last buffer among the parameters number 0 to `i` is given as an array of the items `l`, of the type `t` and of the size
`z` in bytes. -/
def ArrayBefore (o : Options) (ps : List Param) (xs : List Passing) (i : Nat) (t : Str) (z : Int) (l : List Val) : Prop :=
  ∃ j ≤ i, (∃ b, ps[j]? = some b ∧ LooksLikeBuffer o b) ∧ (∀ k q, j < k → k ≤ i → ps[k]? = some q → ¬ LooksLikeBuffer o q) ∧
    ∃ x, xs[j]? = some x ∧ x.python = [.array t z true l]

/-- Buffers: C++ receives a pointer to the items of an array, and the number of items of the last array before as size. A
stride of -1 is the size of an item. -/
inductive BufferCall (o : Options) (ps : List Param) (xs : List Passing) (i : Nat) (p : Param) : Passing → Prop
  | standard (t : Str) (z : Int) (l l' : List Val) : Recognised o ps i → o.templateBuffer p.type = false →
      p.type.typenames.head? = some t → l'.length = l.length →
      BufferCall o ps xs i p { python := [.array t z true l], cpp := [.ptr (.list l)], cppAfter := [.ptr (.list l')],
                               pythonAfter := [.array t z true l'] }
  | template (t : Str) (z : Int) (l l' : List Val) : o.templateBuffer p.type = true → l'.length = l.length →
      BufferCall o ps xs i p { python := [.array t z true l], cpp := [.ptr (.list l)], cppAfter := [.ptr (.list l')],
                               pythonAfter := [.array t z true l'] }
  | size (t : Str) (z : Int) (l : List Val) (w : Val) : IsSizeAt o ps i → ¬ LooksLikeStride p → ArrayBefore o ps xs i t z l →
      BufferCall o ps xs i p { python := [], cpp := [.data l.length], cppAfter := [w], pythonAfter := [] }
  | stride (k : Int) (t : Str) (z : Int) (l : List Val) (w : Val) : LooksLikeStride p → ¬ IsSizeAt o ps i →
      ArrayBefore o ps xs i t z l →
      BufferCall o ps xs i p { python := [.data k], cpp := [.data (if k = -1 then z else k)], cppAfter := [w],
                               pythonAfter := [.data k] }
  | kept (x : Passing) : ¬ Recognised o ps i → o.templateBuffer p.type = false → ¬ IsSizeAt o ps i → ¬ LooksLikeStride p →
      Kept p x → BufferCall o ps xs i p x

/-- The arrays of the template type have the same type of items, which is one of the `known` types. -/
structure BuffersCall (o : Options) (known : List Str) (ps : List Param) (xs : List Passing) : Prop where
  length : xs.length = ps.length
  each : ∀ i p x, ps[i]? = some p → xs[i]? = some x → BufferCall o ps xs i p x
  known : ∀ (i : Nat) p x t z c l, ps[i]? = some p → xs[i]? = some x → o.templateBuffer p.type = true →
    x.python = [.array t z c l] → t ∈ known
  same : ∀ (i j : Nat) p q x y t z c l t' z' c' l', ps[i]? = some p → xs[i]? = some x → ps[j]? = some q → xs[j]? = some y →
    o.templateBuffer p.type = true → o.templateBuffer q.type = true → x.python = [.array t z c l] →
    y.python = [.array t' z' c' l'] → t' = t

/-- What the lambda that ends with `suffix` promises about a call of a function with the parameters `ps`: the passing of
the parameters, and the result `res` of the lambda when the result of the function is `r`. -/
inductive StageCall (code : Code) (o : Options) (known : List Str) (fname : Str) (isVoid : Bool) (r : Val) (ps : List Param) (xs : List Passing) :
    Str → Val → Prop
  | buffers : BuffersCall o known ps xs → StageCall code o known fname isVoid r ps xs "_adapt_c_buffers".toList r
  | exclude : List.Forall₂ (ExcludeCall code o) ps xs → StageCall code o known fname isVoid r ps xs "_adapt_exclude_params".toList r
  | mutable_ : List.Forall₂ (MutableCall code o) ps xs →
      StageCall code o known fname isVoid r ps xs "_adapt_mutable_param_with_default_value".toList r
  | arrays : List.Forall₂ (ArrayCall o fname) ps xs →
      StageCall code o known fname isVoid r ps xs "_adapt_fixed_size_c_arrays".toList r
  | nullText : List.Forall₂ NullTextCall ps xs →
      StageCall code o known fname isVoid r ps xs "_adapt_const_char_pointer_with_default_null".toList r
  | return_ : List.Forall₂ (ReturnCall o) ps xs →
      StageCall code o known fname isVoid r ps xs "_adapt_modifiable_immutable_to_return".toList
        (tuple (if isVoid then xs.flatMap (·.output) else r :: xs.flatMap (·.output)))
  | boxed : List.Forall₂ (BoxedCall o) ps xs → StageCall code o known fname isVoid r ps xs "_adapt_modifiable_immutable".toList r
  | sizedStrings : SizedStringsCall o ps xs → StageCall code o known fname isVoid r ps xs "_adapt_c_string_list".toList r
  | strings : List.Forall₂ StringsCall ps xs → StageCall code o known fname isVoid r ps xs "_adapt_c_string_list_no_count".toList r
  | format : FormatCall code ps xs → StageCall code o known fname isVoid r ps xs "_adapt_variadic_format".toList r
  | force : List.Forall₂ Kept ps xs → StageCall code o known fname isVoid r ps xs "_adapt_force_lambda".toList r

/-- The parameters that are converted properly: an optional text is `const char *` and not `const char * const`; an array of
pointers is either of a boxed type or not, whether its stars are counted or not; no list of strings is named like a size. -/
structure Plain (o : Options) (ps : List Param) : Prop where
  text : ∀ p ∈ ps, NullText p → p.type.specifiers.count "const".toList ≤ 1
  array : ∀ p ∈ ps, p.arrayCode ≠ [] → o.immutable (join [' '] p.type.typenames) = o.immutable ((strCode p.type).getD [])
  lists : NoListNamedSize o ps

/-- The function that is bound: the lambdas around the C++ function `f`. -/
def wrapped (code : Code) (sizes : Str → Option Nat) (known : List Str) (f : Callee) : List Lambda → Callee
  | [] => f
  | l :: r => wrapped code sizes known (run code sizes known f l) r

/-- In a call of `l` with the arguments `vs`, the argument named `x` is `v`. -/
def Given (l : Lambda) (vs : List Val) (x : Str) (v : Val) : Prop :=
  vs.length = l.params.length ∧ ∃ (m : Nat) (q : Param), l.params[m]? = some q ∧ q.name = x ∧ vs[m]? = some v

/-- The C++ function is never called: the lambda fails in the same way whatever this function is. -/
def Rejected (code : Code) (sizes : Str → Option Nat) (known : List Str) (l : Lambda) (vs : List Val) : Prop :=
  ∃ e, ∀ f : Callee, run code sizes known f l vs = .error e

/-- A call: the contents of the arguments before and after, and the result. -/
structure Call where
  before : List Val
  after : List Val
  result : Val

/-- What becomes of a call through the lambdas, from the call of the C++ function to the call from Python. -/
inductive Journey (code : Code) (o : Options) (known : List Str) (fname : Str) (isVoid : Bool) :
    List Param → List Lambda → Call → Call → Prop
  | nil (ps : List Param) (c : Call) : Journey code o known fname isVoid ps [] c c
  | cons {ps : List Param} {l : Lambda} {ls : List Lambda} {xs : List Passing} {suffix : Str} {r res : Val} {c : Call} :
      l.name = fname ++ suffix → StageCall code o known fname isVoid r ps xs suffix res →
      Journey code o known fname isVoid l.params ls ⟨xs.flatMap (·.python), xs.flatMap (·.pythonAfter), res⟩ c →
      Journey code o known fname isVoid ps (l :: ls) ⟨xs.flatMap (·.cpp), xs.flatMap (·.cppAfter), r⟩ c

end Verif.Adapt.Spec
