import Verif.Adapt.SpecCall

/-! Vocabulary of the property C55: the parameters that Python sees in the place of a C++ parameter. -/

namespace Verif.Adapt.Spec
open Verif.Py Verif.Type

/-- The text of a C++ type. -/
def typeText (t : CppType) : Str := (strCode t).getD []

/-- `std::optional<t>` -/
def optionalOf (t : Str) : Str := "std::optional<".toList ++ t ++ ">".toList

/-- `std::array<t, n>` -/
def arrayOf (t : Str) (n : Nat) : Str := "std::array<".toList ++ t ++ ", ".toList ++ (toString n).toList ++ ">".toList

/-- The type without reference, and constant. -/
def constValue (t : CppType) : CppType :=
  { t with modifiers := t.modifiers.erase "&".toList
           specifiers := if "const".toList ∈ t.specifiers then t.specifiers else t.specifiers ++ ["const".toList] }

/-- A mutable default value: the parameter becomes a constant reference to an optional, empty by default. -/
inductive MutableSeen (o : Options) (p : Param) : List Param → Prop
  | optional : MutableDefault o p →
      MutableSeen o p [⟨p.name, ⟨["const".toList], [optionalOf (typeText (constValue p.type))], ["&".toList]⟩, p.arrayCode,
        "std::nullopt".toList⟩]
  | kept : ¬ MutableDefault o p → MutableSeen o p [p]

/-- A C array: a constant one becomes a `std::array` of the same size; another one becomes one parameter for each item, which
is a reference, to a box if the type is immutable in Python. -/
inductive ArraySeen (o : Options) (fname : Str) (p : Param) : List Param → Prop
  | std (n : Nat) : StdArray o fname p n →
      ArraySeen o fname p [⟨p.name, ⟨p.type.specifiers.erase "const".toList ++ ["const".toList],
          [arrayOf (typeText { p.type with specifiers := p.type.specifiers.erase "const".toList }) n ++ "&".toList], p.type.modifiers⟩,
        [], p.default⟩]
  | items (n : Nat) : BoxedArray o fname p n →
      ArraySeen o fname p ((List.range n).map fun i =>
        ⟨p.name ++ "_".toList ++ (toString i).toList,
          ⟨p.type.specifiers, [if o.immutable (typeText p.type) then o.boxedName (typeText p.type) else typeText p.type],
            ["&".toList]⟩, [], p.default⟩)
  | kept : (∀ n, ¬ StdArray o fname p n ∧ ¬ BoxedArray o fname p n) → ArraySeen o fname p [p]

/-- An optional text. -/
inductive NullTextSeen (p : Param) : List Param → Prop
  | optional : NullText p →
      NullTextSeen p [⟨p.name, ⟨[], [optionalOf "std::string".toList], []⟩, p.arrayCode, "std::nullopt".toList⟩]
  | kept : ¬ NullText p → NullTextSeen p [p]

/-- A modifiable parameter which is returned: it is passed by value, and it is an optional if it is a pointer that may be null. -/
inductive ReturnSeen (o : Options) (p : Param) : List Param → Prop
  | ref : OutputVia o "&".toList p ∨ OutputVia o "*".toList p ∧ ¬ NullDefault p →
      ReturnSeen o p [{ p with type := ⟨[], p.type.typenames, []⟩ }]
  | optional : OutputVia o "*".toList p → NullDefault p →
      ReturnSeen o p [⟨p.name, ⟨[], [optionalOf (join [' '] p.type.typenames)], []⟩, p.arrayCode, "std::nullopt".toList⟩]
  | array (n : Nat) : HiddenOutput o p → p.type.modifiers = [] → IsArrayOf o p n →
      ReturnSeen o p [⟨p.name, ⟨[], [arrayOf (join [' '] p.type.typenames) n], []⟩, [], []⟩]
  | kept : ¬ HiddenOutput o p → ReturnSeen o p [p]

/-- A modifiable parameter which is boxed: a reference to a box, or a pointer to a box, null by default, if the parameter may
be null. -/
inductive BoxedSeen (o : Options) (p : Param) : List Param → Prop
  | ref : OutputVia o "&".toList p ∨ OutputVia o "*".toList p ∧ ¬ NullDefault p →
      BoxedSeen o p [{ p with type := ⟨[], [o.boxedName (join [' '] p.type.typenames)], ["&".toList]⟩ }]
  | pointer : OutputVia o "*".toList p → NullDefault p →
      BoxedSeen o p [⟨p.name, ⟨[], [o.boxedName (join [' '] p.type.typenames)], ["*".toList]⟩, p.arrayCode, "nullptr".toList⟩]
  | kept : ¬ OutputVia o "&".toList p → ¬ OutputVia o "*".toList p → BoxedSeen o p [p]

/-- A list of strings. -/
def stringVector (p : Param) : Param :=
  ⟨p.name, ⟨["const".toList], ["std::vector<std::string>".toList], ["&".toList]⟩, [], []⟩

inductive StringsSeen (p : Param) : List Param → Prop
  | strings : IsStringList p → StringsSeen p [stringVector p]
  | kept : ¬ IsStringList p → StringsSeen p [p]

/-- Lists of strings followed by their size: the size disappears. -/
inductive SizedStringsSeen (o : Options) : List Param → List Param → Prop
  | nil : SizedStringsSeen o [] []
  | strings {p q : Param} {ps qs : List Param} : IsStringList p → o.bufferSizeName q.name = true → SizedStringsSeen o ps qs →
      SizedStringsSeen o (p :: q :: ps) (stringVector p :: qs)
  | kept {p : Param} {ps qs : List Param} : ¬ (IsStringList p ∧ ∃ q r, ps = q :: r ∧ o.bufferSizeName q.name = true) →
      SizedStringsSeen o ps qs → SizedStringsSeen o (p :: ps) (p :: qs)

/-- The parameters `news` that Python sees after the adaptation of each parameter according to `R`. -/
def Each (R : Param → List Param → Prop) (ps news : List Param) : Prop := ∃ nss, List.Forall₂ R ps nss ∧ news = nss.flatten

/-- What the lambda that ends with `suffix` does to the parameters. The buffers are in C37; C33 says what goes wrong if a list of
strings is named like a size. -/
inductive StageSeen (o : Options) (fname : Str) (ps news : List Param) : Str → Prop
  | mutable_ : Each (MutableSeen o) ps news → StageSeen o fname ps news "_adapt_mutable_param_with_default_value".toList
  | arrays : Each (ArraySeen o fname) ps news → StageSeen o fname ps news "_adapt_fixed_size_c_arrays".toList
  | nullText : Each NullTextSeen ps news → StageSeen o fname ps news "_adapt_const_char_pointer_with_default_null".toList
  | return_ : Each (ReturnSeen o) ps news → StageSeen o fname ps news "_adapt_modifiable_immutable_to_return".toList
  | boxed : Each (BoxedSeen o) ps news → StageSeen o fname ps news "_adapt_modifiable_immutable".toList
  | sizedStrings : (NoListNamedSize o ps → SizedStringsSeen o ps news) → StageSeen o fname ps news "_adapt_c_string_list".toList
  | strings : Each StringsSeen ps news → StageSeen o fname ps news "_adapt_c_string_list_no_count".toList
  | format (last : Param) : ps = news ++ [last] → StageSeen o fname ps news "_adapt_variadic_format".toList
  | force : ps = news → StageSeen o fname ps news "_adapt_force_lambda".toList
  | exclude : (∃ hidden : Param → Bool, (∀ p, hidden p = true ↔ Excluded o p) ∧ news = ps.filter fun p => !hidden p) →
      StageSeen o fname ps news "_adapt_exclude_params".toList
  | buffers : StageSeen o fname ps news "_adapt_c_buffers".toList

end Verif.Adapt.Spec
