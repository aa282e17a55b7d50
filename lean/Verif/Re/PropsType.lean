import Verif.Re.TypeAll
import Verif.Re.PropsValue

/-! C82: the standard replacements of types. -/

namespace Verif.Re.Props
open Verif.Py Verif.Re Spec Verif.Inst Verif.Inst.Spec
open Verif.Scope (isWordChar)

/-- What the translation of types with the standard replacements makes of a type (`none`: an exception). -/
def typeOf (u : Char → Bool) (s : Str) : Option Str :=
  (Repl.fromString typeText).bind (fun rs => match TArgs.translate (Repl.apply (engine u) rs) s with | .ok r => some r | .error _ => none)

theorem typeOf_eq (u : Char → Bool) (s : Str) :
    typeOf u s = match TArgs.translate (Repl.apply (engine u) typeList) s with | .ok r => some r | .error _ => none := by rw [typeOf, from_type]; rfl

/-- C82, the full statement for the brackets: a type with balanced angle brackets has balanced square brackets in Python. -/
def C82_brackets_statement : Prop := ∀ u, SpaceApart u → ∀ s r : Str, TArgs.Spec.Balanced s → '[' ∉ s → ']' ∉ s → typeOf u s = some r →
  r.count '[' = r.count ']'

theorem balanced_plain {s : Str} (h : '<' ∉ s) (h' : '>' ∉ s) : TArgs.Spec.Balanced s := by
  induction s with
  | nil => exact .nil
  | cons c s ih => exact .char c s (fun e => h (by simp [e])) (fun e => h' (by simp [e])) (ih (fun x => h (by simp [x])) (fun x => h' (by simp [x])))

/-- C82 fails for the brackets: `std::array<std::pair<int, float>, 3>` is `List[Tuple[int]`. -/
theorem C82_brackets_fails : ¬ C82_brackets_statement := by
  intro h
  have hb : TArgs.Spec.Balanced "std::array<std::pair<int, float>, 3>".toList := by
    have h1 : TArgs.Spec.Balanced "<int, float>, 3".toList :=
      .nest "int, float".toList ", 3".toList (balanced_plain (by decide) (by decide)) (balanced_plain (by decide) (by decide))
    have h2 : TArgs.Spec.Balanced "std::pair<int, float>, 3".toList :=
      TArgs.balanced_append (a := "std::pair".toList) (balanced_plain (by decide) (by decide)) h1
    exact TArgs.balanced_append (a := "std::array".toList) (balanced_plain (by decide) (by decide)) (.nest _ [] h2 .nil)
  have h1 := h (fun _ => false) space_none _ "List[Tuple[int]".toList hb (by decide) (by decide) (by rw [typeOf_eq]; decide +kernel)
  revert h1
  decide +kernel

/-- C82, the full statement for the integers: the integers of `std` are those without it. -/
def C82_scope_statement : Prop := ∀ u, SpaceApart u → ∀ q ∈ wordTypes, typeOf u ("std::".toList ++ q.1) = typeOf u q.1

/-- C82 fails for the integers of `std`: `std::uint8_t` is `std::int`. -/
theorem C82_scope_fails : ¬ C82_scope_statement := by
  intro h
  have h1 := h (fun _ => false) space_none ("uint8_t".toList, "int".toList) (by decide +kernel)
  rw [typeOf_eq, typeOf_eq] at h1
  revert h1
  decide +kernel

/-- C82, the full statement for the functions: the type of what a function returns does not change the names of the templates. -/
def C82_function_statement : Prop := ∀ u, SpaceApart u → ∀ r v : Str, '<' ∉ r → typeOf u r = some v →
  typeOf u ("std::function<".toList ++ r ++ "()>".toList) = some ("Callable[[], ".toList ++ v ++ "]".toList)

/-- C82 fails for the functions: `std::function<std::string()>` is `std::function[""]`, as `std::string()` is taken for an empty text. -/
theorem C82_function_fails : ¬ C82_function_statement := by
  intro h
  have h1 := h (fun _ => false) space_none "std::string".toList "str".toList (by decide) (by rw [typeOf_eq]; decide +kernel)
  rw [typeOf_eq] at h1
  revert h1
  decide +kernel

/-- C82, the full statement for the blanks: words do not merge. -/
def C82_blank_statement : Prop := ∀ u, SpaceApart u → ∀ a b w : Str, Ident u w → typeOf u a = some b → typeOf u (a ++ ' ' :: w) = some (b ++ ' ' :: w)

/-- C82 fails for the blanks: `std::vector<int> b` is `List[int]b`. -/
theorem C82_blank_fails : ¬ C82_blank_statement := by
  intro h
  have h1 := h (fun _ => false) space_none "std::vector<int>".toList "List[int]".toList "b".toList (ident_of (by decide) (by decide))
    (by rw [typeOf_eq]; decide +kernel)
  rw [typeOf_eq] at h1
  revert h1
  decide +kernel

/-- C82 (partial: the relation `Translates` leaves out `char`, `void *`, `std::string()`, the integers of `std`, the arrays of pairs, a word just after a
template, and a second template beside the first one). The standard replacements translate a type, whatever the depth of its templates: the arguments
first; then the names of types by the tables; `const`, `mutable`, `&` and `*` vanish; each template of the standard library takes its name in Python, and
every other template takes square brackets. -/
theorem C82_partial {u : Char → Bool} (hu : SpaceApart u) {s r : Str} (h : Translates u s r) : typeOf u s = some r := by
  rw [typeOf_eq, (translate_translates hu h).1]

/-- C82 (partial, as above). No `<`, `>`, `&`, `*` is left, and no word of the C++ tables, and none is `std`. -/
theorem C82_nothing_left_partial {u : Char → Bool} (hu : SpaceApart u) {s r : Str} (h : Translates u s r) :
    ('<' ∉ r ∧ '>' ∉ r ∧ '&' ∉ r ∧ '*' ∉ r) ∧ typeOf u r = some r := by
  have hp := (translate_translates hu h).2
  have ha : '<' ∉ r := fun h => (hp.chars _ h).2.2.1 rfl
  refine ⟨⟨ha, fun h => (hp.chars _ h).2.2.2.1 rfl, fun h => (hp.chars _ h).1 rfl, fun h => (hp.chars _ h).2.1 rfl⟩, ?_⟩
  rw [typeOf_eq, TArgs.Props.C41_plain _ _ ha, apply_calm hu (settled_still hp [])]

/-! ### An example -/

/-- The pieces are the longest ones (a check, for types in ASCII). -/
def lexedB : List TTok → Bool
  | [] => true
  | .word w :: l => identB w && decide (w ∉ reserved) && !("cha".toList.isPrefixOf w) && apartB l && decide (w ≠ "void".toList) && lexedB l
  | .known p :: l => decide (p ∈ knownNames) && apartB l && decide (p ≠ "std::string".toList ∨ l.head? ≠ some (.sep '(')) &&
      decide (l.tail.head? ≠ some (.word "double".toList)) && (match l.tail with | .known _ :: _ => false | _ => true) && lexedB l
  | .sep c :: l => decide (c.toNat < 128) && !isWordChar (fun _ => false) c && decide (isSpace c = true → c = ' ') && decide (c ≠ '<' ∧ c ≠ '>') &&
      decide (c = ' ' → l.head? ≠ some (.sep ' ')) && (decide (c ≠ '&' ∧ c ≠ '*') || apartB l) && lexedB l
where
  apartB : List TTok → Bool
    | .word _ :: _ => false
    | .known _ :: _ => false
    | _ => true

theorem apart_of : ∀ {l : List TTok}, lexedB.apartB l = true → TApart l
  | [], _ => ⟨fun _ _ e => (by cases e), fun _ _ e => (by cases e)⟩
  | .sep _ :: _, _ => ⟨fun _ _ e => (by cases e), fun _ _ e => (by cases e)⟩
  | .word _ :: _, h => (by cases h)
  | .known _ :: _, h => (by cases h)

theorem lexed_of {u : Char → Bool} : ∀ {l : List TTok}, lexedB l = true → TLexed u l
  | [], _ => trivial
  | .word w :: l, h => by
    rw [lexedB] at h
    simp only [Bool.and_eq_true, Bool.not_eq_true'] at h
    obtain ⟨⟨⟨⟨⟨h1, h2⟩, h3⟩, h4⟩, h5⟩, h6⟩ := h
    refine ⟨ident_of_B h1, of_decide_eq_true h2, ?_, apart_of h4, fun hv => absurd hv (of_decide_eq_true h5), lexed_of h6⟩
    rintro ⟨n, rfl⟩
    have : "cha".toList.isPrefixOf ("cha".toList ++ List.replicate n 'r') = true := List.isPrefixOf_iff_prefix.2 (List.prefix_append _ _)
    rw [this] at h3
    cases h3
  | .known p :: l, h => by
    rw [lexedB] at h
    simp only [Bool.and_eq_true] at h
    obtain ⟨⟨⟨⟨⟨h1, h2⟩, h3⟩, h4⟩, h5⟩, h6⟩ := h
    refine ⟨of_decide_eq_true h1, apart_of h2, ?_, ?_, ?_, lexed_of h6⟩
    · intro hp m e
      rcases of_decide_eq_true h3 with h | h
      · exact h hp
      · exact h (by rw [e]; rfl)
    · intro m e
      exact of_decide_eq_true h4 (by rw [e]; rfl)
    · intro q m e
      rw [e] at h5
      cases h5
  | .sep c :: l, h => by
    rw [lexedB] at h
    simp only [Bool.and_eq_true, Bool.not_eq_true'] at h
    obtain ⟨⟨⟨⟨⟨⟨h1, h2⟩, h3⟩, h4⟩, h5⟩, h6⟩, h7⟩ := h
    refine ⟨ascii_sep (of_decide_eq_true h1) h2, of_decide_eq_true h3, (of_decide_eq_true h4).1, (of_decide_eq_true h4).2, ?_, ?_, lexed_of h7⟩
    · intro hc m e
      exact of_decide_eq_true h5 hc (by rw [e]; rfl)
    · intro hc
      rw [Bool.or_eq_true] at h6
      rcases h6 with h6 | h6
      · have := of_decide_eq_true h6
        rcases hc with rfl | rfl
        · exact absurd rfl this.1
        · exact absurd rfl this.2
      · exact apart_of h6

theorem noHead_of {l : List TTok} (h : l.all (fun t => match t with | .known p => decide (p ∉ headNames) | _ => true) = true) : NoHead l := by
  rw [List.all_eq_true] at h
  exact fun p hp => of_decide_eq_true (h _ hp)

/-- The words `const`, then a name. -/
theorem sample_type (u : Char → Bool) :
    Translates u "const std::map<std::string, std::vector<const Foo *>> &".toList "Dict[str, List[Foo]]".toList := by
  have b1 : TArgs.Spec.Balanced "const Foo *".toList := balanced_plain (by decide) (by decide)
  have b2 : TArgs.Spec.Balanced "std::string, std::vector<const Foo *>".toList :=
    TArgs.balanced_append (a := "std::string, std::vector".toList) (balanced_plain (by decide) (by decide)) (.nest _ [] b1 .nil)
  have t1 : Translates u "const Foo *".toList " Foo ".toList :=
    .flat [.word "const".toList, .sep ' ', .word "Foo".toList, .sep ' ', .sep '*'] (lexed_of (by decide +kernel)) (noHead_of (by decide +kernel))
  have nb : ¬ BeginsWithWord u (pyFlat []) := by rintro ⟨c, hc, _⟩; cases hc
  have t2 : Translates u "std::string, std::vector<const Foo *>".toList "str, List[Foo]".toList := by
    have := Translates.std (u := u) "std::string, std::vector<const Foo *>".toList "std::string, std::vector".toList "const Foo *".toList [] " Foo ".toList
      "List[Foo]".toList "vector".toList [.known "std::string".toList, .sep ',', .sep ' '] [] ⟨by decide +kernel, by decide, b1⟩ (by decide +kernel)
      (by decide +kernel) (lexed_of (by decide +kernel)) (noHead_of (by decide +kernel)) rfl trivial (noHead_of rfl) nb
      (by rw [show strip "const Foo *".toList = "const Foo *".toList by decide +kernel]; exact t1)
      (by have := Wraps.vector " Foo ".toList
          rwa [show "List[".toList ++ strip " Foo ".toList ++ "]".toList = "List[Foo]".toList by decide +kernel] at this)
    rwa [show tidy (pyFlat [.known "std::string".toList, .sep ',', .sep ' '] ++ "List[Foo]".toList ++ pyFlat []) = "str, List[Foo]".toList by
      decide +kernel] at this
  have nb2 : ¬ BeginsWithWord u (pyFlat [.sep '&']) := by rintro ⟨c, hc, _⟩; cases hc
  have := Translates.std (u := u) "const std::map<std::string, std::vector<const Foo *>> &".toList "const std::map".toList
    "std::string, std::vector<const Foo *>".toList " &".toList "str, List[Foo]".toList "Dict[str, List[Foo]]".toList "map".toList
    [.word "const".toList, .sep ' '] [.sep '&'] ⟨by decide +kernel, by decide, b2⟩ (by decide +kernel)
    (by decide +kernel) (lexed_of (by decide +kernel)) (noHead_of (by decide +kernel)) (by decide +kernel) (lexed_of (by decide +kernel))
    (noHead_of (by decide +kernel)) nb2
    (by rw [show strip "std::string, std::vector<const Foo *>".toList = "std::string, std::vector<const Foo *>".toList by decide +kernel]; exact t2)
    (by have := Wraps.map "str".toList " List[Foo]".toList (by decide)
        rwa [show "Dict[".toList ++ strip "str".toList ++ ", ".toList ++ strip " List[Foo]".toList ++ "]".toList = "Dict[str, List[Foo]]".toList by decide +kernel,
          show "str".toList ++ ',' :: " List[Foo]".toList = "str, List[Foo]".toList by decide +kernel] at this)
  rwa [show tidy (pyFlat [.word "const".toList, .sep ' '] ++ "Dict[str, List[Foo]]".toList ++ pyFlat [.sep '&']) = "Dict[str, List[Foo]]".toList by
    decide +kernel] at this

example : typeOf (fun _ => false) "const std::map<std::string, std::vector<const Foo *>> &".toList = some "Dict[str, List[Foo]]".toList :=
  C82_partial space_none (sample_type _)

end Verif.Re.Props
