import Verif.Cache.Model
import Verif.Inst.Spec

/-! What the replacements of enumerations and functions should do. -/

namespace Verif.Cache.Spec
open Verif.Py Verif.Cache

/-- The members of an enumeration without `class` that are replaced: all of them in the enumeration itself, elsewhere those whose name begins
with the name of the enumeration. -/
def replaced (fromInside : Bool) (e : Enum) (m : Member) : Bool :=
  fromInside || decide (Name.lower e.cpp <+: Name.lower m.cpp)

/-- The Python text of a word: `Enum.member` for a member that is replaced, itself otherwise. -/
def pythonWord (fromInside : Bool) (e : Enum) (w : Str) : Str :=
  match e.members.find? (fun m => decide (m.cpp = w) && replaced fromInside e m) with
  | some m => e.py ++ '.' :: m.py
  | none => w

/-- An identifier of ASCII characters. -/
def AsciiIdent (w : Str) : Prop := w ≠ [] ∧ ∀ c ∈ w, c.toNat < 128 ∧ Scope.isWordChar (fun _ => false) c = true

instance (w : Str) : Decidable (AsciiIdent w) := inferInstanceAs (Decidable (w ≠ [] ∧ ∀ c ∈ w, _))

/-- The names of an enumeration are identifiers. -/
def Named (e : Enum) : Prop := AsciiIdent e.cpp ∧ AsciiIdent e.py ∧ ∀ m ∈ e.members, AsciiIdent m.cpp ∧ AsciiIdent m.py

instance (e : Enum) : Decidable (Named e) := inferInstanceAs (Decidable (_ ∧ _ ∧ ∀ m ∈ e.members, _))

/-- No Python name of the enumeration is the C++ name of a member that is replaced. -/
def Apart (fromInside : Bool) (e : Enum) : Prop :=
  ∀ m ∈ e.members, replaced fromInside e m = true → m.cpp ≠ e.py ∧ ∀ x ∈ e.members, m.cpp ≠ x.py

instance (b : Bool) (e : Enum) : Decidable (Apart b e) := inferInstanceAs (Decidable (∀ m ∈ e.members, _ → _ ∧ ∀ x ∈ e.members, _))

end Verif.Cache.Spec
