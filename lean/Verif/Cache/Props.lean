import Verif.Cache.Spec
import Verif.Re.Compile
import Verif.Inst.LemmasSpec
import Verif.Repl.Lemmas

/-! Property C104, first part: the members of enumerations without `class`. -/

namespace Verif.Cache.Props
open Verif.Py Verif.Repl Verif.Cache Verif.Cache.Spec Verif.Re Verif.Re.Spec Verif.Inst Verif.Inst.Spec
open Verif.Scope (isWordChar)

theorem isWord_of_ascii {u : Char → Bool} {c : Char} (h : c.toNat < 128 ∧ isWordChar (fun _ => false) c = true) : isWordChar u c = true := by
  obtain ⟨h1, h2⟩ := h
  unfold isWordChar at h2 ⊢
  rw [if_pos h1] at h2 ⊢
  exact h2

theorem ident_of_ascii {u : Char → Bool} {w : Str} (h : AsciiIdent w) : Ident u w := ⟨h.1, fun c hc => isWord_of_ascii (h.2 c hc)⟩

theorem ascii_no_backslash {w : Str} (h : AsciiIdent w) : '\\' ∉ w := fun hm => absurd (h.2 _ hm).2 (by decide)

/-! ### Rules of words -/

/-- The rules of words: names and texts. -/
def wordRules (tbl : List (Str × Str)) : List Replacement := tbl.map (fun q => ⟨wordPattern q.1, q.2⟩)

/-- A table whose texts do not have its names. -/
structure Tidy (u : Char → Bool) (tbl : List (Str × Str)) : Prop where
  ident : ∀ q ∈ tbl, AsciiIdent q.1
  plain : ∀ q ∈ tbl, '\\' ∉ q.2
  free : ∀ p ∈ tbl, ∀ q ∈ tbl, ¬ HasWord u q.1 p.2

theorem engine_word {u : Char → Bool} {w v : Str} (hw : AsciiIdent w) (hv : '\\' ∉ v) (s : Str) :
    engine u (wordPattern w) v s = ren u (put w v) s := by
  unfold wordPattern
  rw [engine, rule_word hw.2 hv]
  exact sub_renames (renames_wordRe (ident_of_ascii hw) v) s

theorem pass_word_rules {u : Char → Bool} : ∀ {tbl : List (Str × Str)} (s : Str), Tidy u tbl → pass (engine u) (wordRules tbl) s = ren u (lookup tbl) s
  | [], s, _ => (ren_id u s).symm
  | q :: tbl, s, h => by
    have ht : Tidy u tbl := ⟨fun x hx => h.ident x (by simp [hx]), fun x hx => h.plain x (by simp [hx]),
      fun x hx y hy => h.free x (by simp [hx]) y (by simp [hy])⟩
    show pass (engine u) (wordRules tbl) (engine u (wordPattern q.1) q.2 s) = _
    rw [pass_word_rules _ ht, engine_word (h.ident q (by simp)) (h.plain q (by simp)), ren_ren]
    apply ren_congr
    intro w hw
    have hi := word_ident (cut_spec u s).1 hw
    show ren u (lookup tbl) (put q.1 q.2 w) = if w = q.1 then q.2 else lookup tbl w
    unfold put
    by_cases e : w = q.1
    · rw [if_pos e, if_pos e]
      exact lookup_free (fun x hx => h.free q (by simp) x (by simp [hx]))
    · rw [if_neg e, if_neg e, ren_ident hi]

theorem lookup_cases : ∀ (tbl : List (Str × Str)) (w : Str), lookup tbl w = w ∨ ∃ q ∈ tbl, lookup tbl w = q.2
  | [], _ => .inl rfl
  | q :: tbl, w => by
    unfold lookup
    by_cases e : w = q.1
    · rw [if_pos e]; exact .inr ⟨q, by simp, rfl⟩
    · rw [if_neg e]
      rcases lookup_cases tbl w with h | ⟨x, hx, h⟩
      · exact .inl h
      · exact .inr ⟨x, by simp [hx], h⟩

theorem apply_word_rules {u : Char → Bool} {tbl : List (Str × Str)} (h : Tidy u tbl) (s : Str) :
    Repl.apply (engine u) (wordRules tbl) s = ren u (lookup tbl) s := by
  have h2 : ren u (lookup tbl) (ren u (lookup tbl) s) = ren u (lookup tbl) s := by
    rw [ren_ren]
    apply ren_congr
    intro w hw
    have hi := word_ident (cut_spec u s).1 hw
    rcases lookup_cases tbl w with e | ⟨q, hq, e⟩
    · rw [e, ren_ident hi, e]
    · rw [e]; exact lookup_free (fun x hx => h.free q hq x hx)
  rw [apply_eq]
  dsimp only
  rw [pass_word_rules s h]
  by_cases e : ren u (lookup tbl) s = s
  · rw [if_pos e]
  · rw [if_neg e, pass_word_rules _ h, h2, if_pos rfl]

/-! ### The rules of an enumeration -/

theorem enumRules_eq (b : Bool) (e : Enum) : enumRules b e = e.members.flatMap (memberRules b e) := by
  have key : ∀ (l : List Member) (r : List Replacement),
      l.foldl (fun r m => merge r (memberRules b e m)) r = r ++ l.flatMap (memberRules b e) := by
    intro l
    induction l with
    | nil => intro r; simp
    | cons m l ih => intro r; rw [List.foldl_cons, ih, merge, List.flatMap_cons, List.append_assoc]
  exact key _ _

/-- The table of an enumeration: the members that are replaced. -/
def tableOf (b : Bool) (e : Enum) : List (Str × Str) :=
  (e.members.filter (replaced b e)).map (fun m => (m.cpp, e.py ++ ['.'] ++ m.py))

theorem startsWith_prefix (s p : Str) : startsWith s p = decide (p <+: s) := by
  rw [Bool.eq_iff_iff]
  simp [startsWith]

theorem memberRules_word {b : Bool} {e : Enum} (hc : e.isClass = false) (m : Member) :
    memberRules b e m = if replaced b e m then [⟨wordPattern m.cpp, e.py ++ ['.'] ++ m.py⟩] else [] := by
  unfold memberRules replaced
  rw [hc, startsWith_prefix]
  by_cases h : Name.lower e.cpp <+: Name.lower m.cpp
  · rw [decide_eq_true h]
    cases b <;> rfl
  · rw [decide_eq_false h]
    cases b <;> rfl

theorem enumRules_word {b : Bool} {e : Enum} (hc : e.isClass = false) : enumRules b e = wordRules (tableOf b e) := by
  rw [enumRules_eq]
  unfold tableOf wordRules
  rw [List.map_map]
  induction e.members with
  | nil => rfl
  | cons m l ih =>
    rw [List.flatMap_cons, memberRules_word hc, List.filter_cons, ih]
    by_cases h : replaced b e m = true
    · rw [if_pos h, if_pos h]; rfl
    · rw [if_neg h, if_neg h]; rfl

theorem lookup_table (b : Bool) (e : Enum) (w : Str) : lookup (tableOf b e) w = pythonWord b e w := by
  unfold tableOf pythonWord
  induction e.members with
  | nil => rfl
  | cons m l ih =>
    rw [List.filter_cons, List.find?_cons]
    by_cases h : replaced b e m = true
    · rw [if_pos h, List.map_cons, h, Bool.and_true]
      unfold lookup
      by_cases hw : m.cpp = w
      · rw [if_pos hw.symm, decide_eq_true hw]
        show e.py ++ ['.'] ++ m.py = e.py ++ '.' :: m.py
        simp
      · rw [if_neg (fun k => hw k.symm), decide_eq_false hw]
        exact ih
    · rw [if_neg h, Bool.eq_false_iff.2 h, Bool.and_false]
      exact ih

theorem hasWord_dotted {u : Char → Bool} {x y n : Str} (hx : Ident u x) (hy : Ident u y) (h : HasWord u n (x ++ ['.'] ++ y)) : n = x ∨ n = y := by
  rw [hasWord_iff, List.append_assoc, List.singleton_append, cut_append_sep u '.' (by rfl), ident_cut hx, ident_cut hy] at h
  simpa using h

theorem table_tidy {u : Char → Bool} {b : Bool} {e : Enum} (hn : Named e) (ha : Apart b e) : Tidy u (tableOf b e) := by
  have hm : ∀ q ∈ tableOf b e, ∃ m ∈ e.members, replaced b e m = true ∧ q = (m.cpp, e.py ++ ['.'] ++ m.py) := by
    intro q hq
    obtain ⟨m, hm, rfl⟩ := List.mem_map.1 hq
    exact ⟨m, (List.mem_filter.1 hm).1, (List.mem_filter.1 hm).2, rfl⟩
  refine ⟨fun q hq => ?_, fun q hq => ?_, fun p hp q hq => ?_⟩
  · obtain ⟨m, h1, _, rfl⟩ := hm q hq
    exact (hn.2.2 m h1).1
  · obtain ⟨m, h1, _, rfl⟩ := hm q hq
    intro hb
    rcases List.mem_append.1 hb with hb | hb
    · rcases List.mem_append.1 hb with hb | hb
      · exact ascii_no_backslash hn.2.1 hb
      · exact absurd hb (by decide)
    · exact ascii_no_backslash (hn.2.2 m h1).2 hb
  · obtain ⟨m, h1, _, rfl⟩ := hm p hp
    obtain ⟨x, k1, k2, rfl⟩ := hm q hq
    intro hw
    rcases hasWord_dotted (ident_of_ascii hn.2.1) (ident_of_ascii (hn.2.2 m h1).2) hw with h | h
    · exact (ha x k1 k2).1 h
    · exact (ha x k1 k2).2 m h1 h

/-- The full statement: in a text, every word that is a member of an enumeration without `class`, and only those, becomes `Enum.member`. -/
def C104_words_statement : Prop := ∀ (u : Char → Bool) (b : Bool) (e : Enum) (s : Str), Named e → e.isClass = false →
  Renamed u (pythonWord b e) s (Repl.apply (engine u) (enumRules b e) s)

/-- C104: it holds when no Python name of the enumeration is the C++ name of a member that is replaced. -/
theorem C104_words_partial (u : Char → Bool) (b : Bool) (e : Enum) (s : Str) (hn : Named e) (hc : e.isClass = false) (ha : Apart b e) :
    Renamed u (pythonWord b e) s (Repl.apply (engine u) (enumRules b e) s) := by
  rw [renamed_iff, enumRules_word hc, apply_word_rules (table_tidy hn ha)]
  exact ren_congr (fun w _ => lookup_table b e w)

/-- `enum Foo { Foo_a, Foo_b = Foo_a }` with the option that removes the prefix of the members. -/
def foo : Enum := ⟨"Foo".toList, "Foo".toList, false, [⟨"Foo_a".toList, "a".toList⟩, ⟨"Foo_b".toList, "b".toList⟩]⟩

example : Named foo ∧ foo.isClass = false ∧ Apart false foo ∧ Apart true foo := by decide +kernel

example : Repl.apply (engine (fun _ => false)) (enumRules false foo) "f(Foo_a | Foo_b, MyFoo_a)".toList = "f(Foo.a | Foo.b, MyFoo_a)".toList := by
  decide +kernel

/-- The same enumeration when the prefix is kept (`enum_flag_remove_values_prefix = False`). -/
def fooKept : Enum := ⟨"Foo".toList, "Foo".toList, false, [⟨"Foo_a".toList, "Foo_a".toList⟩]⟩

/-- C104: when the prefix of the members is kept, the replacement is made three times: `Foo_a` becomes `Foo.Foo.Foo.Foo_a`. -/
theorem C104_words_fails : ¬ C104_words_statement := by
  intro h
  have h0 := (renamed_iff _ _ _ _).1 (h (fun _ => false) false fooKept "Foo_a".toList (by decide) rfl)
  revert h0
  decide +kernel

example : Repl.apply (engine (fun _ => false)) (enumRules false fooKept) "Foo_a".toList = "Foo.Foo.Foo.Foo_a".toList := by decide +kernel

/-- C104: the same happens to the members without prefix, in the values of the enumeration itself: in `enum Foo { a, b = a }`, the value of `b` is
written `Foo.Foo.Foo.a`. -/
theorem C104_inside_fails : ∃ e : Enum, Named e ∧ e.isClass = false ∧ (∀ m ∈ e.members, m.py = m.cpp) ∧
    Repl.apply (engine (fun _ => false)) (enumRules true e) "a".toList = "Foo.Foo.Foo.a".toList :=
  ⟨⟨"Foo".toList, "Foo".toList, false, [⟨"a".toList, "a".toList⟩, ⟨"b".toList, "b".toList⟩]⟩, by decide +kernel⟩

end Verif.Cache.Props
