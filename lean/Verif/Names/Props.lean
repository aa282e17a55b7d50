import Verif.Names.Model
import Verif.Tpl.Props
import Verif.TArgs.Props
import Verif.Re.Std

/-! Property C109: the names of the instantiations of template classes. -/

namespace Verif.Names.Props
open Verif.Py Verif.Tpl Verif.Tpl.Spec Verif.Names

/-! ### Types that are a name -/

theorem replace_no {s old new : Str} {c : Char} (hc : c ∈ old) (hs : c ∉ s) : replace s old new = s := by
  refine replace_of_not_contains (Bool.eq_false_iff.2 fun h => ?_)
  obtain ⟨a, b, e⟩ := (contains_iff _ _).1 h
  exact hs (by rw [e]; exact List.mem_append_left _ (List.mem_append_right _ hc))

theorem squeeze_no : ∀ s : Str, (∀ c ∈ s, isSpace c = false) → TArgs.squeeze s = s
  | [], _ => rfl
  | [c], h => by rw [TArgs.squeeze, h c (.head _)]; rfl
  | c :: d :: r, h => by
    rw [TArgs.squeeze, h c (.head _), squeeze_no (d :: r) (fun x hx => h x (.tail _ hx))]; rfl

theorem callable_no (u : Char → Bool) : ∀ s : Str, '[' ∉ s → ToPy.stripCallableFrom u 0 s = s
  | [], _ => rfl
  | c :: s, h => by
    have hp : ToPy.callableHead.isPrefixOf (c :: s) = false := by
      refine Bool.eq_false_iff.2 fun k => h ?_
      obtain ⟨t, ht⟩ := List.isPrefixOf_iff_prefix.1 k
      rw [← ht]
      exact List.mem_append_left _ (by decide)
    rw [ToPy.stripCallableFrom, hp]
    exact congrArg (c :: ·) (callable_no u s (fun k => h (.tail _ k)))

theorem rename_no {s : Str} (h : '.' ∉ s) : ∀ nss, ToPy.renameNamespaces nss s = s
  | [] => rfl
  | q :: nss => by
    show ToPy.renameNamespaces nss (if q.2 ≠ q.1 then replace s (q.1 ++ ['.']) (q.2 ++ ['.']) else s) = s
    have e : (if q.2 ≠ q.1 then replace s (q.1 ++ ['.']) (q.2 ++ ['.']) else s) = s := by
      split
      · exact replace_no (List.mem_append_right _ (.head _)) h
      · rfl
    rw [e, rename_no h nss]

theorem roots_no {s : Str} (h : '.' ∉ s) : ∀ roots, ToPy.dropRoots roots s = s
  | [] => rfl
  | n :: roots => by
    show ToPy.dropRoots roots (replace s (n ++ ['.']) []) = s
    rw [replace_no (List.mem_append_right _ (.head _)) h, roots_no h roots]

/-- A name that the replacements of types do not change. -/
def Fixed (e : Env) (w : Str) : Prop := (∀ c ∈ w, isIdent c = true) ∧ e.repl w = w

theorem not_mem_ident {w : Str} (h : ∀ c ∈ w, isIdent c = true) {c : Char} (hc : isIdent c = false) : c ∉ w :=
  fun k => Bool.false_ne_true (hc.symm.trans (h c k))

theorem space_ident {c : Char} (h : isIdent c = true) : isSpace c = false := by
  have hn : 48 ≤ c.toNat ∧ c.toNat ≤ 122 := by
    unfold isIdent Char.isAlphanum Char.isAlpha Char.isUpper Char.isLower Char.isDigit at h
    simp only [Bool.or_eq_true, Bool.and_eq_true, decide_eq_true_eq, ge_iff_le, UInt32.le_iff_toNat_le] at h
    have e : c.toNat = c.val.toNat := rfl
    rcases h with ((⟨h1, h2⟩ | ⟨h1, h2⟩) | ⟨h1, h2⟩) | h
    · have a : (65 : Nat) ≤ c.val.toNat := h1
      have b : c.val.toNat ≤ 90 := h2
      omega
    · have a : (97 : Nat) ≤ c.val.toNat := h1
      have b : c.val.toNat ≤ 122 := h2
      omega
    · have a : (48 : Nat) ≤ c.val.toNat := h1
      have b : c.val.toNat ≤ 57 := h2
      omega
    · rw [h]; decide
  unfold isSpace
  simp only [Bool.or_eq_false_iff, Bool.and_eq_false_iff, decide_eq_false_iff_not, beq_eq_false_iff_ne, ne_eq]
  omega

theorem dropWhile_no : ∀ {s : Str}, (∀ c ∈ s, isSpace c = false) → s.dropWhile isSpace = s
  | [], _ => rfl
  | c :: s, h => by rw [List.dropWhile_cons, h c (.head _)]; rfl

theorem strip_of_no_space {s : Str} (h : ∀ c ∈ s, isSpace c = false) : strip s = s := by
  have h1 : lstrip s = s := dropWhile_no h
  have h2 : rstrip s = s := by
    show (s.reverse.dropWhile isSpace).reverse = s
    rw [dropWhile_no (fun c hc => h c (List.mem_reverse.1 hc)), List.reverse_reverse]
  unfold strip
  first | rw [h1, h2] | rw [h2, h1]

/-- The steps of `type_to_python` after the specialized name. -/
theorem steps_fixed {e : Env} {x : Str → Option Str} {s w : Str} (h : Fixed e w) (hs : (x s).getD s = w) :
    ToPy.typeToPython e.u ⟨e.repl, x, e.namespaces, e.roots⟩ s = .ok w := by
  obtain ⟨hi, hr⟩ := h
  have n1 : ' ' ∉ w := not_mem_ident hi (by decide)
  have n2 : ':' ∉ w := not_mem_ident hi (by decide)
  have n3 : '[' ∉ w := not_mem_ident hi (by decide)
  have n4 : '.' ∉ w := not_mem_ident hi (by decide)
  have n5 : '<' ∉ w := not_mem_ident hi (by decide)
  have hsp : ∀ c ∈ w, isSpace c = false := fun c hc => space_ident (hi c hc)
  unfold ToPy.typeToPython
  dsimp only
  rw [hs, replace_no (c := ' ') (by decide) n1, replace_no (c := ' ') (by decide) n1, TArgs.Props.C41_plain _ _ n5, hr]
  dsimp only
  rw [replace_no (c := ':') (by decide) n2, squeeze_no w hsp, strip_of_no_space hsp, replace_no (c := '[') (by decide) n3, rename_no n4, roots_no n4]
  exact congrArg _ (callable_no e.u w n3)

theorem typePy_fixed {e : Env} {w : Str} (h : Fixed e w) : typePy e w = .ok w := by
  refine steps_fixed h ?_
  have : special e w = none := if_pos (not_mem_ident h.1 (by decide))
  rw [this]; rfl

/-! ### C109 -/

/-- The C++ type `c<a>`. -/
def tplType (c a : Str) : Str := c ++ '<' :: a ++ ['>']

/-- The full statement for the synonyms: the right side of a synonym of an instantiated type is the name of the class of this instantiation. -/
def C109_target_statement : Prop := ∀ (e : Env) (c : Str) (s : TSpec), matchingSpec e.specs c = some s → ∀ y ∈ s.synonyms, y.target ∈ s.types →
  ∀ n, instanceName e c y.target = .ok n → (synonymLine e c y).2 = n

/-- The full statement for the signatures: the name given to the type `c<a>` is the name of a class of the stub, or of a synonym. -/
def C109_use_statement : Prop := ∀ (e : Env) (c a v n : Str), e.whole (tplType c a) = some ⟨tplType c a⟩ → '<' ∉ c → e.parse a = some v →
  (∃ s ∈ e.specs, s.matches_ c = true ∧ (v ∈ s.types ∨ v ∈ s.synonyms.map Synonym.name)) → typePy e (tplType c a) = .ok n →
  .ok n ∈ classNames e c 1 ∨ n ∈ (synonymLines e c 1).map Prod.fst

/-- The options of the documentation of `add_specialization`, with the standard replacements. -/
def options (types : List Repl.Replacement) : Keyword.Options := ⟨Re.engine (fun _ => false), types, [], [], [], true, true, true⟩

def demo (types : List Repl.Replacement) (specs : List TSpec) : Env :=
  ⟨fun _ => false, options types, fun s => some ⟨s⟩, some, specs, [], []⟩

def myData : TSpec := ⟨fun s => s == "MyData".toList, ["int".toList, "double".toList], false,
  [⟨"MyInt".toList, "int".toList⟩, ⟨"MyDouble".toList, "double".toList⟩]⟩

/-- C109: the documented synonym `MyDouble=double` gives `MyData_MyDouble = MyData_float`, but the class is `MyData_double`. -/
theorem C109_target_fails : ¬ C109_target_statement := by
  intro h
  have := h (demo Re.typeList [myData]) "MyData".toList myData (by rfl) ⟨"MyDouble".toList, "double".toList⟩ (by decide) (by decide)
    "MyData_double".toList (by decide +kernel)
  revert this
  decide +kernel

/-- C109: with two options for a class, the last one decides which classes are made, but both decide the names in the signatures. -/
theorem C109_use_fails : ¬ C109_use_statement := by
  intro h
  have := h (demo [] [⟨fun s => s == "A".toList, ["int".toList], false, []⟩, ⟨fun _ => true, ["double".toList], false, []⟩]) "A".toList "int".toList
    "int".toList "A_int".toList rfl (by decide) rfl ⟨_, .head _, by decide, .inl (by decide)⟩ (by decide +kernel)
  revert this
  decide +kernel

/-- The full statement for the signatures with one option for the class. -/
def C109_renamed_statement : Prop := ∀ (e : Env) (c a v n : Str), Unambiguous e.specs c → e.whole (tplType c a) = some ⟨tplType c a⟩ → '<' ∉ c →
  e.parse a = some v → (∃ s ∈ e.specs, s.matches_ c = true ∧ (v ∈ s.types ∨ v ∈ s.synonyms.map Synonym.name)) → typePy e (tplType c a) = .ok n →
  .ok n ∈ classNames e c 1 ∨ n ∈ (synonymLines e c 1).map Prod.fst

/-- C109: a class renamed by a replacement of types on its whole word keeps its old name in the signatures. -/
theorem C109_renamed_fails : ¬ C109_renamed_statement := by
  intro h
  have := h (demo [⟨"\\bMyData\\b".toList, "Data".toList⟩] [myData]) "MyData".toList "int".toList "int".toList "MyData_int".toList
    (List.pairwise_singleton _ _) rfl (by decide) rfl ⟨_, .head _, by decide, .inl (by decide)⟩ (by decide +kernel)
  revert this
  decide +kernel

theorem spec_of {specs : List TSpec} {c : Str} {s : TSpec} (hs : matchingSpec specs c = some s) : s ∈ specs ∧ s.matches_ c = true := matchingSpec_mem hs

/-- The name of a type `c<a>`, before the steps of `type_to_python`. -/
theorem special_tpl {e : Env} {c a v : Str} {s : TSpec} (hw : e.whole (tplType c a) = some ⟨tplType c a⟩) (hc : '<' ∉ c) (hp : e.parse a = some v)
    (hs : s ∈ e.specs) (hm : s.matches_ c = true) (hv : v ∈ s.types ∨ v ∈ s.synonyms.map Synonym.name) :
    special e (tplType c a) = some (e.repl (naming c v)) := by
  obtain ⟨p1, p2, p3⟩ := Tpl.Props.C43_parts c a hc
  have hin : '<' ∈ tplType c a := by unfold tplType; simp
  unfold special
  rw [if_neg (fun k => k hin), hw]
  show pythonName e.parse e.repl e.specs ⟨tplType c a⟩ = _
  have hor : shallSpecialize e.parse e.specs ⟨tplType c a⟩ = true ∨ shallSynonymize e.parse e.specs ⟨tplType c a⟩ = true := by
    have ht := Tpl.Props.C43_total e.parse s ⟨tplType c a⟩ p1 (by rw [show CppTy.templateName ⟨tplType c a⟩ = c from p2]; exact hm)
    have pa : e.parse (CppTy.argText ⟨tplType c a⟩) = some v := by rw [show CppTy.argText ⟨tplType c a⟩ = a from p3]; exact hp
    have pt : CppTy.isTemplate ⟨tplType c a⟩ = true := p1
    rcases hv with hv | hv
    · left
      unfold shallSpecialize
      rw [pt]
      exact List.any_eq_true.2 ⟨s, hs, ht.2.1.2 ⟨v, pa, hv⟩⟩
    · right
      unfold shallSynonymize
      rw [pt]
      exact List.any_eq_true.2 ⟨s, hs, ht.2.2.1.2 ⟨v, pa, hv⟩⟩
  obtain ⟨v', hv', hn⟩ := (Tpl.Props.C43_name e.parse e.repl e.specs ⟨tplType c a⟩).1 hor
  rw [hn, show CppTy.templateName ⟨tplType c a⟩ = c from p2]
  rw [show CppTy.argText ⟨tplType c a⟩ = a from p3, hp] at hv'
  injection hv' with hv'
  rw [hv']

/-- C109: it holds when one option matches the class, when the names of the class, of the synonyms and of their targets are not changed in Python, and when
the names that are made are identifiers that the replacements do not change: the classes, the synonyms and the types in the signatures all have the
name `class_type`. -/
theorem C109_partial (e : Env) (c : Str) (s : TSpec) (hu : Unambiguous e.specs c) (hs : matchingSpec e.specs c = some s) (hc : '<' ∉ c)
    (hn : Keyword.className e.names c = c) (ht : ∀ t ∈ s.types, Fixed e (naming c t))
    (hy : ∀ y ∈ s.synonyms, Keyword.className e.names y.name = y.name ∧ Keyword.className e.names y.target = y.target ∧ Fixed e (naming c y.name)) :
    classNames e c 1 = s.types.map (fun t => .ok (naming c t)) ∧
    synonymLines e c 1 = s.synonyms.map (fun y => (naming c y.name, naming c y.target)) ∧
    (∀ y ∈ s.synonyms, y.target ∈ s.types → .ok (synonymLine e c y).2 ∈ classNames e c 1) ∧
    (∀ a v, e.whole (tplType c a) = some ⟨tplType c a⟩ → e.parse a = some v →
      (∃ s ∈ e.specs, s.matches_ c = true ∧ (v ∈ s.types ∨ v ∈ s.synonyms.map Synonym.name)) →
      typePy e (tplType c a) = .ok (naming c v) ∧ (.ok (naming c v) ∈ classNames e c 1 ∨ naming c v ∈ (synonymLines e c 1).map Prod.fst)) := by
  obtain ⟨hmem, hm⟩ := spec_of hs
  have hcl : classNames e c 1 = s.types.map (fun t => .ok (naming c t)) := by
    unfold classNames
    have : instantiations e.specs c 1 = s.types := by unfold instantiations; rw [hs]; rfl
    rw [this]
    apply List.map_congr_left
    intro t h
    unfold instanceName
    rw [hn]
    exact typePy_fixed (ht t h)
  have hline : ∀ y ∈ s.synonyms, synonymLine e c y = (naming c y.name, naming c y.target) := by
    intro y h
    unfold synonymLine
    rw [hn, (hy y h).1, (hy y h).2.1]
  have hsy : synonymLines e c 1 = s.synonyms.map (fun y => (naming c y.name, naming c y.target)) := by
    unfold synonymLines
    rw [hs]
    exact List.map_congr_left hline
  refine ⟨hcl, hsy, ?_, ?_⟩
  · intro y h hty
    rw [hcl, hline y h]
    exact List.mem_map.2 ⟨y.target, hty, rfl⟩
  · rintro a v hw hp ⟨s', hs', hm', hv⟩
    obtain rfl := matching_unique hu hs' hmem hm' hm
    have hf : Fixed e (naming c v) := by
      rcases hv with hv | hv
      · exact ht v hv
      · obtain ⟨y, h, rfl⟩ := List.mem_map.1 hv
        exact (hy y h).2.2
    refine ⟨steps_fixed hf ?_, ?_⟩
    · rw [special_tpl hw hc hp hmem hm hv, hf.2]; rfl
    · rw [hcl, hsy]
      rcases hv with hv | hv
      · exact .inl (List.mem_map.2 ⟨v, hv, rfl⟩)
      · obtain ⟨y, h, rfl⟩ := List.mem_map.1 hv
        exact .inr (List.mem_map.2 ⟨_, List.mem_map.2 ⟨y, h, rfl⟩, rfl⟩)

/-- A class with the standard replacements, instantiated for `int` and a class `Vec2`, with a synonym. -/
def vecData : TSpec := ⟨fun s => s == "MyData".toList, ["int".toList, "Vec2".toList], false, [⟨"MyInt".toList, "int".toList⟩]⟩

example : Unambiguous (demo Re.typeList [vecData]).specs "MyData".toList ∧ matchingSpec (demo Re.typeList [vecData]).specs "MyData".toList = some vecData ∧
    Keyword.className (demo Re.typeList [vecData]).names "MyData".toList = "MyData".toList ∧
    (∀ t ∈ vecData.types, Fixed (demo Re.typeList [vecData]) (naming "MyData".toList t)) ∧
    ∀ y ∈ vecData.synonyms, Keyword.className (demo Re.typeList [vecData]).names y.name = y.name ∧
      Keyword.className (demo Re.typeList [vecData]).names y.target = y.target ∧ Fixed (demo Re.typeList [vecData]) (naming "MyData".toList y.name) := by
  refine ⟨List.pairwise_singleton _ _, rfl, by decide +kernel, ?_, ?_⟩
  · unfold Fixed; decide +kernel
  · unfold Fixed; decide +kernel

end Verif.Names.Props
