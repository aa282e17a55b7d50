import Verif.Cache.Scopes

/-! Property C104, several enumerations: what is stored for one of them does not disturb what is stored for the others. -/

namespace Verif.Cache.Props
open Verif.Py Verif.Repl Verif.Cache Verif.Cache.Spec Verif.Re
open Verif.Inst Verif.Inst.Spec

/-- The Python text of a word: that of the first enumeration with such a member, itself if there is none. -/
def pythonWordOf : List Enum → Str → Str
  | [], w => w
  | e :: es, w => if ∃ m ∈ e.members, m.cpp = w ∧ replaced false e m = true then pythonWord false e w else pythonWordOf es w

/-- No Python name of the enumerations is the C++ name of a member of one of them that is replaced. -/
def ApartAll (es : List Enum) : Prop :=
  ∀ e ∈ es, ∀ m ∈ e.members, replaced false e m = true → ∀ f ∈ es, m.cpp ≠ f.py ∧ ∀ x ∈ f.members, m.cpp ≠ x.py

instance (es : List Enum) : Decidable (ApartAll es) :=
  inferInstanceAs (Decidable (∀ e ∈ es, ∀ m ∈ e.members, _ → ∀ f ∈ es, _ ∧ ∀ x ∈ f.members, _))

theorem lookup_append (a b : List (Str × Str)) (w : Str) : lookup (a ++ b) w = if w ∈ a.map Prod.fst then lookup a w else lookup b w := by
  induction a with
  | nil => rfl
  | cons q a ih =>
    show (if w = q.1 then q.2 else lookup (a ++ b) w) = if w ∈ (q :: a).map Prod.fst then (if w = q.1 then q.2 else lookup a w) else lookup b w
    by_cases h : w = q.1
    · rw [if_pos h, if_pos h, if_pos (by simp [h])]
    · rw [if_neg h, if_neg h, ih]
      by_cases h2 : w ∈ a.map Prod.fst
      · rw [if_pos h2, if_pos (by simp only [List.map_cons, List.mem_cons]; exact .inr h2)]
      · rw [if_neg h2, if_neg (by simp only [List.map_cons, List.mem_cons]; rintro (k | k); exacts [h k, h2 k])]

theorem mem_table (b : Bool) (e : Enum) (w : Str) : w ∈ (tableOf b e).map Prod.fst ↔ ∃ m ∈ e.members, m.cpp = w ∧ replaced b e m = true := by
  unfold tableOf
  rw [List.map_map, List.mem_map]
  constructor
  · rintro ⟨m, hm, rfl⟩
    exact ⟨m, (List.mem_filter.1 hm).1, rfl, (List.mem_filter.1 hm).2⟩
  · rintro ⟨m, hm, rfl, h⟩
    exact ⟨m, List.mem_filter.2 ⟨hm, h⟩, rfl⟩

theorem lookup_tables (w : Str) : ∀ es : List Enum, lookup (es.flatMap (tableOf false)) w = pythonWordOf es w
  | [] => rfl
  | e :: es => by
    rw [List.flatMap_cons, lookup_append, lookup_tables w es, lookup_table]
    show _ = if _ then pythonWord false e w else pythonWordOf es w
    by_cases h : w ∈ (tableOf false e).map Prod.fst
    · rw [if_pos h, if_pos ((mem_table false e w).1 h)]
    · rw [if_neg h, if_neg (fun k => h ((mem_table false e w).2 k))]

theorem tables_tidy {u : Char → Bool} {es : List Enum} (hn : ∀ e ∈ es, Named e) (ha : ApartAll es) : Tidy u (es.flatMap (tableOf false)) := by
  have hm : ∀ q ∈ es.flatMap (tableOf false), ∃ e ∈ es, ∃ m ∈ e.members, replaced false e m = true ∧ q = (m.cpp, e.py ++ ['.'] ++ m.py) := by
    intro q hq
    obtain ⟨e, he, hq⟩ := List.mem_flatMap.1 hq
    obtain ⟨m, hm, rfl⟩ := List.mem_map.1 hq
    exact ⟨e, he, m, (List.mem_filter.1 hm).1, (List.mem_filter.1 hm).2, rfl⟩
  refine ⟨fun q hq => ?_, fun q hq => ?_, fun p hp q hq => ?_⟩
  · obtain ⟨e, he, m, h1, _, rfl⟩ := hm q hq
    exact ((hn e he).2.2 m h1).1
  · obtain ⟨e, he, m, h1, _, rfl⟩ := hm q hq
    intro hb
    rcases List.mem_append.1 hb with hb | hb
    · rcases List.mem_append.1 hb with hb | hb
      · exact ascii_no_backslash (hn e he).2.1 hb
      · exact absurd hb (by decide)
    · exact ascii_no_backslash ((hn e he).2.2 m h1).2 hb
  · obtain ⟨e, he, m, h1, _, rfl⟩ := hm p hp
    obtain ⟨f, hf, x, k1, k2, rfl⟩ := hm q hq
    intro hw
    rcases hasWord_dotted (ident_of_ascii (hn e he).2.1) (ident_of_ascii ((hn e he).2.2 m h1).2) hw with h | h
    · exact (ha f hf x k1 k2 e he).1 h
    · exact (ha f hf x k1 k2 e he).2 m h1 h

/-- The caches after the enumerations of a scope. -/
def storeAll (scope : Scope.CppScope) (es : List Enum) (c : Caches) : Caches := es.foldl (fun c e => store c scope (enumRules false e)) c

theorem storeAll_cache (scope : Scope.CppScope) : ∀ (es : List Enum) (c : Caches), es ≠ [] →
    cacheOf (storeAll scope es c) (Scope.strCpp scope) = some ((cacheOf c (Scope.strCpp scope)).getD [] ++ es.flatMap (enumRules false))
  | [], _, h => absurd rfl h
  | [e], c, _ => by
    show cacheOf (store c scope (enumRules false e)) _ = _
    rw [C105_store, if_pos rfl, List.flatMap_cons, List.flatMap_nil, List.append_nil]
  | e :: f :: es, c, _ => by
    show cacheOf (storeAll scope (f :: es) (store c scope (enumRules false e))) _ = _
    rw [storeAll_cache scope (f :: es) _ (by simp), C105_store, if_pos rfl, List.flatMap_cons (x := e)]
    simp only [Option.getD_some, List.append_assoc]

theorem rules_tables : ∀ (es : List Enum), (∀ e ∈ es, e.isClass = false) → es.flatMap (enumRules false) = wordRules (es.flatMap (tableOf false))
  | [], _ => rfl
  | e :: es, h => by
    rw [List.flatMap_cons, List.flatMap_cons, rules_tables es (fun x hx => h x (by simp [hx])), enumRules_word (h e (by simp))]
    unfold wordRules
    rw [List.map_append]

/-- C104: after several enumerations, each word of a value that is a member of one of them becomes `Enum.member` for the first such enumeration, and
nothing else changes, when no Python name of one is the C++ name of a member of another. -/
theorem C104_several_partial (u : Char → Bool) (es : List Enum) (s : Str) (hn : ∀ e ∈ es, Named e) (hc : ∀ e ∈ es, e.isClass = false)
    (ha : ApartAll es) : Renamed u (pythonWordOf es) s (applyScoped (engine u) (storeAll [] es []) none s) := by
  rw [renamed_iff, (C105_order (engine u) _ [] s).2]
  have key : useCache (engine u) (storeAll [] es []) [] s = ren u (lookup (es.flatMap (tableOf false))) s := by
    rw [← apply_word_rules (tables_tidy hn ha) s, ← rules_tables es hc]
    unfold useCache
    match es with
    | [] =>
      show s = Repl.apply (engine u) (wordRules []) s
      exact ((apply_word_rules (tables_tidy hn ha) s).trans (ren_id u s)).symm
    | e :: es =>
      rw [storeAll_cache [] (e :: es) [] (by simp)]
      rfl
  rw [key]
  exact ren_congr (fun w _ => lookup_tables w es)

/-- `enum Bar { Bar_a }`, after `foo`. -/
def bar : Enum := ⟨"Bar".toList, "Bar".toList, false, [⟨"Bar_a".toList, "a".toList⟩]⟩

example : (∀ e ∈ [foo, bar], Named e) ∧ (∀ e ∈ [foo, bar], e.isClass = false) ∧ ApartAll [foo, bar] := by decide +kernel

example : applyScoped (engine (fun _ => false)) (storeAll [] [foo, bar] []) none "f(Foo_a, Bar_a)".toList = "f(Foo.a, Bar.a)".toList := by
  decide +kernel

end Verif.Cache.Props
