import Verif.Publish.Spec
import Verif.Py.StrLemmas
import Verif.Overload.Lemmas

/-! Lemmas on the publishing decision. -/

namespace Verif.Publish
open Verif.Py Spec

theorem mem_prefixes {o : Options} {p : Str} : p ∈ o.prefixes ↔ ApiPrefix o p := by
  unfold Options.prefixes splitPipe ApiPrefix
  rw [List.mem_filter]
  simp only [decide_eq_true_eq]
  constructor
  · rintro ⟨h1, h2⟩
    exact ⟨by rintro rfl; simp at h2, h1⟩
  · rintro ⟨h1, h2⟩
    exact ⟨h2, List.length_pos_iff.2 h1⟩

theorem prefixes_pos {o : Options} : o.prefixes.length > 0 ↔ ∃ p, ApiPrefix o p := by
  constructor
  · intro h
    obtain ⟨p, hp⟩ := List.exists_mem_of_length_pos h
    exact ⟨p, mem_prefixes.1 hp⟩
  · rintro ⟨p, hp⟩
    exact List.length_pos_of_mem (mem_prefixes.2 hp)

theorem hasOkPrefix_iff {o : Options} {r : Ty} : hasOkPrefix o r = true ↔ CarriesPrefix o r := by
  unfold hasOkPrefix CarriesPrefix
  rw [List.any_eq_true]
  simp only [decide_eq_true_eq]
  exact ⟨fun ⟨p, h1, h2⟩ => ⟨p, mem_prefixes.1 h1, h2⟩, fun ⟨p, h1, h2⟩ => ⟨p, mem_prefixes.2 h1, h2⟩⟩

theorem isDestructor_iff {f : Func} : f.isDestructor = true ↔ ∃ rest, f.name = '~' :: rest := by
  unfold Func.isDestructor
  cases h : f.name with
  | nil => simp [startsWith]
  | cons c l =>
    have : startsWith (c :: l) "~".toList = ('~' == c && true) := rfl
    rw [this, Bool.and_true, beq_iff_eq]
    constructor
    · rintro rfl; exact ⟨l, rfl⟩
    · rintro ⟨r, hr⟩; exact (List.cons.inj hr).1.symm

theorem excludedBySignature_iff {o : Options} {f : Func} :
    excludedBySignature o f = true ↔ SignatureExcluded o f ∧ signature f ≠ [] := by
  unfold excludedBySignature SignatureExcluded
  have e : f.signature = signature f := rfl
  rw [e]
  cases h : dictGet o.excludeSignature f.name with
  | none => simp
  | some t =>
    simp only [Option.getD_some, Option.some.injEq]
    cases t with
    | nil =>
      simp only [List.length_nil, gt_iff_lt, Nat.lt_irrefl, if_false, Bool.false_eq_true, false_iff]
      rintro ⟨h, h'⟩
      exact h' h.symm
    | cons c l =>
      simp only [List.length_cons, gt_iff_lt, Nat.zero_lt_succ, if_true, decide_eq_true_eq]
      constructor
      · intro h; exact ⟨h, by rw [← h]; simp⟩
      · exact And.left

/-- Whether prefixes are checked. -/
def checked (o : Options) (even : Bool) : Bool := decide (o.prefixes.length > 0) && (o.excludeNonApi || even)

theorem apiCheck_some {o : Options} {f : Func} {even : Bool} {ret : Ty} (h : f.returnType = some ret) :
    apiCheck o f even = (!checked o even || hasOkPrefix o ret) := by
  unfold apiCheck checked
  rw [h]
  simp only
  cases o.excludeNonApi <;> cases even <;> cases decide (o.prefixes.length > 0) <;> cases hasOkPrefix o ret <;> rfl

theorem ite_false_left (a b : Bool) : (if a = true then false else b) = (!a && b) := by cases a <;> rfl

theorem publishable_eq (o : Options) (f : Func) (even : Bool) :
    publishable o f even = (!f.isDestructor && (!f.specifiers.contains "delete".toList && (!contains f.name "::".toList &&
      (!f.params.any o.excludeTemplateType && (!f.returnType.any o.excludeTemplateType && (!o.excludeName f.name &&
      (!f.returnType.any (fun t => o.excludeType t.code) && (!f.params.any (fun t => o.excludeType t.code) &&
      (!excludedBySignature o f && apiCheck o f even))))))))) := by
  unfold publishable
  rw [ite_false_left, ite_false_left, ite_false_left, ite_false_left, ite_false_left, ite_false_left, ite_false_left,
    ite_false_left, ite_false_left]

theorem any_false_iff {α} {l : List α} {p : α → Bool} : (!l.any p) = true ↔ ∀ x ∈ l, p x = false := by
  simp

theorem opt_any_false_iff {α} {x : Option α} {p : α → Bool} : (!x.any p) = true ↔ ∀ y ∈ x.toList, p y = false := by
  cases x <;> simp

theorem apiCheck_iff {o : Options} {f : Func} {even : Bool} : apiCheck o f even = true ↔
    ∀ ret, f.returnType = some ret → (∃ p, ApiPrefix o p) → (o.excludeNonApi = true ∨ even = true) → CarriesPrefix o ret := by
  cases hr : f.returnType with
  | none => unfold apiCheck; rw [hr]; simp
  | some ret =>
    rw [apiCheck_some hr]
    unfold checked
    simp only [Option.some.injEq, forall_eq', Bool.or_eq_true, Bool.not_eq_true', Bool.and_eq_false_iff, hasOkPrefix_iff,
      decide_eq_false_iff_not, prefixes_pos, Bool.or_eq_false_iff]
    constructor
    · rintro ((h | ⟨h1, h2⟩) | h) hp he
      · exact absurd hp h
      · rcases he with he | he <;> simp_all
      · exact h
    · intro h
      by_cases hp : ∃ p, ApiPrefix o p
      · cases h1 : o.excludeNonApi
        · cases h2 : even
          · exact .inl (.inr ⟨rfl, rfl⟩)
          · exact .inr (h hp (.inr h2))
        · exact .inr (h hp (.inl h1))
      · exact .inl (.inl hp)

theorem publishable_iff (o : Options) (f : Func) (even : Bool) :
    publishable o f even = true ↔ NotExcluded o f ∧ ¬ (SignatureExcluded o f ∧ signature f ≠ []) ∧ apiCheck o f even = true := by
  rw [publishable_eq]
  simp only [Bool.and_eq_true]
  rw [any_false_iff, opt_any_false_iff, any_false_iff, opt_any_false_iff]
  simp only [Bool.not_eq_true']
  have hdel : f.specifiers.contains "delete".toList = false ↔ "delete".toList ∉ f.specifiers := by
    rw [← Bool.not_eq_true, List.contains_iff_mem]
  have hs : excludedBySignature o f = false ↔ ¬ (SignatureExcluded o f ∧ signature f ≠ []) := by
    rw [← excludedBySignature_iff, Bool.not_eq_true]
  have hd : f.isDestructor = false ↔ ¬ ∃ rest, f.name = '~' :: rest := by rw [← isDestructor_iff, Bool.not_eq_true]
  have hc : contains f.name "::".toList = false ↔ ¬ ∃ a b, f.name = a ++ "::".toList ++ b := by
    rw [← contains_iff, Bool.not_eq_true]
  rw [hs, hd, hc, hdel]
  constructor
  · rintro ⟨h1, h2, h3, h4, h5, h6, h7, h8, h9, h10⟩
    refine ⟨⟨h1, h2, h3, ?_, h6, ?_⟩, h9, h10⟩
    · intro t ht
      exact (List.mem_append.1 ht).elim (h4 t) (h5 t)
    · intro t ht
      exact (List.mem_append.1 ht).elim (h8 t) (h7 t)
  · rintro ⟨⟨h1, h2, h3, h4, h5, h6⟩, h9, h10⟩
    exact ⟨h1, h2, h3, fun t ht => h4 t (List.mem_append_left _ ht), fun t ht => h4 t (List.mem_append_right _ ht), h5,
      fun t ht => h6 t (List.mem_append_right _ ht), fun t ht => h6 t (List.mem_append_left _ ht), h9, h10⟩

end Verif.Publish
