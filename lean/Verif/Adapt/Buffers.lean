import Verif.Adapt.Exclude
import Verif.Adapt.SpecBuffers
import Verif.Adapt.ModelReturn

/-! Lemmas for the properties C37 and C38. -/

namespace Verif.Adapt
open Verif.Py Verif.Type Spec

theorem forall2_get {α β : Type} {R : α → β → Prop} {l : List α} {r : List β} (h : List.Forall₂ R l r) :
    ∀ (i : Nat) (x : α) (y : β), l[i]? = some x → r[i]? = some y → R x y := by
  induction h with
  | nil => intro i x y hx; simp at hx
  | cons h1 _ ih =>
    intro i x y hx hy
    cases i with
    | zero => simp at hx hy; subst hx; subst hy; exact h1
    | succ i => simp at hx hy; exact ih i x y hx hy

theorem flatMap_get_one {α β : Type} (l : List α) (g : α → List β) (h : ∀ a ∈ l, ∃ b, g a = [b]) :
    ∀ (i : Nat) (a : α) (b : β), l[i]? = some a → g a = [b] → (l.flatMap g)[i]? = some b := by
  induction l with
  | nil => intro i a b ha; simp at ha
  | cons x r ih =>
    intro i a b ha hb
    obtain ⟨c, hc⟩ := h x (by simp)
    rw [List.flatMap_cons, hc]
    cases i with
    | zero => simp at ha; subst ha; rw [hc] at hb; simpa using hb
    | succ i => simp at ha; simpa using ih (fun a h' => h a (by simp [h'])) i a b ha hb

theorem lastBuffer_spec {o : Options} {ps : List Param} : ∀ {i : Nat} {n : Str}, lastBufferBefore o ps i = some n →
    ∃ b, LastBuffer o ps i b ∧ b.name = n := by
  intro i
  induction i with
  | zero =>
    intro n h
    cases hp : ps[0]? with
    | none => simp [lastBufferBefore, List.take_add_one, hp] at h
    | some p =>
      by_cases hl : looksLikeBuffer o p = true
      · rw [lastBufferBefore_self hp hl] at h
        exact ⟨p, ⟨0, by omega, hp, (looksLikeBuffer_iff o p).1 hl, by omega⟩, by simpa using h⟩
      · simp [lastBufferBefore, List.take_add_one, hp, hl] at h
  | succ i ih =>
    intro n h
    cases hp : ps[i + 1]? with
    | none =>
      have : lastBufferBefore o ps (i + 1) = lastBufferBefore o ps i := by
        unfold lastBufferBefore
        rw [List.take_add_one (i := i + 1), hp]
        simp
      rw [this] at h
      obtain ⟨b, ⟨j, hj, h1, h2, h3⟩, h4⟩ := ih h
      refine ⟨b, ⟨j, by omega, h1, h2, ?_⟩, h4⟩
      intro k q hk hki hq
      by_cases hk' : k = i + 1
      · subst hk'; rw [hp] at hq; simp at hq
      · exact h3 k q hk (by omega) hq
    | some p =>
      by_cases hl : looksLikeBuffer o p = true
      · rw [lastBufferBefore_self hp hl] at h
        exact ⟨p, ⟨i + 1, by omega, hp, (looksLikeBuffer_iff o p).1 hl, by omega⟩, by simpa using h⟩
      · simp only [Bool.not_eq_true] at hl
        rw [lastBufferBefore_skip hp hl] at h
        obtain ⟨b, ⟨j, hj, h1, h2, h3⟩, h4⟩ := ih h
        refine ⟨b, ⟨j, by omega, h1, h2, ?_⟩, h4⟩
        intro k q hk hki hq
        by_cases hk' : k = i + 1
        · subst hk'; rw [hp] at hq; simp only [Option.some.injEq] at hq; subst hq
          rw [← looksLikeBuffer_iff]; simp [hl]
        · exact h3 k q hk (by omega) hq

theorem hiddenOutput_iff (o : Options) (p : Param) : (modifiableRef o p || modifiableArray o p) = true ↔ HiddenOutput o p := by
  unfold modifiableRef modifiableArray HiddenOutput isConst const_ arraySize nameOnly blank star amp
  have h1 : ("*".toList : Str) = ['*'] := rfl
  have h2 : ("&".toList : Str) = ['&'] := rfl
  rw [h1, h2]
  by_cases ha : p.arrayCode = []
  · simp [ha]; tauto
  · simp [ha, Option.isSome_iff_exists]; tauto

theorem returnedArrayPiece_some {o : Options} {p : Param} (h : modifiableArray o p = true) : ∃ n, arraySize o p = some n := by
  unfold modifiableArray at h
  simp only [Bool.and_eq_true] at h
  exact Option.isSome_iff_exists.1 h.1.1.2

theorem toReturn_returned (o : Options) (p : Param) :
    (toReturnPiece o p).returned = if (modifiableRef o p || modifiableArray o p) = true then [p.name] else [] := by
  unfold toReturnPiece
  by_cases h1 : modifiableRef o p = true
  · rw [if_pos h1]; simp [h1]
  · by_cases h2 : modifiableArray o p = true
    · obtain ⟨n, hn⟩ := returnedArrayPiece_some h2
      rw [if_neg h1, if_pos h2]; simp [h2, returnedArrayPiece, hn]
    · rw [if_neg h1, if_neg h2]; simp [h1, h2, keep]

theorem toReturn_args (o : Options) (p : Param) :
    (toReturnPiece o p).args = [if modifiableRef o p || modifiableArray o p then Arg.var (modifiableName p.name) else .var p.name] := by
  unfold toReturnPiece
  by_cases h1 : modifiableRef o p = true
  · rw [if_pos h1]; simp [h1]
  · by_cases h2 : modifiableArray o p = true
    · obtain ⟨n, hn⟩ := returnedArrayPiece_some h2
      rw [if_neg h1, if_pos h2]; simp [h2, returnedArrayPiece, hn]
    · rw [if_neg h1, if_neg h2]; simp [h1, h2, keep]

theorem toReturn_news (o : Options) (p : Param) : ∃ q, (toReturnPiece o p).news = [q] ∧ q.name = p.name ∧
    ((modifiableRef o p || modifiableArray o p) = false → q = p) := by
  unfold toReturnPiece
  by_cases h1 : modifiableRef o p = true
  · rw [if_pos h1]; exact ⟨_, rfl, returnedParam_name p, by simp [h1]⟩
  · by_cases h2 : modifiableArray o p = true
    · obtain ⟨n, hn⟩ := returnedArrayPiece_some h2
      rw [if_neg h1, if_pos h2]; exact ⟨returnedArray p n, by simp [returnedArrayPiece, hn], rfl, by simp [h2]⟩
    · rw [if_neg h1, if_neg h2]; exact ⟨p, rfl, rfl, fun _ => rfl⟩

theorem toReturn_input (o : Options) (p : Param) (h : (modifiableRef o p || modifiableArray o p) = true) :
    ∃ s ∈ (toReturnPiece o p).input, declares s = [p.name ++ "_adapt_modifiable".toList] ∧ reads s = [p.name] := by
  unfold toReturnPiece
  by_cases h1 : modifiableRef o p = true
  · rw [if_pos h1]; exact ⟨_, by simp, returnedStmt_declares p, returnedStmt_reads p⟩
  · have h2 : modifiableArray o p = true := by simpa [h1] using h
    obtain ⟨n, hn⟩ := returnedArrayPiece_some h2
    rw [if_neg h1, if_pos h2]; exact ⟨.bind (print p.type ++ " *".toList) (modifiableName p.name) p.name .data,
      by simp [returnedArrayPiece, hn], rfl, rfl⟩

theorem isConst_iff (t : CppType) : isConst t = true ↔ "const".toList ∈ t.specifiers := by
  unfold isConst const_
  exact decide_eq_true_iff

theorem isConst_dec (t : CppType) : decide ("const".toList ∈ t.specifiers) = isConst t := by
  rw [Bool.eq_iff_iff, isConst_iff]
  exact decide_eq_true_iff

theorem bufferParam_type (o : Options) (p : Param) : IsArrayType o p.type (bufferParam o p).type := by
  unfold bufferParam IsArrayType
  rw [← isConst_iff]
  have ha : amp = "&".toList := rfl
  have hc : const_ = "const".toList := rfl
  rw [ha, hc]
  cases o.nanobind <;> cases isConst p.type <;>
    exact ⟨fun h => by first | exact ⟨rfl, rfl, fun h' => by first | rfl | exact absurd h' (by simp), fun h' => by first | rfl | exact absurd rfl h'⟩ | exact absurd h (by simp),
      fun h => by first | exact ⟨rfl, rfl, fun h' => by first | rfl | exact absurd h' (by simp), fun h' => by first | rfl | exact absurd rfl h'⟩ | exact absurd h (by simp)⟩

theorem join_listText : ∀ l : List Str, join ", ".toList l = listText l
  | [] => rfl
  | [x] => by simp [join, listText]
  | x :: y :: r => by
    have := join_listText (y :: r)
    simp only [join, listText] at this ⊢
    rw [this]
    simp

end Verif.Adapt
