import Verif.Adapt.Lemmas

/-! What each iteration of each adapter makes of one parameter. -/

namespace Verif.Adapt
open Verif.Py Verif.Type Spec

/-- The names of the new parameters made from `p`. -/
def NamesFrom (p : Param) (names : List Str) : Prop :=
  names = [] ∨ names = [p.name] ∨ ∃ n, p.arrayCode ≠ [] ∧ names = (List.range n).map (itemName p.name)

structure PieceOK (p : Param) (news : List Param) : Prop where
  lists : ∀ q ∈ news, q = p ∨ ¬ IsStringList q
  defaults : NoArrayDefault p → ∀ q ∈ news, (HasDefault q ↔ HasDefault p) ∧ NoArrayDefault q
  names : NamesFrom p (news.map (·.name))
  arrays : ∀ q ∈ news, q.arrayCode ≠ [] → q.name = p.name ∧ p.arrayCode ≠ []

theorem keep_ok (p : Param) : PieceOK p (keep p).news where
  lists := by intro q hq; simp [keep] at hq; exact .inl hq
  defaults := by intro h q hq; simp [keep] at hq; subst hq; exact ⟨Iff.rfl, h⟩
  names := .inr (.inl rfl)
  arrays := by intro q hq h; simp [keep] at hq; subst hq; exact ⟨rfl, h⟩

theorem empty_ok (p : Param) : PieceOK p [] where
  lists := by intro q hq; simp at hq
  defaults := by intro h q hq; simp at hq
  names := .inl rfl
  arrays := by intro q hq; simp at hq

/-- A single new parameter that is not a list of C strings. -/
theorem single_ok {p q : Param} (hn : q.name = p.name) (hl : ¬ IsStringList q)
    (hd : NoArrayDefault p → (HasDefault q ↔ HasDefault p)) (ha : q.arrayCode = p.arrayCode ∨ q.arrayCode = []) : PieceOK p [q] where
  lists := by intro x hx; simp at hx; subst hx; exact .inr hl
  defaults := by
    intro h x hx; simp at hx; subst hx
    refine ⟨hd h, fun h2 => ⟨?_, hl⟩⟩
    rcases ha with ha | ha
    · rw [ha]; exact (h ((hd h).1 h2)).1
    · exact ha
  names := .inr (.inl (by simp [hn]))
  arrays := by
    intro x hx h; simp at hx; subst hx
    rcases ha with ha | ha
    · exact ⟨hn, ha ▸ h⟩
    · exact absurd ha h

theorem not_list_of_specifiers {q : Param} (h : "const".toList ∉ q.type.specifiers) : ¬ IsStringList q := fun hq => h hq.1
theorem not_list_of_typenames {q : Param} (h : q.type.typenames ≠ ["char".toList]) : ¬ IsStringList q := fun hq => h hq.2.1
theorem not_list_of_head {q : Param} {s : Str} (h : q.type.typenames = [s]) (hs : s.head? ≠ some 'c') : ¬ IsStringList q := by
  apply not_list_of_typenames
  rw [h]
  intro hc
  injection hc with hc
  rw [hc] at hs
  exact hs rfl

theorem excludePiece_ok (o : Options) (p : Param) : PieceOK p (excludePiece o p).news := by
  unfold excludePiece
  split
  · exact empty_ok p
  · exact keep_ok p

theorem nullopt_ne : nullopt ≠ [] := by decide +kernel

theorem strip_nil : strip ([] : Str) = [] := rfl

theorem seemsMutable_default {o : Options} {p : Param} (h : seemsMutable o p = true) : HasDefault p := by
  unfold seemsMutable at h
  split at h
  · simp at h
  · rename_i h1
    intro h2
    rw [h2] at h1
    exact h1 rfl

theorem mutablePiece_ok (o : Options) (p : Param) : PieceOK p (mutablePiece o p).news := by
  unfold mutablePiece
  split
  · rename_i h
    refine single_ok rfl (not_list_of_head rfl (by simp)) ?_ (.inl rfl)
    intro _
    exact ⟨fun _ => seemsMutable_default h, fun _ => nullopt_ne⟩
  · exact keep_ok p

theorem boxedArray_ok (o : Options) (p : Param) (n : Nat) (ha : p.arrayCode ≠ []) : PieceOK p (boxedArrayPiece o p n).news where
  lists := by
    intro q hq
    simp [boxedArrayPiece] at hq
    obtain ⟨i, _, rfl⟩ := hq
    refine .inr ?_
    rintro ⟨_, _, h3, _⟩
    simp [boxedItem, amp] at h3
  defaults := by
    intro h q hq
    simp [boxedArrayPiece] at hq
    obtain ⟨i, _, rfl⟩ := hq
    refine ⟨Iff.rfl, fun hd => absurd (h hd).1 ha⟩
  names := .inr (.inr ⟨n, ha, by simp [boxedArrayPiece, boxedItem, Function.comp_def]⟩)
  arrays := by
    intro q hq h
    simp [boxedArrayPiece] at hq
    obtain ⟨i, _, rfl⟩ := hq
    exact absurd rfl h

theorem arraySize_code {o : Options} {p : Param} {n : Nat} (h : arraySize o p = some n) : p.arrayCode ≠ [] := by
  intro hc
  simp [arraySize, hc] at h

theorem arrayPiece_ok (o : Options) (f : Fn) (p : Param) : PieceOK p (arrayPiece o f p).news := by
  unfold arrayPiece
  split
  · exact keep_ok p
  · rename_i n hn
    split
    · exact single_ok rfl (not_list_of_head rfl (by simp)) (fun _ => Iff.rfl) (.inr rfl)
    · split
      · exact boxedArray_ok o p n (arraySize_code hn)
      · exact keep_ok p

theorem isNull_default {p : Param} (h : isNull p.default = true) : HasDefault p := by
  intro hc
  rw [hc] at h
  simp [isNull, null1, null2] at h

theorem constCharPiece_ok (p : Param) : PieceOK p (constCharPiece p).news := by
  unfold constCharPiece
  split
  · rename_i h
    refine single_ok rfl (not_list_of_specifiers (by simp)) ?_ (.inl rfl)
    intro _
    simp [constCharNull] at h
    exact ⟨fun _ => isNull_default h.2, fun _ => nullopt_ne⟩
  · exact keep_ok p

theorem returnedParam_ok (p : Param) : PieceOK p [returnedParam p] := by
  unfold returnedParam
  split
  · rename_i h
    refine single_ok rfl (not_list_of_specifiers (by simp)) ?_ (.inl rfl)
    intro _
    simp [isOptional] at h
    exact ⟨fun _ => isNull_default h.2, fun _ => nullopt_ne⟩
  · exact single_ok rfl (not_list_of_specifiers (by simp)) (fun _ => Iff.rfl) (.inl rfl)

theorem returnedArrayPiece_ok (o : Options) (p : Param) : PieceOK p (returnedArrayPiece o p).news := by
  unfold returnedArrayPiece
  split
  · exact keep_ok p
  · rename_i n hn
    refine single_ok rfl (not_list_of_specifiers (by simp [returnedArray])) ?_ (.inr rfl)
    intro h
    exact ⟨fun hd => by simp [HasDefault, returnedArray] at hd, fun hd => absurd (h hd).1 (arraySize_code hn)⟩

theorem toReturnPiece_ok (o : Options) (p : Param) : PieceOK p (toReturnPiece o p).news := by
  unfold toReturnPiece
  split
  · exact returnedParam_ok p
  · split
    · exact returnedArrayPiece_ok o p
    · exact keep_ok p

theorem boxedParam_ok (o : Options) (p : Param) : PieceOK p [boxedParam o p] := by
  unfold boxedParam
  split
  · rename_i h
    refine single_ok rfl (not_list_of_specifiers (by simp)) ?_ (.inl rfl)
    intro _
    simp [isOptional] at h
    exact ⟨fun _ => isNull_default h.2, fun _ => by simp [HasDefault, null2]⟩
  · exact single_ok rfl (not_list_of_specifiers (by simp)) (fun _ => Iff.rfl) (.inl rfl)

theorem boxedPiece_ok (o : Options) (p : Param) : PieceOK p (boxedPiece o p).news := by
  unfold boxedPiece
  split
  · exact boxedParam_ok o p
  · exact keep_ok p

theorem vectorParam_ok (p : Param) (h : isStringList p = true) : PieceOK p [vectorParam p] := by
  refine single_ok rfl (not_list_of_head rfl (by simp)) ?_ (.inr rfl)
  intro h2
  exact ⟨fun hd => by simp [HasDefault, vectorParam] at hd, fun hd => absurd ((isStringList_iff p).1 h) (h2 hd).2⟩

theorem noCountPiece_ok (p : Param) : PieceOK p (stringListNoCountPiece p).news := by
  unfold stringListNoCountPiece
  split
  · rename_i h; exact vectorParam_ok p h
  · exact keep_ok p

theorem stringListPiece_ok {o : Options} {ps : List Param} {i : Nat} {p : Param} {y : Piece} (hp : ps[i]? = some p)
    (h : stringListPiece o ps i p = .ok y) : PieceOK p y.news := by
  rcases stringListPiece_inv h with ⟨h1, q, _, h2⟩ | ⟨_, _, rfl⟩ | ⟨_, _, rfl⟩
  · obtain ⟨_, _, rfl⟩ := stringListWithSize_inv h2
    obtain ⟨p', _, hp', _, hl, _⟩ := stringListAt_some h1
    rw [hp] at hp'
    injection hp' with hp'
    subst hp'
    exact vectorParam_ok p hl
  · exact empty_ok p
  · exact keep_ok p

theorem isStride_default {p : Param} (h : isStride p = true) : HasDefault p := by
  intro hc
  rw [isStride, hc, strip_nil] at h
  simp [startsWith, sizeof_] at h

theorem bufferParam_ok (o : Options) (p : Param) : PieceOK p [bufferParam o p] := by
  unfold bufferParam
  split
  · refine single_ok rfl (not_list_of_specifiers (by simp)) (fun _ => Iff.rfl) (.inl rfl)
  · refine single_ok rfl (not_list_of_head rfl (by simp)) (fun _ => Iff.rfl) (.inl rfl)

theorem bufferNews_ok (o : Options) (ps : List Param) (i : Nat) (p : Param) : PieceOK p (bufferNews o ps i p) := by
  unfold bufferNews
  split
  · exact bufferParam_ok o p
  · split
    · rename_i h
      refine single_ok rfl (not_list_of_head (s := "int".toList) rfl (by simp)) ?_ (.inl rfl)
      intro _
      exact ⟨fun _ => isStride_default h, fun _ => by simp [HasDefault, strideParam]⟩
    · split
      · exact empty_ok p
      · exact keep_ok p

/-! ### The adapters -/

/-- What an adapter makes of each parameter, in order. -/
def Shape (ps news : List Param) : Prop := ∃ l : List (List Param), news = l.flatten ∧ List.Forall₂ PieceOK ps l

theorem shape_map {s : Str} {v : Bool} {ps : List Param} {g : Param → Piece} (h : ∀ p, PieceOK p (g p).news) :
    Shape ps (collect s v (ps.map g)).newParams := by
  refine ⟨ps.map (fun p => (g p).news), by simp [collect, List.flatMap_def, Function.comp_def], ?_⟩
  induction ps with
  | nil => exact .nil
  | cons p r ih => exact .cons (h p) ih

theorem forall2_zipIdx {R : Param → Nat → Piece → Prop} : ∀ (ps : List Param) (k : Nat) (l : List Piece),
    List.Forall₂ (fun x y => R x.1 x.2 y) (ps.zipIdx k) l →
    (∀ i p y, ps[i]? = some p → R p (k + i) y → PieceOK p y.news) → List.Forall₂ PieceOK ps (l.map (·.news)) := by
  intro ps
  induction ps with
  | nil => intro k l h _; cases h; exact .nil
  | cons p r ih =>
    intro k l h hR
    rw [List.zipIdx_cons] at h
    cases h with
    | cons h1 h2 =>
      refine .cons (hR 0 p _ rfl h1) (ih (k + 1) _ h2 ?_)
      intro i q y hq hy
      exact hR (i + 1) q y (by simpa using hq) (by rw [← Nat.add_assoc, Nat.add_right_comm]; exact hy)

theorem buffers_shape {o : Options} {f : Fn} {a : Adapter} (h : adaptBuffers o f = .ok (some a)) : Shape f.params a.newParams := by
  obtain ⟨_, _, l, hl, rfl⟩ := buffers_inv h
  refine ⟨l.map (·.news), by simp [collect, List.flatMap_def], ?_⟩
  refine forall2_zipIdx (R := fun p i y => bufferPiece o f.params i p = .ok y) f.params 0 l (bufferPieces_forall _ _ hl) ?_
  intro i p y _ hy
  obtain ⟨_, _, _, _, rfl⟩ := bufferPiece_inv hy
  exact bufferNews_ok o f.params _ p

theorem stringList_shape {o : Options} {f : Fn} {a : Adapter} (h : adaptStringList o f = .ok (some a)) :
    Shape f.params a.newParams := by
  obtain ⟨l, hl, rfl⟩ := stringList_inv h
  refine ⟨l.map (·.news), by simp [collect, List.flatMap_def], ?_⟩
  refine forall2_zipIdx (R := fun p i y => stringListPiece o f.params i p = .ok y) f.params 0 l (stringListPieces_forall _ _ hl) ?_
  intro i p y hp hy
  rw [Nat.zero_add] at hy
  exact stringListPiece_ok hp hy

theorem variadic_shape {o : Options} {f : Fn} {a : Adapter} (h : adaptVariadic o f = .ok (some a)) :
    Shape f.params a.newParams := by
  obtain ⟨first, fmt, last, hp, _, _, rfl⟩ := variadic_inv h
  rw [hp]
  refine ⟨first.map (fun p => [p]) ++ [[fmt], []], ?_, ?_⟩
  · simp [collect, variadicPieces, List.flatMap_def, Function.comp_def, keep]
  · clear hp h
    induction first with
    | nil => exact .cons (keep_ok fmt) (.cons (empty_ok last) .nil)
    | cons p r ih => exact .cons (keep_ok p) ih

theorem adapters_shape {o : Options} {g : Fn → Except Err (Option Adapter)} (hg : g ∈ adapters o) {f : Fn} {a : Adapter}
    (h : g f = .ok (some a)) : Shape f.params a.newParams := by
  simp only [adapters, List.mem_cons, List.not_mem_nil, or_false] at hg
  rcases hg with rfl | rfl | rfl | rfl | rfl | rfl | rfl | rfl | rfl | rfl
  · exact buffers_shape h
  · rw [exclude_inv h]; exact shape_map (excludePiece_ok o)
  · rw [mutable_inv h]; exact shape_map (mutablePiece_ok o)
  · rw [arrays_inv h]; exact shape_map (arrayPiece_ok o f)
  · rw [constChar_inv h]; exact shape_map constCharPiece_ok
  · rw [toReturn_inv h]; exact shape_map (s := "_adapt_modifiable_immutable_to_return".toList) (v := false) (toReturnPiece_ok o)
  · rw [boxed_inv h]; exact shape_map (boxedPiece_ok o)
  · exact stringList_shape h
  · rw [noCount_inv h]; exact shape_map noCountPiece_ok
  · exact variadic_shape h

theorem force_shape (f : Fn) : Shape f.params (forceLambda f).newParams := shape_map keep_ok

theorem adapters_len {o : Options} {g : Fn → Except Err (Option Adapter)} (hg : g ∈ adapters o) {f : Fn} {a : Adapter}
    (hn : NoListNamedSize o f.params) (h : g f = .ok (some a)) : a.args.length = f.params.length := by
  simp only [adapters, List.mem_cons, List.not_mem_nil, or_false] at hg
  rcases hg with rfl | rfl | rfl | rfl | rfl | rfl | rfl | rfl | rfl | rfl
  · exact buffers_len h
  · rw [exclude_inv h]; exact collect_len _ _ _ _ (fun p _ => excludePiece_len o p)
  · rw [mutable_inv h]; exact collect_len _ _ _ _ (fun p _ => mutablePiece_len o p)
  · rw [arrays_inv h]; exact collect_len _ _ _ _ (fun p _ => arrayPiece_len o f p)
  · rw [constChar_inv h]; exact collect_len _ _ _ _ (fun p _ => constCharPiece_len p)
  · rw [toReturn_inv h]
    exact collect_len "_adapt_modifiable_immutable_to_return".toList false _ _ (fun p _ => toReturnPiece_len o p)
  · rw [boxed_inv h]; exact collect_len _ _ _ _ (fun p _ => boxedPiece_len o p)
  · exact stringList_len hn h
  · rw [noCount_inv h]; exact collect_len _ _ _ _ (fun p _ => stringListNoCountPiece_len p)
  · exact variadic_len h

/-! ### Consequences of the shape -/

theorem shape_mem {ps news : List Param} (h : Shape ps news) : ∀ q ∈ news, ∃ p ∈ ps, ∃ l, PieceOK p l ∧ q ∈ l := by
  obtain ⟨l, rfl, hf⟩ := h
  intro q hq
  obtain ⟨x, hx, hqx⟩ := List.mem_flatten.1 hq
  obtain ⟨p, hp, hok⟩ := forall2_mem_right hf x hx
  exact ⟨p, hp, x, hok, hqx⟩

theorem shape_noListNamedSize {o : Options} {ps news : List Param} (h : Shape ps news) (hn : NoListNamedSize o ps) :
    NoListNamedSize o news := by
  intro q hq hl
  obtain ⟨p, hp, l, hok, hql⟩ := shape_mem h q hq
  rcases hok.lists q hql with rfl | h2
  · exact hn q hp hl
  · exact absurd hl h2

def TD (ps : List Param) : Prop := ps.Pairwise (fun p q => HasDefault p → HasDefault q)

theorem td_iff (ps : List Param) : TrailingDefaults ps ↔ TD ps := by
  unfold TD TrailingDefaults
  rw [List.pairwise_iff_getElem]
  constructor
  · intro h i j hi hj hij
    exact h i j _ _ hij (List.getElem?_eq_getElem hi) (List.getElem?_eq_getElem hj)
  · intro h i j p q hij hp hq
    obtain ⟨hi, rfl⟩ := List.getElem?_eq_some_iff.1 hp
    obtain ⟨hj, rfl⟩ := List.getElem?_eq_some_iff.1 hq
    exact h i j hi hj hij

theorem shape_defaults {ps news : List Param} (h : Shape ps news) (hn : ∀ p ∈ ps, NoArrayDefault p) (ht : TD ps) :
    TD news ∧ ∀ q ∈ news, NoArrayDefault q := by
  constructor
  · obtain ⟨l, rfl, hf⟩ := h
    induction hf with
    | nil => exact List.Pairwise.nil
    | cons hok hr ih =>
      rename_i p x ps' l'
      have ht' := List.pairwise_cons.1 ht
      have hnp := hn p List.mem_cons_self
      have hrec := ih (fun q hq => hn q (List.mem_cons_of_mem p hq)) ht'.2
      rw [List.flatten_cons]
      refine List.pairwise_append.2 ⟨?_, hrec, ?_⟩
      · exact List.pairwise_of_forall_mem_list (fun a ha b hb hd =>
          ((hok.defaults hnp b hb).1).2 (((hok.defaults hnp a ha).1).1 hd))
      · intro a ha b hb hd
        obtain ⟨y, hy, hby⟩ := List.mem_flatten.1 hb
        obtain ⟨p', hp', hok'⟩ := forall2_mem_right hr y hy
        refine ((hok'.defaults (hn p' (List.mem_cons_of_mem p hp')) b hby).1).2 ?_
        exact ht'.1 p' hp' (((hok.defaults hnp a ha).1).1 hd)
  · intro q hq
    obtain ⟨p, hp, l, hok, hql⟩ := shape_mem h q hq
    exact (hok.defaults (hn p hp) q hql).2

/-! ### The whole chain -/

/-- An invariant of the parameters, kept by every adapter, holds at the end and at every step. -/
theorem applyList_inv {o : Options} (P : Fn → Prop)
    (hP : ∀ g ∈ adapters o, ∀ f a, P f → g f = .ok (some a) → P (applyAdapter f a)) :
    ∀ (gs : List (Fn → Except Err (Option Adapter))), (∀ g ∈ gs, g ∈ adapters o) → ∀ f f', P f → applyList gs f = .ok f' → P f' := by
  intro gs
  induction gs with
  | nil => intro _ f f' h h2; simp [applyList] at h2; exact h2 ▸ h
  | cons g r ih =>
    intro hg f f' h h2
    unfold applyList at h2
    split at h2
    · simp at h2
    · rename_i f1 h3
      refine ih (fun x hx => hg x (List.mem_cons_of_mem g hx)) f1 f' ?_ h2
      unfold applyOne at h3
      split at h3
      · simp at h3
      · simp at h3; exact h3 ▸ h
      · rename_i a h4
        simp at h3
        exact h3 ▸ hP g (hg g List.mem_cons_self) f a h h4

theorem applyAll_inv {o : Options} (P : Fn → Prop)
    (hP : ∀ g ∈ adapters o, ∀ f a, P f → g f = .ok (some a) → P (applyAdapter f a))
    (hF : ∀ f, P f → P (applyAdapter f (forceLambda f))) {f g : Fn} (h0 : P f) (h : applyAll o f = .ok g) : P g := by
  unfold applyAll at h
  split at h
  · simp at h
  · rename_i f' h2
    simp at h
    have := applyList_inv P hP (adapters o) (fun _ h => h) f f' h0 h2
    subst h
    unfold maybeForceLambda
    split
    · exact hF f' this
    · exact this

end Verif.Adapt
