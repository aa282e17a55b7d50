import Verif.Adapt.Chain

/-! Every variable that the lambdas use is declared. -/

namespace Verif.Adapt
open Verif.Py Verif.Type Spec

theorem scoped_mono : ∀ (l : List Stmt) (S S' : List Str), (∀ x ∈ S, x ∈ S') → Scoped S l → Scoped S' l := by
  intro l
  induction l with
  | nil => intro S S' _ _; exact trivial
  | cons s r ih =>
    intro S S' h h2
    refine ⟨fun x hx => h x (h2.1 x hx), ih _ _ ?_ h2.2⟩
    intro x hx
    rcases List.mem_append.1 hx with hx | hx
    · exact List.mem_append_left _ (h x hx)
    · exact List.mem_append_right _ hx

theorem scoped_append (a b : List Stmt) : ∀ S, Scoped S a → Scoped S b → Scoped S (a ++ b) := by
  induction a with
  | nil => intro S _ h; exact h
  | cons s r ih =>
    intro S h h2
    exact ⟨h.1, ih _ h.2 (scoped_mono b S _ (fun x hx => List.mem_append_left _ hx) h2)⟩

theorem scoped_flatMap (S : List Str) (l : List Piece) (g : Piece → List Stmt) (h : ∀ y ∈ l, Scoped S (g y)) :
    Scoped S (l.flatMap g) := by
  induction l with
  | nil => exact trivial
  | cons y r ih =>
    rw [List.flatMap_cons]
    exact scoped_append _ _ S (h y List.mem_cons_self) (ih (fun z hz => h z (List.mem_cons_of_mem y hz)))

/-- The code of `y` uses the variables `N` (the parameters) and `D` (the local variables). -/
structure Uses (N D : List Str) (y : Piece) : Prop where
  input : Scoped N y.input
  args : ∀ a ∈ y.args, ∀ x ∈ argReads a, x ∈ N ++ D
  output : Scoped (N ++ D) y.output
  returned : ∀ x ∈ y.returned, x ∈ N ++ D

def names (ps : List Param) : List Str := ps.map (·.name)

theorem uses_mono {N D N' D' : List Str} {y : Piece} (hN : ∀ x ∈ N, x ∈ N') (hD : ∀ x ∈ D, x ∈ D') (h : Uses N D y) :
    Uses N' D' y := by
  have hND : ∀ x ∈ N ++ D, x ∈ N' ++ D' := by
    intro x hx
    rcases List.mem_append.1 hx with hx | hx
    · exact List.mem_append_left _ (hN x hx)
    · exact List.mem_append_right _ (hD x hx)
  exact ⟨scoped_mono _ _ _ hN h.input, fun a ha x hx => hND x (h.args a ha x hx), scoped_mono _ _ _ hND h.output,
    fun x hx => hND x (h.returned x hx)⟩

/-- The piece uses its own variables only. -/
def Own (y : Piece) : Prop := Uses (names y.news) (y.input.flatMap declares) y

theorem names_flatMap (l : List Piece) : names (l.flatMap (·.news)) = l.flatMap (fun y => names y.news) := by
  unfold names; rw [List.map_flatMap]

theorem own_uses {l : List Piece} {y : Piece} (hy : y ∈ l) (h : Own y) :
    Uses (names (l.flatMap (·.news))) ((l.flatMap (·.input)).flatMap declares) y := by
  refine uses_mono ?_ ?_ h
  · intro x hx
    rw [names_flatMap]
    exact List.mem_flatMap.2 ⟨y, hy, hx⟩
  · intro x hx
    rw [List.flatMap_assoc]
    exact List.mem_flatMap.2 ⟨y, hy, hx⟩

/-- A lambda made of pieces. -/
def MadeOf (l : Lambda) (ys : List Piece) : Prop :=
  l.params = ys.flatMap (·.news) ∧ l.args = ys.flatMap (·.args) ∧ l.input = ys.flatMap (·.input) ∧ l.output = ys.flatMap (·.output)

theorem wellScoped_of {l : Lambda} {ys : List Piece} (hm : MadeOf l ys)
    (h : ∀ y ∈ ys, Uses (names (ys.flatMap (·.news))) ((ys.flatMap (·.input)).flatMap declares) y)
    (hr : ∀ x ∈ retReads l.ret, x ∈ names (ys.flatMap (·.news)) ++ (ys.flatMap (·.input)).flatMap declares) : WellScoped l := by
  obtain ⟨h1, h2, h3, h4⟩ := hm
  unfold WellScoped
  rw [h1, h2, h3, h4]
  refine ⟨scoped_flatMap _ _ _ (fun y hy => (h y hy).input), ?_, scoped_flatMap _ _ _ (fun y hy => (h y hy).output), hr⟩
  intro a ha
  obtain ⟨y, hy, hay⟩ := List.mem_flatMap.1 ha
  exact (h y hy).args a hay

theorem keep_own (p : Param) : Own (keep p) := by
  constructor <;> simp [keep, names, Scoped, argReads]

theorem excludePiece_own (o : Options) (p : Param) : Own (excludePiece o p) := by
  unfold excludePiece
  split
  · constructor <;> simp [names, Scoped, argReads]
  · exact keep_own p

theorem mutablePiece_own (o : Options) (p : Param) : Own (mutablePiece o p) := by
  unfold mutablePiece
  split
  · constructor <;> simp [names, Scoped, argReads, reads, declares]
  · exact keep_own p

theorem scoped_all (S : List Str) : ∀ (l : List Stmt), (∀ s ∈ l, ∀ x ∈ reads s, x ∈ S) → Scoped S l := by
  intro l
  induction l generalizing S with
  | nil => intro _; exact trivial
  | cons s r ih =>
    intro h
    exact ⟨h s List.mem_cons_self, ih _ (fun t ht x hx => List.mem_append_left _ (h t (List.mem_cons_of_mem s ht) x hx))⟩

theorem boxedArrayPiece_own (o : Options) (p : Param) (n : Nat) : Own (boxedArrayPiece o p n) := by
  have hN : ∀ i < n, itemName p.name i ∈ names (boxedArrayPiece o p n).news := by
    intro i hi
    simp only [names, boxedArrayPiece, List.map_map, List.mem_map, List.mem_range]
    exact ⟨i, hi, rfl⟩
  have hD : rawName p.name ∈ (boxedArrayPiece o p n).input.flatMap declares := by
    simp [boxedArrayPiece, declares]
  refine ⟨?_, ?_, ?_, ?_⟩
  · refine ⟨by simp [reads], scoped_all _ _ ?_⟩
    intro s hs x hx
    obtain ⟨i, hi, rfl⟩ := List.mem_map.1 hs
    simp only [reads, List.mem_cons, List.not_mem_nil, or_false] at hx
    rcases hx with rfl | rfl
    · exact List.mem_append_right _ (by simp [declares])
    · exact List.mem_append_left _ (hN i (List.mem_range.1 hi))
  · intro a ha x hx
    simp only [boxedArrayPiece, List.mem_singleton] at ha
    subst ha
    simp only [argReads, List.mem_singleton] at hx
    subst hx
    exact List.mem_append_right _ hD
  · apply scoped_all
    intro s hs x hx
    obtain ⟨i, hi, rfl⟩ := List.mem_map.1 hs
    simp only [reads, List.mem_cons, List.not_mem_nil, or_false] at hx
    rcases hx with rfl | rfl
    · exact List.mem_append_left _ (hN i (List.mem_range.1 hi))
    · exact List.mem_append_right _ hD
  · intro x hx; simp [boxedArrayPiece] at hx

theorem arrayPiece_own (o : Options) (f : Fn) (p : Param) : Own (arrayPiece o f p) := by
  unfold arrayPiece
  split
  · exact keep_own p
  · rename_i n _
    split
    · constructor <;> simp [names, Scoped, argReads, stdArrayParam]
    · split
      · exact boxedArrayPiece_own o p n
      · exact keep_own p

theorem constCharPiece_own (p : Param) : Own (constCharPiece p) := by
  unfold constCharPiece
  split
  · constructor <;> simp [names, Scoped, argReads, reads, declares]
  · exact keep_own p

theorem returnedParam_name (p : Param) : (returnedParam p).name = p.name := by unfold returnedParam; split <;> rfl
theorem returnedStmt_reads (p : Param) : reads (returnedStmt p) = [p.name] := by
  unfold returnedStmt; split
  · rfl
  · split <;> rfl
theorem returnedStmt_declares (p : Param) : declares (returnedStmt p) = [modifiableName p.name] := by
  unfold returnedStmt; split
  · rfl
  · split <;> rfl

theorem toReturnPiece_own (o : Options) (p : Param) : Own (toReturnPiece o p) := by
  unfold toReturnPiece
  split
  · constructor <;> simp [names, Scoped, argReads, returnedStmt_reads, returnedStmt_declares, returnedParam_name]
  · split
    · unfold returnedArrayPiece
      split
      · exact keep_own p
      · constructor <;> simp [names, Scoped, argReads, reads, declares, returnedArray]
    · exact keep_own p

theorem boxedParam_name (o : Options) (p : Param) : (boxedParam o p).name = p.name := by unfold boxedParam; split <;> rfl
theorem boxedStmt_reads (p : Param) : reads (boxedStmt p) = [p.name] := by
  unfold boxedStmt; split
  · rfl
  · split <;> rfl
theorem boxedStmt_declares (p : Param) : declares (boxedStmt p) = [boxedValueName p.name] := by
  unfold boxedStmt; split
  · rfl
  · split <;> rfl

theorem boxedPiece_own (o : Options) (p : Param) : Own (boxedPiece o p) := by
  unfold boxedPiece
  split
  · constructor <;> simp [names, Scoped, argReads, boxedStmt_reads, boxedStmt_declares, boxedParam_name]
  · exact keep_own p

theorem noCountPiece_own (p : Param) : Own (stringListNoCountPiece p) := by
  unfold stringListNoCountPiece
  split
  · constructor <;> simp [names, Scoped, argReads, reads, declares, vectorParam]
  · exact keep_own p

theorem stringListPiece_own {o : Options} {ps : List Param} {i : Nat} {p : Param} {y : Piece}
    (h : stringListPiece o ps i p = .ok y) : Own y := by
  rcases stringListPiece_inv h with ⟨_, q, _, h2⟩ | ⟨_, _, rfl⟩ | ⟨_, _, rfl⟩
  · obtain ⟨_, _, rfl⟩ := stringListWithSize_inv h2
    constructor <;> simp [names, Scoped, argReads, reads, declares, vectorParam]
  · constructor <;> simp [names, Scoped]
  · exact keep_own p

/-! ### Buffers -/

theorem isBufferLoop_looks {o : Options} {ps : List Param} {n i : Nat} (h : isBufferLoop o ps n i = true) :
    ∃ p, ps[i]? = some p ∧ looksLikeBuffer o p = true := by
  cases n with
  | zero => simp [isBufferLoop] at h
  | succ n =>
    unfold isBufferLoop at h
    split at h
    · rename_i p q hp hq
      refine ⟨p, hp, ?_⟩
      split at h
      · simp at h
      · rename_i hl; simpa using hl
    · simp at h

theorem lastBufferBefore_self {o : Options} {ps : List Param} {i : Nat} {p : Param} (hp : ps[i]? = some p)
    (hl : looksLikeBuffer o p = true) : lastBufferBefore o ps i = some p.name := by
  unfold lastBufferBefore
  rw [List.take_add_one, hp]
  simp [hl]

theorem lastBufferBefore_skip {o : Options} {ps : List Param} {i : Nat} {p : Param} (hp : ps[i + 1]? = some p)
    (hl : looksLikeBuffer o p = false) : lastBufferBefore o ps (i + 1) = lastBufferBefore o ps i := by
  unfold lastBufferBefore
  rw [List.take_add_one, hp]
  simp [hl]

theorem lastBufferBefore_mem {o : Options} {ps : List Param} {i : Nat} {b : Str} (h : lastBufferBefore o ps i = some b) :
    ∃ (j : Nat) (q : Param), ps[j]? = some q ∧ q.name = b ∧ looksLikeBuffer o q = true := by
  unfold lastBufferBefore at h
  simp only [Option.map_eq_some_iff] at h
  obtain ⟨q, hq, rfl⟩ := h
  have h1 := List.mem_of_getLast? hq
  have h2 := List.mem_filter.1 h1
  have h3 := List.mem_of_mem_take h2.1
  obtain ⟨j, hj, rfl⟩ := List.mem_iff_getElem.1 h3
  exact ⟨j, ps[j], List.getElem?_eq_getElem hj, rfl, h2.2⟩

theorem orRaise_ok {α : Type} {e : Err} {x : Option α} {a : α} (h : orRaise e x = .ok a) : x = some a := by
  cases x with
  | none => simp [orRaise] at h
  | some b => simp [orRaise] at h; simp [h]

theorem looksLikeBuffer_iff (o : Options) (p : Param) : looksLikeBuffer o p = true ↔ LooksLikeBuffer o p := by
  simp [looksLikeBuffer, LooksLikeBuffer]

theorem isStride_iff (p : Param) : isStride p = true ↔ LooksLikeStride p := by
  unfold isStride LooksLikeStride startsWith sizeof_
  simp

theorem isBufferLoop_iff (o : Options) (ps : List Param) : ∀ n i, isBufferLoop o ps n i = true ↔
    ∃ k < n, (∀ j ≤ k, ∃ p, ps[i + j]? = some p ∧ LooksLikeBuffer o p) ∧
      ∃ q, ps[i + k + 1]? = some q ∧ o.bufferSizeName q.name = true := by
  intro n
  induction n with
  | zero => intro i; simp [isBufferLoop]
  | succ n ih =>
    intro i
    unfold isBufferLoop
    split
    · rename_i p q hp hq
      by_cases hl : looksLikeBuffer o p = true
      · rw [if_neg (by simp [hl])]
        by_cases hs : looksLikeSize o q = true
        · rw [if_pos hs]
          refine ⟨fun _ => ⟨0, by omega, ?_, q, hq, hs⟩, fun _ => rfl⟩
          intro j hj
          obtain rfl : j = 0 := by omega
          exact ⟨p, hp, (looksLikeBuffer_iff o p).1 hl⟩
        · rw [if_neg hs, ih]
          constructor
          · rintro ⟨k, hk, h1, r, h2, h3⟩
            refine ⟨k + 1, by omega, ?_, r, by rw [← h2]; congr 1; omega, h3⟩
            intro j hj
            cases j with
            | zero => exact ⟨p, hp, (looksLikeBuffer_iff o p).1 hl⟩
            | succ j =>
              obtain ⟨p', h4, h5⟩ := h1 j (by omega)
              exact ⟨p', by rw [← h4]; congr 1; omega, h5⟩
          · rintro ⟨k, hk, h1, r, h2, h3⟩
            cases k with
            | zero =>
              rw [Nat.add_zero, hq] at h2
              simp only [Option.some.injEq] at h2
              subst h2
              exact absurd h3 hs
            | succ k =>
              refine ⟨k, by omega, ?_, r, by rw [← h2]; congr 1; omega, h3⟩
              intro j hj
              obtain ⟨p', h4, h5⟩ := h1 (j + 1) (by omega)
              exact ⟨p', by rw [← h4]; congr 1; omega, h5⟩
      · rw [if_pos (by simpa using hl)]
        refine ⟨fun h => by simp at h, ?_⟩
        rintro ⟨k, hk, h1, _⟩
        obtain ⟨p', h4, h5⟩ := h1 0 (by omega)
        rw [Nat.add_zero, hp] at h4
        simp only [Option.some.injEq] at h4
        subst h4
        exact absurd ((looksLikeBuffer_iff o p).2 h5) hl
    · rename_i hno
      refine ⟨fun h => by simp at h, ?_⟩
      rintro ⟨k, hk, h1, r, h2, h3⟩
      obtain ⟨p', h4, h5⟩ := h1 0 (by omega)
      cases k with
      | zero => exact absurd h2 (fun hc => hno p' r h4 hc)
      | succ k =>
        obtain ⟨q', h6, _⟩ := h1 1 (by omega)
        exact absurd h6 (fun hc => hno p' q' h4 hc)

theorem isBuffer_iff (o : Options) (ps : List Param) (i : Nat) : isBuffer o ps i = true ↔ Recognised o ps i :=
  isBufferLoop_iff o ps 5 i

theorem Spec.ClearBuffers.clear' {o : Options} {ps : List Param} (h : ClearBuffers o ps) (p : Param) (hp : p ∈ ps)
    (hl : looksLikeBuffer o p = true) : looksLikeSize o p = false ∧ isStride p = false := by
  obtain ⟨h1, h2⟩ := h.clear p hp ((looksLikeBuffer_iff o p).1 hl)
  refine ⟨h1, ?_⟩
  rw [← isStride_iff] at h2
  simpa using h2

theorem Spec.ClearBuffers.template' {o : Options} {ps : List Param} (h : ClearBuffers o ps) (i : Nat) (p : Param)
    (hp : ps[i]? = some p) (ht : o.templateBuffer p.type = true) : isBuffer o ps i = true :=
  (isBuffer_iff o ps i).2 (h.template i p hp ht)

theorem bufferParam_name (o : Options) (p : Param) : (bufferParam o p).name = p.name := by unfold bufferParam; split <;> rfl

theorem buffer_news {o : Options} {ps : List Param} (hc : ClearBuffers o ps) {i : Nat} {p : Param} (hp : ps[i]? = some p)
    (h : looksLikeBuffer o p = true ∨ isStride p = true) : p.name ∈ names (bufferNews o ps i p) := by
  unfold bufferNews
  split
  · simp only [names, List.map_cons, bufferParam_name, List.map_nil, List.mem_singleton]
  · split
    · simp [names, strideParam]
    · rename_i h1 h2
      split
      · rename_i h3
        exfalso
        cases i with
        | zero => simp [isBufferSize] at h3
        | succ j =>
          simp only [isBufferSize, hp, Option.any_some, Bool.and_eq_true] at h3
          rcases h with h | h
          · have := (hc.clear' p (List.mem_of_getElem? hp) h).1
            rw [this] at h3
            simp at h3
          · exact h2 h
      · simp [names]

theorem forall2_zipIdx_mem {R : Param → Nat → Piece → Prop} : ∀ (ps : List Param) (k : Nat) (l : List Piece),
    List.Forall₂ (fun x y => R x.1 x.2 y) (ps.zipIdx k) l →
    (∀ y ∈ l, ∃ i p, ps[i]? = some p ∧ R p (k + i) y) ∧ (∀ i p, ps[i]? = some p → ∃ y ∈ l, R p (k + i) y) := by
  intro ps
  induction ps with
  | nil =>
    intro k l h
    cases h
    exact ⟨by simp, by simp⟩
  | cons p r ih =>
    intro k l h
    rw [List.zipIdx_cons] at h
    cases h with
    | cons h1 h2 =>
      rename_i y l'
      obtain ⟨ih1, ih2⟩ := ih (k + 1) l' h2
      refine ⟨?_, ?_⟩
      · intro z hz
        rcases List.mem_cons.1 hz with rfl | hz
        · exact ⟨0, p, rfl, h1⟩
        · obtain ⟨i, q, hq, hR⟩ := ih1 z hz
          exact ⟨i + 1, q, by simpa using hq, by rw [Nat.add_assoc, Nat.add_comm 1 i] at hR; exact hR⟩
      · intro i q hq
        cases i with
        | zero => simp at hq; subst hq; exact ⟨y, List.mem_cons_self, h1⟩
        | succ i =>
          simp at hq
          obtain ⟨z, hz, hR⟩ := ih2 i q hq
          exact ⟨z, List.mem_cons_of_mem _ hz, by rw [Nat.add_assoc, Nat.add_comm 1 i] at hR; exact hR⟩

theorem bufferInput_inv {o : Options} {ps : List Param} {i : Nat} {p : Param} {input : List Stmt}
    (h : bufferInput o ps i p = .ok input) :
    (isBuffer o ps i = true ∧ o.templateBuffer p.type = false ∧ ∃ b ty, lastBufferBefore o ps i = some b ∧
      p.type.typenames.head? = some ty ∧
      input = [.bufferData (isConst p.type) (fromPyarray p.name) (countOf b) p.name, .checkType p.name ty]) ∨
    ((isBuffer o ps i && !o.templateBuffer p.type) = false ∧ isStride p = true ∧ ∃ b, lastBufferBefore o ps i = some b ∧
      input = [.stride (strideOf b) p.name b]) ∨
    (isBuffer o ps i = true ∧ o.templateBuffer p.type = true ∧ isStride p = false ∧ ∃ b, lastBufferBefore o ps i = some b ∧
      input = [.bufferData (isConst p.type) (fromPyarray p.name) (countOf b) p.name]) ∨
    (isBuffer o ps i = false ∧ isStride p = false ∧ input = []) := by
  unfold bufferInput at h
  split at h
  · rename_i h1
    simp at h1
    obtain ⟨c, hc, h2⟩ := ok_bind h
    obtain ⟨k, hk, h3⟩ := ok_bind h2
    obtain ⟨b, hb, h4⟩ := ok_bind hc
    obtain ⟨ty, hty, h5⟩ := ok_bind hk
    simp [pure, Except.pure] at h3 h4 h5
    refine .inl ⟨h1.1, h1.2, b, ty, orRaise_ok hb, orRaise_ok hty, ?_⟩
    rw [← h3, ← h4, ← h5]
  · rename_i h1
    split at h
    · rename_i h2
      obtain ⟨s, hs, h3⟩ := ok_bind h
      obtain ⟨b, hb, h4⟩ := ok_bind hs
      simp [pure, Except.pure] at h3 h4
      refine .inr (.inl ⟨by simpa using h1, h2, b, orRaise_ok hb, ?_⟩)
      rw [← h3, ← h4]
    · rename_i h2
      split at h
      · rename_i h3
        simp at h3
        obtain ⟨c, hc, h5⟩ := ok_bind h
        obtain ⟨b, hb, h4⟩ := ok_bind hc
        simp [pure, Except.pure] at h5 h4
        refine .inr (.inr (.inl ⟨h3.1, h3.2, by simpa using h2, b, orRaise_ok hb, ?_⟩))
        rw [← h5, ← h4]
      · rename_i h3
        simp [pure, Except.pure] at h
        refine .inr (.inr (.inr ⟨?_, by simpa using h2, h⟩))
        by_contra hc
        simp only [Bool.not_eq_false] at hc
        rw [hc] at h1 h3
        simp at h1 h3
        rw [h1] at h3
        simp at h3

/-- The data and the count of a recognised buffer are declared. -/
theorem buffer_declares {o : Options} {ps : List Param} (hc : ClearBuffers o ps) {i : Nat} {p : Param} (hp : ps[i]? = some p)
    (hb : isBuffer o ps i = true) {input : List Stmt} (h : bufferInput o ps i p = .ok input) :
    fromPyarray p.name ∈ input.flatMap declares ∧ countOf p.name ∈ input.flatMap declares := by
  obtain ⟨p', hp', hl⟩ := isBufferLoop_looks hb
  rw [hp] at hp'
  simp at hp'
  subst hp'
  have hs := (hc.clear' p (List.mem_of_getElem? hp) hl).2
  have hlast := lastBufferBefore_self hp hl
  rcases bufferInput_inv h with ⟨_, _, b, ty, h1, _, rfl⟩ | ⟨_, h2, _⟩ | ⟨_, _, _, b, h1, rfl⟩ | ⟨h2, _⟩
  · rw [hlast] at h1; simp at h1; subst h1; simp [declares]
  · rw [hs] at h2; simp at h2
  · rw [hlast] at h1; simp at h1; subst h1; simp [declares]
  · rw [hb] at h2; simp at h2

theorem bufferArgs_inv {o : Options} {ps : List Param} {i : Nat} {p : Param} {a : Arg} (h : bufferArgs o ps i p = .ok a) :
    (o.templateBuffer p.type = true ∧ a = .castElem (isConst p.type) (fromPyarray p.name)) ∨
    (o.templateBuffer p.type = false ∧ isBuffer o ps i = true ∧ ∃ ty, p.type.typenames.head? = some ty ∧
      a = .cast (constSpace p.type ++ ty ++ " *".toList) (fromPyarray p.name)) ∨
    (o.templateBuffer p.type = false ∧ isBuffer o ps i = false ∧ isBufferSize o ps i = true ∧
      ∃ b ty, lastBufferBefore o ps i = some b ∧ p.type.typenames.head? = some ty ∧ a = .cast ty (countOf b)) ∨
    (o.templateBuffer p.type = false ∧ isBuffer o ps i = false ∧ isBufferSize o ps i = false ∧ isStride p = true ∧
      ∃ b ty, lastBufferBefore o ps i = some b ∧ p.type.typenames.head? = some ty ∧
        a = if ty ≠ "int".toList then .cast ty (strideOf b) else .var (strideOf b)) ∨
    (o.templateBuffer p.type = false ∧ isBuffer o ps i = false ∧ isBufferSize o ps i = false ∧ isStride p = false ∧
      a = .var p.name) := by
  unfold bufferArgs at h
  split at h
  · rename_i h1
    simp at h
    exact .inl ⟨h1, h.symm⟩
  · rename_i h1
    simp only [Bool.not_eq_true] at h1
    split at h
    · rename_i h2
      obtain ⟨ty, hty, h3⟩ := ok_bind h
      simp only [pure, Except.pure, Except.ok.injEq] at h3
      exact .inr (.inl ⟨h1, h2, ty, orRaise_ok hty, h3.symm⟩)
    · rename_i h2
      simp only [Bool.not_eq_true] at h2
      split at h
      · rename_i h3
        obtain ⟨ty, hty, h4⟩ := ok_bind h
        obtain ⟨b, hb, h5⟩ := ok_bind h4
        simp only [pure, Except.pure, Except.ok.injEq] at h5
        exact .inr (.inr (.inl ⟨h1, h2, h3, b, ty, orRaise_ok hb, orRaise_ok hty, h5.symm⟩))
      · rename_i h3
        simp only [Bool.not_eq_true] at h3
        split at h
        · rename_i h4
          obtain ⟨b, hb, h5⟩ := ok_bind h
          obtain ⟨ty, hty, h6⟩ := ok_bind h5
          refine .inr (.inr (.inr (.inl ⟨h1, h2, h3, h4, b, ty, orRaise_ok hb, orRaise_ok hty, ?_⟩)))
          split at h6
          · rename_i hne
            simp only [pure, Except.pure, Except.ok.injEq] at h6
            rw [if_pos hne]; exact h6.symm
          · rename_i hne
            simp only [pure, Except.pure, Except.ok.injEq] at h6
            rw [if_neg hne]; exact h6.symm
        · rename_i h4
          simp only [Bool.not_eq_true] at h4
          simp only [Except.ok.injEq] at h
          exact .inr (.inr (.inr (.inr ⟨h1, h2, h3, h4, h.symm⟩)))

/-- A size follows a recognised buffer. -/
theorem size_inv {o : Options} {ps : List Param} {i : Nat} (h : isBufferSize o ps i = true) :
    ∃ j p q, i = j + 1 ∧ ps[j]? = some p ∧ ps[j + 1]? = some q ∧ looksLikeBuffer o p = true ∧ looksLikeSize o q = true ∧
      isBuffer o ps j = true := by
  cases i with
  | zero => simp [isBufferSize] at h
  | succ j =>
    simp only [isBufferSize, Bool.and_eq_true, Option.any_eq_true] at h
    obtain ⟨⟨q, hq, hs⟩, p, hp, hl⟩ := h
    refine ⟨j, p, q, rfl, hp, hq, hl, hs, ?_⟩
    simp [isBuffer, isBufferLoop, hp, hq, hl, hs]

theorem buffers_uses {o : Options} {ps : List Param} (hc : ClearBuffers o ps) {l : List Piece}
    (hl : bufferPieces o ps ps.zipIdx = .ok l) :
    (∀ y ∈ l, Uses (names (l.flatMap (·.news))) ((l.flatMap (·.input)).flatMap declares) y) ∧
    (∀ x ∈ retReads (bufferRet o ps), x ∈ names (l.flatMap (·.news))) := by
  have hf := forall2_zipIdx_mem (R := fun p i y => bufferPiece o ps i p = .ok y) ps 0 l (bufferPieces_forall _ _ hl)
  simp only [Nat.zero_add] at hf
  obtain ⟨hf1, hf2⟩ := hf
  have hN : ∀ i p, ps[i]? = some p → ∀ x ∈ names (bufferNews o ps i p), x ∈ names (l.flatMap (·.news)) := by
    intro i p hp x hx
    obtain ⟨y, hy, h1⟩ := hf2 i p hp
    obtain ⟨_, _, _, _, rfl⟩ := bufferPiece_inv h1
    rw [names_flatMap]
    exact List.mem_flatMap.2 ⟨_, hy, hx⟩
  have hD : ∀ i p, ps[i]? = some p → ∃ input, bufferInput o ps i p = .ok input ∧
      ∀ x ∈ input.flatMap declares, x ∈ (l.flatMap (·.input)).flatMap declares := by
    intro i p hp
    obtain ⟨y, hy, h1⟩ := hf2 i p hp
    obtain ⟨input, _, h2, _, rfl⟩ := bufferPiece_inv h1
    refine ⟨input, h2, ?_⟩
    intro x hx
    rw [List.flatMap_assoc]
    exact List.mem_flatMap.2 ⟨_, hy, hx⟩
  have hBuf : ∀ b i, lastBufferBefore o ps i = some b → b ∈ names (l.flatMap (·.news)) := by
    intro b i hb
    obtain ⟨j, q, hq, rfl, hlq⟩ := lastBufferBefore_mem hb
    exact hN j q hq _ (buffer_news hc hq (.inl hlq))
  refine ⟨?_, ?_⟩
  · intro y hy
    obtain ⟨i, p, hp, hpiece⟩ := hf1 y hy
    obtain ⟨input, arg, hin, harg, rfl⟩ := bufferPiece_inv hpiece
    clear hpiece
    refine ⟨?_, ?_, trivial, by simp⟩
    · rcases bufferInput_inv hin with ⟨hb, _, b, ty, h1, _, rfl⟩ | ⟨_, h2, b, h1, rfl⟩ | ⟨hb, _, _, b, h1, rfl⟩ | ⟨_, _, rfl⟩
      · obtain ⟨p', hp', hl'⟩ := isBufferLoop_looks hb
        rw [hp] at hp'; simp at hp'; subst hp'
        have := hN i p hp _ (buffer_news hc hp (.inl hl'))
        simp [Scoped, reads, this]
      · have := hN i p hp _ (buffer_news hc hp (.inr h2))
        simp [Scoped, reads, this, hBuf b i h1]
      · obtain ⟨p', hp', hl'⟩ := isBufferLoop_looks hb
        rw [hp] at hp'; simp at hp'; subst hp'
        have := hN i p hp _ (buffer_news hc hp (.inl hl'))
        simp [Scoped, reads, this]
      · exact trivial
    · intro a ha
      simp only [List.mem_singleton] at ha
      subst ha
      obtain ⟨input', hin', hD'⟩ := hD i p hp
      rw [hin] at hin'
      simp only [Except.ok.injEq] at hin'
      subst hin'
      rcases bufferArgs_inv harg with ⟨ht, rfl⟩ | ⟨_, hb, ty, _, rfl⟩ | ⟨_, _, hs, b, ty, hlast, _, rfl⟩ |
        ⟨_, hnb, _, hst, b, ty, hlast, _, rfl⟩ | ⟨_, hnb, hns, hnst, rfl⟩
      · intro x hx
        simp only [argReads, List.mem_singleton] at hx
        subst hx
        exact List.mem_append_right _ (hD' _ (buffer_declares hc hp (hc.template' i p hp ht) hin).1)
      · intro x hx
        simp only [argReads, List.mem_singleton] at hx
        subst hx
        exact List.mem_append_right _ (hD' _ (buffer_declares hc hp hb hin).1)
      · intro x hx
        simp only [argReads, List.mem_singleton] at hx
        subst hx
        obtain ⟨j, q, p', rfl, hq, hp', hlq, hsp, hbj⟩ := size_inv hs
        rw [hp] at hp'; simp at hp'; subst hp'
        have hnl : looksLikeBuffer o p = false := by
          by_contra hcon
          simp only [Bool.not_eq_false] at hcon
          have := (hc.clear' p (List.mem_of_getElem? hp) hcon).1
          rw [this] at hsp; simp at hsp
        rw [lastBufferBefore_skip hp hnl, lastBufferBefore_self hq hlq] at hlast
        simp at hlast
        subst hlast
        obtain ⟨inq, hinq, hDq⟩ := hD j q hq
        exact List.mem_append_right _ (hDq _ (buffer_declares hc hq hbj hinq).2)
      · have hd : strideOf b ∈ input.flatMap declares := by
          rcases bufferInput_inv hin with ⟨hb, _⟩ | ⟨_, _, b', h1, rfl⟩ | ⟨hb, _⟩ | ⟨_, h2, _⟩
          · rw [hnb] at hb; simp at hb
          · rw [hlast] at h1; simp at h1; subst h1; simp [declares]
          · rw [hnb] at hb; simp at hb
          · rw [hst] at h2; simp at h2
        intro x hx
        have : x = strideOf b := by
          split at hx <;> simpa [argReads] using hx
        subst this
        exact List.mem_append_right _ (hD' _ hd)
      · intro x hx
        simp only [argReads, List.mem_singleton] at hx
        subst hx
        refine List.mem_append_left _ (hN i p hp _ ?_)
        simp [bufferNews, hnb, hns, hnst, names]
  · have hT : ∀ p ∈ ps, o.templateBuffer p.type = true → p.name ∈ names (l.flatMap (·.news)) := by
      intro p hp ht
      obtain ⟨i, hi, rfl⟩ := List.mem_iff_getElem.1 hp
      exact hN i _ (List.getElem?_eq_getElem hi) _
        (buffer_news hc (List.getElem?_eq_getElem hi) (.inl (by simp [looksLikeBuffer, ht])))
    intro x hx
    unfold bufferRet at hx
    split at hx
    · simp [retReads] at hx
    · rename_i p hp
      have hp1 := List.mem_filter.1 (List.mem_of_getLast? hp)
      simp only [retReads, List.mem_cons] at hx
      rcases hx with rfl | hx
      · exact hT p hp1.1 hp1.2
      · obtain ⟨q, hq, rfl⟩ := List.mem_map.1 (List.mem_filter.1 hx).1
        have := List.mem_filter.1 hq
        exact hT q this.1 this.2

/-! ### All adapters -/

/-- The lambda that an adapter makes. -/
def LambdaOf (a : Adapter) (l : Lambda) : Prop :=
  l.params = a.newParams ∧ l.args = a.args ∧ l.input = a.input ∧ l.output = a.output ∧ l.ret = a.ret

theorem collect_scoped {s : Str} {v : Bool} {ys : List Piece} {l : Lambda} (h : LambdaOf (collect s v ys) l)
    (ho : ∀ y ∈ ys, Own y) : WellScoped l := by
  obtain ⟨h1, h2, h3, h4, h5⟩ := h
  refine wellScoped_of ⟨h1, h2, h3, h4⟩ (fun y hy => own_uses hy (ho y hy)) ?_
  rw [h5]
  simp [collect, retReads]

theorem map_own {ps : List Param} {g : Param → Piece} (h : ∀ p, Own (g p)) : ∀ y ∈ ps.map g, Own y := by
  intro y hy
  obtain ⟨p, _, rfl⟩ := List.mem_map.1 hy
  exact h p

theorem toReturn_scoped {o : Options} {f : Fn} {a : Adapter} {l : Lambda} (h : adaptToReturn o f = .ok (some a))
    (hl : LambdaOf a l) : WellScoped l := by
  rw [toReturn_inv h] at hl
  obtain ⟨h1, h2, h3, h4, h5⟩ := hl
  have hu := fun y (hy : y ∈ f.params.map (toReturnPiece o)) => own_uses hy (map_own (toReturnPiece_own o) y hy)
  refine wellScoped_of ⟨h1, h2, h3, h4⟩ hu ?_
  rw [h5]
  intro x hx
  simp only [retReads] at hx
  obtain ⟨y, hy, hxy⟩ := List.mem_flatMap.1 hx
  exact (hu y hy).returned x hxy

theorem tail_scoped {o : Options} {g : Fn → Except Err (Option Adapter)} (hg : g ∈ (adapters o).tail) {f : Fn} {a : Adapter}
    (h : g f = .ok (some a)) {l : Lambda} (hl : LambdaOf a l) : WellScoped l := by
  simp only [adapters, List.tail_cons, List.mem_cons, List.not_mem_nil, or_false] at hg
  rcases hg with rfl | rfl | rfl | rfl | rfl | rfl | rfl | rfl | rfl
  · rw [exclude_inv h] at hl; exact collect_scoped hl (map_own (excludePiece_own o))
  · rw [mutable_inv h] at hl; exact collect_scoped hl (map_own (mutablePiece_own o))
  · rw [arrays_inv h] at hl; exact collect_scoped hl (map_own (arrayPiece_own o f))
  · rw [constChar_inv h] at hl; exact collect_scoped hl (map_own constCharPiece_own)
  · exact toReturn_scoped h hl
  · rw [boxed_inv h] at hl; exact collect_scoped hl (map_own (boxedPiece_own o))
  · obtain ⟨ys, hys, rfl⟩ := stringList_inv h
    refine collect_scoped hl ?_
    intro y hy
    obtain ⟨x, _, hx⟩ := forall2_mem_right (stringListPieces_forall _ _ hys) y hy
    exact stringListPiece_own hx
  · rw [noCount_inv h] at hl; exact collect_scoped hl (map_own noCountPiece_own)
  · obtain ⟨first, fmt, last, _, _, _, rfl⟩ := variadic_inv h
    refine collect_scoped hl ?_
    intro y hy
    rcases List.mem_append.1 hy with hy | hy
    · exact map_own keep_own y hy
    · simp only [List.mem_singleton] at hy
      subst hy
      constructor <;> simp [names, Scoped, argReads]

theorem buffers_scoped {o : Options} {f : Fn} {a : Adapter} (hc : ClearBuffers o f.params) (h : adaptBuffers o f = .ok (some a))
    {l : Lambda} (hl : LambdaOf a l) : WellScoped l := by
  obtain ⟨_, _, ys, hys, rfl⟩ := buffers_inv h
  obtain ⟨h1, h2, h3, h4, h5⟩ := hl
  obtain ⟨hu, hr⟩ := buffers_uses hc hys
  refine wellScoped_of ⟨h1, h2, h3, h4⟩ hu ?_
  rw [h5]
  exact fun x hx => List.mem_append_left _ (hr x hx)

theorem force_scoped (f : Fn) {l : Lambda} (hl : LambdaOf (forceLambda f) l) : WellScoped l :=
  collect_scoped hl (map_own keep_own)

theorem applyList_inv' (P : Fn → Prop) : ∀ (gs : List (Fn → Except Err (Option Adapter))),
    (∀ g ∈ gs, ∀ f a, P f → g f = .ok (some a) → P (applyAdapter f a)) → ∀ f f', P f → applyList gs f = .ok f' → P f' := by
  intro gs
  induction gs with
  | nil => intro _ f f' h h2; simp [applyList] at h2; exact h2 ▸ h
  | cons g r ih =>
    intro hg f f' h h2
    unfold applyList at h2
    split at h2
    · simp at h2
    · rename_i f1 h3
      refine ih (fun x hx => hg x (List.mem_cons_of_mem g hx)) f1 f' ?_ h2
      unfold applyOne at h3
      split at h3
      · simp at h3
      · simp at h3; exact h3 ▸ h
      · rename_i a h4
        simp at h3
        exact h3 ▸ hg g List.mem_cons_self f a h h4

/-- As `applyAll_inv`, when the first adapter only sees the first function. -/
theorem applyAll_inv_first {o : Options} (P : Fn → Prop) {f g : Fn}
    (h1 : ∀ a, P f → adaptBuffers o f = .ok (some a) → P (applyAdapter f a))
    (hP : ∀ g ∈ (adapters o).tail, ∀ f a, P f → g f = .ok (some a) → P (applyAdapter f a))
    (hF : ∀ f, P f → P (applyAdapter f (forceLambda f))) (h0 : P f) (h : applyAll o f = .ok g) : P g := by
  unfold applyAll at h
  split at h
  · simp at h
  · rename_i f' h2
    simp at h
    have key : P f' := by
      rw [show adapters o = adaptBuffers o :: (adapters o).tail from rfl] at h2
      unfold applyList at h2
      split at h2
      · simp at h2
      · rename_i f1 h3
        refine applyList_inv' P _ hP f1 f' ?_ h2
        unfold applyOne at h3
        split at h3
        · simp at h3
        · simp at h3; exact h3 ▸ h0
        · rename_i a h4
          simp at h3
          exact h3 ▸ h1 a h0 h4
    subst h
    unfold maybeForceLambda
    split
    · exact hF f' key
    · exact key

end Verif.Adapt
