import Verif.Adapt.RunKinds
import Verif.Adapt.RunKinds2
import Verif.Adapt.RunArrays
import Verif.Adapt.SpecCall
import Verif.Adapt.RunBuffers2
import Verif.Adapt.Exclude

/-! Each adapter keeps its promise about a call. -/

namespace Verif.Adapt
open Verif.Py Verif.Type Spec

variable {code : Code} {known : List Str}

/-- The lambda `l`, called with what Python gives, gives `res` and leaves what Python sees. -/
def Works (code : Code) (o : Options) (known : List Str) (l : Lambda) (xs : List Passing) (r res : Val) : Prop :=
  ∀ f : Callee, f (xs.flatMap (·.cpp)) = .ok (r, xs.flatMap (·.cppAfter)) →
    run code o.arraySize known f l (xs.flatMap (·.python)) = .ok (res, xs.flatMap (·.pythonAfter))

theorem works_collect {o : Options} {s : Str} {v : Bool} {ys : List Piece} {xs : List Passing} {l : Lambda}
    (hl : LambdaOf (collect s v ys) l) (hn : NoClash l) (h : List.Forall₂ (PieceRun code o.arraySize) ys xs) (r : Val) :
    Works code o known l xs r r := fun f hf =>
  run_pieces code o.arraySize known f l h ⟨hl.1, hl.2.1, hl.2.2.1, hl.2.2.2.1⟩ hn (.inl ⟨hl.2.2.2.2, rfl⟩) hf

theorem forall2_map_left {α β γ : Type} {R : α → β → Prop} {Q : γ → β → Prop} {g : α → γ} {l : List α} {m : List β}
    (h : List.Forall₂ R l m) (hg : ∀ a ∈ l, ∀ b, R a b → Q (g a) b) : List.Forall₂ Q (l.map g) m := by
  induction h with
  | nil => exact .nil
  | cons h1 _ ih => exact .cons (hg _ List.mem_cons_self _ h1) (ih fun a ha => hg a (List.mem_cons_of_mem _ ha))

theorem exclude_works {o : Options} {f : Fn} {a : Adapter} {l : Lambda} (h : adaptExclude o f = .ok (some a)) (hl : LambdaOf a l)
    (hn : NoClash l) {xs : List Passing} (hx : List.Forall₂ (ExcludeCall code o) f.params xs) (r : Val) :
    Works code o known l xs r r := by
  rw [exclude_inv h] at hl
  exact works_collect hl hn (forall2_map_left hx fun p _ x hp => exclude_run hp) r

theorem mutable_works {o : Options} {f : Fn} {a : Adapter} {l : Lambda} (h : adaptMutable o f = .ok (some a)) (hl : LambdaOf a l)
    (hn : NoClash l) {xs : List Passing} (hx : List.Forall₂ (MutableCall code o) f.params xs) (r : Val) :
    Works code o known l xs r r := by
  rw [mutable_inv h] at hl
  exact works_collect hl hn (forall2_map_left hx fun p _ x hp => mutable_run hp) r

theorem arrays_works {o : Options} {f : Fn} {a : Adapter} {l : Lambda} (h : adaptArrays o f = .ok (some a)) (hl : LambdaOf a l)
    (hn : NoClash l) (hp : Plain o f.params) {xs : List Passing} (hx : List.Forall₂ (ArrayCall o f.name) f.params xs) (r : Val) :
    Works code o known l xs r r := by
  rw [arrays_inv h] at hl
  exact works_collect hl hn (forall2_map_left hx fun p hm x hc => array_run (hp.array p hm) hc) r

theorem nullText_works {o : Options} {f : Fn} {a : Adapter} {l : Lambda} (h : adaptConstChar o f = .ok (some a)) (hl : LambdaOf a l)
    (hn : NoClash l) (hp : Plain o f.params) {xs : List Passing} (hx : List.Forall₂ NullTextCall f.params xs) (r : Val) :
    Works code o known l xs r r := by
  rw [constChar_inv h] at hl
  refine works_collect hl hn (forall2_map_left hx fun p hm x hc => ?_) r
  by_cases ht : NullText p
  · exact nullText_run (hp.text p hm ht) hc
  · cases hc with
    | none_ h1 => exact absurd h1 ht
    | some_ v h1 => exact absurd h1 ht
    | kept _ _ h2 =>
      unfold constCharPiece
      rw [if_neg (fun hc => ht ((constCharNull_iff p).1 hc))]
      exact keep_run h2

theorem return_works {o : Options} {f : Fn} {a : Adapter} {l : Lambda} (h : adaptToReturn o f = .ok (some a)) (hl : LambdaOf a l)
    (hn : NoClash l) {xs : List Passing} (hx : List.Forall₂ (ReturnCall o) f.params xs) (r : Val) :
    Works code o known l xs r (tuple (if f.isVoid then xs.flatMap (·.output) else r :: xs.flatMap (·.output))) := by
  rw [toReturn_inv h] at hl
  intro g hg
  refine run_pieces code o.arraySize known g l (forall2_map_left hx fun p _ x hp => return_run hp)
    ⟨hl.1, hl.2.1, hl.2.2.1, hl.2.2.2.1⟩ hn (.inr ⟨!f.isVoid, hl.2.2.2.2, ?_⟩) hg
  cases f.isVoid <;> rfl

theorem boxed_works {o : Options} {f : Fn} {a : Adapter} {l : Lambda} (h : adaptBoxed o f = .ok (some a)) (hl : LambdaOf a l)
    (hn : NoClash l) {xs : List Passing} (hx : List.Forall₂ (BoxedCall o) f.params xs) (r : Val) :
    Works code o known l xs r r := by
  rw [boxed_inv h] at hl
  exact works_collect hl hn (forall2_map_left hx fun p _ x hp => boxed_run hp) r

theorem strings_works {o : Options} {f : Fn} {a : Adapter} {l : Lambda} (h : adaptStringListNoCount o f = .ok (some a))
    (hl : LambdaOf a l) (hn : NoClash l) {xs : List Passing} (hx : List.Forall₂ StringsCall f.params xs) (r : Val) :
    Works code o known l xs r r := by
  rw [noCount_inv h] at hl
  exact works_collect hl hn (forall2_map_left hx fun p _ x hp => strings_run hp) r

theorem force_works {o : Options} {f : Fn} {l : Lambda} (hl : LambdaOf (forceLambda f) l) (hn : NoClash l) {xs : List Passing}
    (hx : List.Forall₂ Kept f.params xs) (r : Val) : Works code o known l xs r r :=
  works_collect hl hn (forall2_map_left hx fun p _ x hp => keep_run hp) r

/-! ### Variadic functions -/

theorem format_pieces {sizes : Str → Option Nat} {ps : List Param} {xs : List Passing} (h : FormatCall code ps xs) :
    ∃ first fmt last, ps = first ++ [fmt, last] ∧ List.Forall₂ (PieceRun code sizes) (variadicPieces first fmt) xs := by
  induction h with
  | format fmt last v v' c hm => exact ⟨[], fmt, last, rfl, .cons (format_run hm) .nil⟩
  | kept hk _ ih =>
    obtain ⟨first, fmt, last, rfl, hf⟩ := ih
    exact ⟨_ :: first, fmt, last, rfl, .cons (keep_run hk) hf⟩

theorem format_works {o : Options} {f : Fn} {a : Adapter} {l : Lambda} (h : adaptVariadic o f = .ok (some a)) (hl : LambdaOf a l)
    (hn : NoClash l) {xs : List Passing} (hx : FormatCall code f.params xs) (r : Val) : Works code o known l xs r r := by
  obtain ⟨first, fmt, last, hp, _, _, rfl⟩ := variadic_inv h
  obtain ⟨first', fmt', last', hp', hf⟩ := format_pieces (sizes := o.arraySize) hx
  rw [hp] at hp'
  have h1 := List.append_inj' hp' rfl
  simp only [List.cons.injEq, and_true] at h1
  obtain ⟨rfl, rfl, rfl⟩ := h1
  exact works_collect hl hn hf r

/-! ### Lists of strings with their size -/

theorem piece_empty {sizes : Str → Option Nat} {x : Passing} (h : x.python = [] ∧ x.cpp = [] ∧ x.cppAfter = [] ∧ x.pythonAfter = [] ∧ x.output = []) :
    PieceRun code sizes {} x := by
  obtain ⟨p, c, ca, pa, ou⟩ := x
  obtain ⟨rfl, rfl, rfl, rfl, rfl⟩ := h
  refine ⟨by constructor <;> simp [names, Scoped], by simp, rfl, rfl, ?_⟩
  intro env _ _
  exact ⟨env, env, env, [], rfl, rfl, rfl, rfl, rfl, rfl, rfl, rfl⟩

def emptyPassing : Passing := { python := [], cpp := [], cppAfter := [], pythonAfter := [] }

theorem stringListAt_iff {o : Options} {ps : List Param} {i : Nat} {p : Param} {r : List Param} (hd : ps.drop i = p :: r) :
    isStringListAt o ps i = true ↔ IsStringList p ∧ ∃ q r', r = q :: r' ∧ o.bufferSizeName q.name = true := by
  have h0 : ps[i]? = some p := by
    have := congrArg (fun l => l[0]?) hd
    simpa using this
  have h1 : ps[i + 1]? = r[0]? := by
    have := congrArg (fun l => l[1]?) hd
    simpa using this
  constructor
  · intro h
    obtain ⟨p', q, hp', hq, hl, hs⟩ := stringListAt_some h
    rw [h0] at hp'
    simp only [Option.some.injEq] at hp'
    subst hp'
    refine ⟨(isStringList_iff p).1 hl, ?_⟩
    rw [h1] at hq
    cases r with
    | nil => simp at hq
    | cons q' r' =>
      simp only [List.getElem?_cons_zero, Option.some.injEq] at hq
      subst hq
      exact ⟨q', r', rfl, hs⟩
  · rintro ⟨hl, q, r', rfl, hs⟩
    unfold isStringListAt
    rw [h0, h1]
    simp [(isStringList_iff p).2 hl, looksLikeSize, hs]

theorem sized_pieces {o : Options} {ps : List Param} (hn : NoListNamedSize o ps) {sizes : Str → Option Nat} {suf : List Param}
    {xs : List Passing} (h : SizedStringsCall o suf xs) : ∀ (i : Nat) (ys : List Piece), ps.drop i = suf →
    isStringListSizeAt o ps i = false →
    List.Forall₂ (fun x y => stringListPiece o ps x.2 x.1 = .ok y) (suf.zipIdx i) ys →
    ∃ xs', List.Forall₂ (PieceRun code sizes) ys xs' ∧ xs'.flatMap (·.python) = xs.flatMap (·.python) ∧
      xs'.flatMap (·.cpp) = xs.flatMap (·.cpp) ∧ xs'.flatMap (·.cppAfter) = xs.flatMap (·.cppAfter) ∧
      xs'.flatMap (·.pythonAfter) = xs.flatMap (·.pythonAfter) := by
  induction h with
  | nil =>
    intro i ys _ _ hf
    cases hf
    exact ⟨[], .nil, rfl, rfl, rfl, rfl⟩
  | strings l hp hq hz ih =>
    rename_i p q r zs
    intro i ys hd hs hf
    have hd1 : ps.drop (i + 1) = q :: r := by rw [← List.drop_drop, hd]; rfl
    have hd2 : ps.drop (i + 1 + 1) = r := by rw [← List.drop_drop, hd1]; rfl
    have hat : isStringListAt o ps i = true := (stringListAt_iff hd).2 ⟨hp, q, r, rfl, hq⟩
    have hsz : isStringListSizeAt o ps (i + 1) = true := hat
    have hat1 : isStringListAt o ps (i + 1) = false := not_both hn hsz
    rw [List.zipIdx_cons, List.zipIdx_cons] at hf
    cases hf with
    | cons hy hf =>
      cases hf with
      | cons hy2 hf =>
        rename_i y y2 ys
        obtain ⟨xs', h1, h2, h3, h4, h5⟩ := ih (i + 1 + 1) ys hd2 hat1 hf
        have hy2' : y2 = {} := by
          rcases stringListPiece_inv hy2 with ⟨h, _⟩ | ⟨_, _, h⟩ | ⟨_, h, _⟩
          · rw [hat1] at h; simp at h
          · exact h
          · rw [hsz] at h; simp at h
        subst hy2'
        have ho := stringListPiece_own hy
        rcases stringListPiece_inv hy with ⟨_, q', _, hw⟩ | ⟨h, _⟩ | ⟨h, _⟩
        · refine ⟨_ :: emptyPassing :: xs', .cons (sizedStrings_run hw ho l) (.cons (piece_empty ⟨rfl, rfl, rfl, rfl, rfl⟩) h1), ?_, ?_, ?_, ?_⟩
          · simp [emptyPassing, h2]
          · simp [emptyPassing, h3]
          · simp [emptyPassing, h4]
          · simp [emptyPassing, h5]
        · rw [hat] at h; simp at h
        · rw [hat] at h; simp at h
  | kept hno hk hz ih =>
    rename_i p r x zs
    intro i ys hd hs hf
    have hd1 : ps.drop (i + 1) = r := by rw [← List.drop_drop, hd]; rfl
    have hat : isStringListAt o ps i = false := Bool.eq_false_iff.2 fun h => hno ((stringListAt_iff hd).1 h)
    rw [List.zipIdx_cons] at hf
    cases hf with
    | cons hy hf =>
      rename_i y ys
      obtain ⟨xs', h1, h2, h3, h4, h5⟩ := ih (i + 1) ys hd1 hat hf
      have hy' : y = keep p := by
        rcases stringListPiece_inv hy with ⟨h, _⟩ | ⟨_, h, _⟩ | ⟨_, _, h⟩
        · rw [hat] at h; simp at h
        · rw [hs] at h; simp at h
        · exact h
      subst hy'
      exact ⟨x :: xs', .cons (keep_run hk) h1, by simp [h2], by simp [h3], by simp [h4], by simp [h5]⟩

theorem sizedStrings_works {o : Options} {f : Fn} {a : Adapter} {l : Lambda} (h : adaptStringList o f = .ok (some a))
    (hl : LambdaOf a l) (hn : NoClash l) (hp : Plain o f.params) {xs : List Passing} (hx : SizedStringsCall o f.params xs) (r : Val) :
    Works code o known l xs r r := by
  obtain ⟨ys, hys, rfl⟩ := stringList_inv h
  obtain ⟨xs', h1, h2, h3, h4, h5⟩ := sized_pieces (code := code) (sizes := o.arraySize) hp.lists hx 0 ys rfl rfl
    (stringListPieces_forall _ _ hys)
  intro g hg
  rw [← h3, ← h4] at hg
  rw [← h2, ← h5]
  exact works_collect hl hn h1 r g hg

/-! ### The whole chain -/

theorem linked_apply' {R : List Param → Lambda → Prop} {ps : List Param} {f : Fn} (h : Linked R ps f) (a : Adapter)
    (hr : ∀ l : Lambda, l.name = f.name ++ a.suffix → LambdaOf a l → R f.params l) : Linked R ps (applyAdapter f a) := by
  have key := linked_apply (R := fun qs l => l.name = f.name ++ a.suffix → R qs l) (ps := ps)
    (f := { f with lambdas := f.lambdas }) ⟨fun i l hl => ⟨fun _ => (h.calls i l hl).1, (h.calls i l hl).2⟩, h.params, h.name⟩ a
    (fun l h1 h2 h3 h4 h5 hnm => hr l hnm ⟨h1, h2, h3, h4, h5⟩)
  refine ⟨?_, key.params, key.name⟩
  intro i l hl
  obtain ⟨k1, k2⟩ := key.calls i l hl
  by_cases hi : i < f.lambdas.length
  · refine ⟨?_, k2⟩
    have hl' : f.lambdas[i]? = some l := by
      unfold applyAdapter at hl
      rw [List.getElem?_append_left hi] at hl
      exact hl
    unfold applyAdapter
    rw [calledParams_append _ _ _ i (by omega)]
    exact (h.calls i l hl').1
  · refine ⟨k1 ?_, k2⟩
    unfold applyAdapter at hl
    rw [List.getElem?_append_right (by omega)] at hl
    rcases hk : i - f.lambdas.length with _ | k
    · rw [hk] at hl
      simp only [List.getElem?_cons_zero, Option.some.injEq] at hl
      rw [← hl]
    · rw [hk] at hl
      simp at hl

/-- Where a lambda comes from. -/
def From (o : Options) (f : Fn) (ps : List Param) (l : Lambda) : Prop :=
  ∃ f1 a, f1.params = ps ∧ f1.name = f.name ∧ l.name = f.name ++ a.suffix ∧ LambdaOf a l ∧
    ((∃ g ∈ adapters o, g f1 = .ok (some a)) ∨ a = forceLambda f1) ∧
    (a.suffix = "_adapt_modifiable_immutable_to_return".toList → f1.isVoid = f.isVoid) ∧
    (a.suffix = "_adapt_c_buffers".toList → f1.params = f.params)

theorem applyList_append (gs hs : List (Fn → Except Err (Option Adapter))) : ∀ (f f' : Fn), applyList (gs ++ hs) f = .ok f' →
    ∃ f1, applyList gs f = .ok f1 ∧ applyList hs f1 = .ok f' := by
  induction gs with
  | nil => intro f f' h; exact ⟨f, rfl, h⟩
  | cons g r ih =>
    intro f f' h
    rw [List.cons_append] at h
    simp only [applyList] at h ⊢
    split at h
    · simp at h
    · rename_i f1 h1
      exact ih f1 f' h

theorem applyAll_from {o : Options} {f g : Fn} (hf : f.lambdas = []) (hf2 : f.lambdaToCall = none) (h : applyAll o f = .ok g) :
    Linked (From o f) f.params g := by
  unfold applyAll at h
  split at h
  · simp at h
  rename_i f' h2
  simp only [Except.ok.injEq] at h
  have hsplit : adapters o = [adaptBuffers o] ++ ([adaptExclude o, adaptMutable o, adaptArrays o, adaptConstChar o] ++
      ([adaptToReturn o] ++ [adaptBoxed o, adaptStringList o, adaptStringListNoCount o, adaptVariadic o])) := rfl
  rw [hsplit] at h2
  obtain ⟨f0, h0, h20⟩ := applyList_append _ _ _ _ h2
  obtain ⟨f1, h3, h4⟩ := applyList_append _ _ _ _ h20
  obtain ⟨f2, h5, h6⟩ := applyList_append _ _ _ _ h4
  have k0 : Linked (From o f) f.params f0 ∧ f0.name = f.name ∧ f0.isVoid = f.isVoid := by
    simp only [applyList] at h0
    split at h0
    · simp at h0
    rename_i f3 h7
    simp only [Except.ok.injEq] at h0
    subst h0
    unfold applyOne at h7
    split at h7
    · simp at h7
    · simp only [Except.ok.injEq] at h7
      subst h7
      exact ⟨linked_start hf hf2, rfl, rfl⟩
    · rename_i a ha
      simp only [Except.ok.injEq] at h7
      subst h7
      refine ⟨linked_apply' (linked_start hf hf2) a fun l hn hl => ⟨f, a, rfl, rfl, hn, hl,
        .inl ⟨_, by simp [adapters], ha⟩, fun _ => rfl, fun _ => rfl⟩, rfl, ?_⟩
      obtain ⟨_, _, l, _, rfl⟩ := buffers_inv ha
      rfl
  have k1 := applyList_inv' (fun g => Linked (From o f) f.params g ∧ g.name = f.name ∧ g.isVoid = f.isVoid) _ (by
    intro g hg f1 a ⟨i1, i2, i3⟩ ha
    have hmem : g ∈ adapters o := by rw [hsplit]; exact List.mem_append_right _ (List.mem_append_left _ hg)
    have hv : a.newVoid = f1.isVoid ∧ a.suffix ≠ "_adapt_c_buffers".toList := by
      simp only [List.mem_cons, List.not_mem_nil, or_false] at hg
      rcases hg with rfl | rfl | rfl | rfl
      · rw [exclude_inv ha]; exact ⟨rfl, show ¬ "_adapt_exclude_params".toList = _ by decide +kernel⟩
      · rw [mutable_inv ha]; exact ⟨rfl, show ¬ "_adapt_mutable_param_with_default_value".toList = _ by decide +kernel⟩
      · rw [arrays_inv ha]; exact ⟨rfl, show ¬ "_adapt_fixed_size_c_arrays".toList = _ by decide +kernel⟩
      · rw [constChar_inv ha]; exact ⟨rfl, show ¬ "_adapt_const_char_pointer_with_default_null".toList = _ by decide +kernel⟩
    exact ⟨linked_apply' i1 a fun l hn hl => ⟨f1, a, rfl, i2, by rw [hn, i2], hl, .inl ⟨g, hmem, ha⟩, fun _ => i3,
      fun h => absurd h hv.2⟩, i2, hv.1.trans i3⟩) f0 f1 k0 h3
  have k2 : Linked (From o f) f.params f2 ∧ f2.name = f.name := by
    simp only [applyList] at h5
    split at h5
    · simp at h5
    rename_i f3 h7
    simp only [Except.ok.injEq] at h5
    subst h5
    unfold applyOne at h7
    split at h7
    · simp at h7
    · simp only [Except.ok.injEq] at h7
      subst h7
      exact ⟨k1.1, k1.2.1⟩
    · rename_i a ha
      simp only [Except.ok.injEq] at h7
      subst h7
      exact ⟨linked_apply' k1.1 a fun l hn hl => ⟨f1, a, rfl, k1.2.1, by rw [hn, k1.2.1], hl,
        .inl ⟨_, by simp [adapters], ha⟩, fun _ => k1.2.2, fun h => by
          rw [toReturn_inv ha] at h
          exact absurd h (show ¬ "_adapt_modifiable_immutable_to_return".toList = "_adapt_c_buffers".toList by decide +kernel)⟩, k1.2.1⟩
  have k3 := applyList_inv' (fun g => Linked (From o f) f.params g ∧ g.name = f.name) _ (by
    intro g hg f1 a ⟨i1, i2⟩ ha
    have hmem : g ∈ adapters o := by
      rw [hsplit]; exact List.mem_append_right _ (List.mem_append_right _ (List.mem_append_right _ hg))
    have hv : a.suffix ≠ "_adapt_modifiable_immutable_to_return".toList ∧ a.suffix ≠ "_adapt_c_buffers".toList := by
      simp only [List.mem_cons, List.not_mem_nil, or_false] at hg
      rcases hg with rfl | rfl | rfl | rfl
      · rw [boxed_inv ha]
        exact ⟨show ¬ "_adapt_modifiable_immutable".toList = _ by decide +kernel, show ¬ "_adapt_modifiable_immutable".toList = _ by decide +kernel⟩
      · obtain ⟨_, _, rfl⟩ := stringList_inv ha
        exact ⟨show ¬ "_adapt_c_string_list".toList = _ by decide +kernel, show ¬ "_adapt_c_string_list".toList = _ by decide +kernel⟩
      · rw [noCount_inv ha]
        exact ⟨show ¬ "_adapt_c_string_list_no_count".toList = _ by decide +kernel, show ¬ "_adapt_c_string_list_no_count".toList = _ by decide +kernel⟩
      · obtain ⟨_, _, _, _, _, _, rfl⟩ := variadic_inv ha
        exact ⟨show ¬ "_adapt_variadic_format".toList = _ by decide +kernel, show ¬ "_adapt_variadic_format".toList = _ by decide +kernel⟩
    exact ⟨linked_apply' i1 a fun l hn hl => ⟨f1, a, rfl, i2, by rw [hn, i2], hl, .inl ⟨g, hmem, ha⟩,
      fun h => absurd h hv.1, fun h => absurd h hv.2⟩, i2⟩) f2 f' k2 h6
  subst h
  unfold maybeForceLambda
  split
  · exact linked_apply' k3.1 _ fun l hn hl => ⟨f', _, rfl, k3.2, by rw [hn, k3.2], hl, .inr rfl,
      fun hs => absurd hs (show ¬ "_adapt_force_lambda".toList = "_adapt_modifiable_immutable_to_return".toList by decide +kernel),
      fun hs => absurd hs (show ¬ "_adapt_force_lambda".toList = "_adapt_c_buffers".toList by decide +kernel)⟩
  · exact k3.1

/-- The adapter that has the suffix. -/
theorem adapter_of {o : Options} {f : Fn} {a : Adapter} (h : (∃ g ∈ adapters o, g f = .ok (some a)) ∨ a = forceLambda f) :
    a.suffix = "_adapt_c_buffers".toList ∧ adaptBuffers o f = .ok (some a) ∨
    a.suffix = "_adapt_exclude_params".toList ∧ adaptExclude o f = .ok (some a) ∨
    a.suffix = "_adapt_mutable_param_with_default_value".toList ∧ adaptMutable o f = .ok (some a) ∨
    a.suffix = "_adapt_fixed_size_c_arrays".toList ∧ adaptArrays o f = .ok (some a) ∨
    a.suffix = "_adapt_const_char_pointer_with_default_null".toList ∧ adaptConstChar o f = .ok (some a) ∨
    a.suffix = "_adapt_modifiable_immutable_to_return".toList ∧ adaptToReturn o f = .ok (some a) ∨
    a.suffix = "_adapt_modifiable_immutable".toList ∧ adaptBoxed o f = .ok (some a) ∨
    a.suffix = "_adapt_c_string_list".toList ∧ adaptStringList o f = .ok (some a) ∨
    a.suffix = "_adapt_c_string_list_no_count".toList ∧ adaptStringListNoCount o f = .ok (some a) ∨
    a.suffix = "_adapt_variadic_format".toList ∧ adaptVariadic o f = .ok (some a) ∨
    a.suffix = "_adapt_force_lambda".toList ∧ a = forceLambda f := by
  rcases h with ⟨g, hg, ha⟩ | rfl
  · simp only [adapters, List.mem_cons, List.not_mem_nil, or_false] at hg
    rcases hg with rfl | rfl | rfl | rfl | rfl | rfl | rfl | rfl | rfl | rfl
    · obtain ⟨_, _, l, _, rfl⟩ := buffers_inv ha; exact .inl ⟨rfl, ha⟩
    · have := exclude_inv ha; subst this; exact .inr (.inl ⟨rfl, ha⟩)
    · have := mutable_inv ha; subst this; exact .inr (.inr (.inl ⟨rfl, ha⟩))
    · have := arrays_inv ha; subst this; exact .inr (.inr (.inr (.inl ⟨rfl, ha⟩)))
    · have := constChar_inv ha; subst this; exact .inr (.inr (.inr (.inr (.inl ⟨rfl, ha⟩))))
    · have := toReturn_inv ha; subst this; exact .inr (.inr (.inr (.inr (.inr (.inl ⟨rfl, ha⟩)))))
    · have := boxed_inv ha; subst this; exact .inr (.inr (.inr (.inr (.inr (.inr (.inl ⟨rfl, ha⟩))))))
    · obtain ⟨_, _, rfl⟩ := stringList_inv ha
      exact .inr (.inr (.inr (.inr (.inr (.inr (.inr (.inl ⟨rfl, ha⟩)))))))
    · have := noCount_inv ha; subst this; exact .inr (.inr (.inr (.inr (.inr (.inr (.inr (.inr (.inl ⟨rfl, ha⟩))))))))
    · obtain ⟨_, _, _, _, _, _, rfl⟩ := variadic_inv ha
      exact .inr (.inr (.inr (.inr (.inr (.inr (.inr (.inr (.inr (.inl ⟨rfl, ha⟩)))))))))
  · exact .inr (.inr (.inr (.inr (.inr (.inr (.inr (.inr (.inr (.inr ⟨rfl, rfl⟩)))))))))

theorem stage_works {o : Options} {f : Fn} {ps : List Param} {l : Lambda} (h : From o f ps l) {suffix : Str}
    (hname : l.name = f.name ++ suffix) (hn : NoClash l) (hp : Plain o ps) (hc : ClearBuffers o f.params) {xs : List Passing} {r res : Val}
    (hs : StageCall code o known f.name f.isVoid r ps xs suffix res) : Works code o known l xs r res := by
  obtain ⟨f1, a, rfl, hfn, h1, hl, ha, hv, hbuf⟩ := h
  have hsuf : a.suffix = suffix := List.append_cancel_left (h1.symm.trans hname)
  have key := adapter_of ha
  rw [hsuf] at key hv hbuf
  clear hsuf h1 hname ha
  cases hs with
  | buffers hx =>
    rcases key with ⟨_, k⟩ | ⟨k, _⟩ | ⟨k, _⟩ | ⟨k, _⟩ | ⟨k, _⟩ | ⟨k, _⟩ | ⟨k, _⟩ | ⟨k, _⟩ | ⟨k, _⟩ | ⟨k, _⟩ | ⟨k, _⟩
    case inl => exact fun g hg => buffers_run k hl hn (by rw [hbuf rfl]; exact hc) hx r g hg
    all_goals exact absurd k (by decide +kernel)
  | exclude hx =>
    rcases key with ⟨k, _⟩ | ⟨_, k⟩ | ⟨k, _⟩ | ⟨k, _⟩ | ⟨k, _⟩ | ⟨k, _⟩ | ⟨k, _⟩ | ⟨k, _⟩ | ⟨k, _⟩ | ⟨k, _⟩ | ⟨k, _⟩
    case inr.inl => exact exclude_works k hl hn hx r
    all_goals exact absurd k (by decide +kernel)
  | mutable_ hx =>
    rcases key with ⟨k, _⟩ | ⟨k, _⟩ | ⟨_, k⟩ | ⟨k, _⟩ | ⟨k, _⟩ | ⟨k, _⟩ | ⟨k, _⟩ | ⟨k, _⟩ | ⟨k, _⟩ | ⟨k, _⟩ | ⟨k, _⟩
    case inr.inr.inl => exact mutable_works k hl hn hx r
    all_goals exact absurd k (by decide +kernel)
  | arrays hx =>
    rcases key with ⟨k, _⟩ | ⟨k, _⟩ | ⟨k, _⟩ | ⟨_, k⟩ | ⟨k, _⟩ | ⟨k, _⟩ | ⟨k, _⟩ | ⟨k, _⟩ | ⟨k, _⟩ | ⟨k, _⟩ | ⟨k, _⟩
    case inr.inr.inr.inl => exact arrays_works k hl hn hp (hfn ▸ hx) r
    all_goals exact absurd k (by decide +kernel)
  | nullText hx =>
    rcases key with ⟨k, _⟩ | ⟨k, _⟩ | ⟨k, _⟩ | ⟨k, _⟩ | ⟨_, k⟩ | ⟨k, _⟩ | ⟨k, _⟩ | ⟨k, _⟩ | ⟨k, _⟩ | ⟨k, _⟩ | ⟨k, _⟩
    case inr.inr.inr.inr.inl => exact nullText_works k hl hn hp hx r
    all_goals exact absurd k (by decide +kernel)
  | return_ hx =>
    rcases key with ⟨k, _⟩ | ⟨k, _⟩ | ⟨k, _⟩ | ⟨k, _⟩ | ⟨k, _⟩ | ⟨_, k⟩ | ⟨k, _⟩ | ⟨k, _⟩ | ⟨k, _⟩ | ⟨k, _⟩ | ⟨k, _⟩
    case inr.inr.inr.inr.inr.inl =>
      have := return_works (code := code) (known := known) k hl hn hx r
      rw [hv rfl] at this
      exact this
    all_goals exact absurd k (by decide +kernel)
  | boxed hx =>
    rcases key with ⟨k, _⟩ | ⟨k, _⟩ | ⟨k, _⟩ | ⟨k, _⟩ | ⟨k, _⟩ | ⟨k, _⟩ | ⟨_, k⟩ | ⟨k, _⟩ | ⟨k, _⟩ | ⟨k, _⟩ | ⟨k, _⟩
    case inr.inr.inr.inr.inr.inr.inl => exact boxed_works k hl hn hx r
    all_goals exact absurd k (by decide +kernel)
  | sizedStrings hx =>
    rcases key with ⟨k, _⟩ | ⟨k, _⟩ | ⟨k, _⟩ | ⟨k, _⟩ | ⟨k, _⟩ | ⟨k, _⟩ | ⟨k, _⟩ | ⟨_, k⟩ | ⟨k, _⟩ | ⟨k, _⟩ | ⟨k, _⟩
    case inr.inr.inr.inr.inr.inr.inr.inl => exact sizedStrings_works k hl hn hp hx r
    all_goals exact absurd k (by decide +kernel)
  | strings hx =>
    rcases key with ⟨k, _⟩ | ⟨k, _⟩ | ⟨k, _⟩ | ⟨k, _⟩ | ⟨k, _⟩ | ⟨k, _⟩ | ⟨k, _⟩ | ⟨k, _⟩ | ⟨_, k⟩ | ⟨k, _⟩ | ⟨k, _⟩
    case inr.inr.inr.inr.inr.inr.inr.inr.inl => exact strings_works k hl hn hx r
    all_goals exact absurd k (by decide +kernel)
  | format hx =>
    rcases key with ⟨k, _⟩ | ⟨k, _⟩ | ⟨k, _⟩ | ⟨k, _⟩ | ⟨k, _⟩ | ⟨k, _⟩ | ⟨k, _⟩ | ⟨k, _⟩ | ⟨k, _⟩ | ⟨_, k⟩ | ⟨k, _⟩
    case inr.inr.inr.inr.inr.inr.inr.inr.inr.inl => exact format_works k hl hn hx r
    all_goals exact absurd k (by decide +kernel)
  | force hx =>
    rcases key with ⟨k, _⟩ | ⟨k, _⟩ | ⟨k, _⟩ | ⟨k, _⟩ | ⟨k, _⟩ | ⟨k, _⟩ | ⟨k, _⟩ | ⟨k, _⟩ | ⟨k, _⟩ | ⟨k, _⟩ | ⟨_, k⟩
    case inr.inr.inr.inr.inr.inr.inr.inr.inr.inr => exact force_works (k ▸ hl) hn hx r
    all_goals exact absurd k (by decide +kernel)

end Verif.Adapt
