import Verif.ToPy.Model
import Verif.ToPy.SpecCall
import Verif.Glue.Lemmas
import Verif.Py.Int

/-! The names of the parameters of callables. -/

namespace Verif.ToPy
open Verif.Py Spec
open Verif.Scope (isWordChar)

/-! ### Fields -/

theorem fieldsFrom_token : ∀ (t cur s : Str), (∀ c ∈ t, isSpace c = false) → fieldsFrom cur (t ++ s) = fieldsFrom (cur ++ t) s
  | [], cur, s, _ => by rw [List.append_nil]; rfl
  | c :: t, cur, s, h => by
    rw [List.cons_append, fieldsFrom, if_neg (by rw [h c (by simp)]; decide), fieldsFrom_token t _ s (fun d hd => h d (by simp [hd])), List.append_assoc]
    rfl

theorem fields_join : ∀ (ts : List Str), (∀ t ∈ ts, t ≠ [] ∧ ∀ c ∈ t, isSpace c = false) → fields (join [' '] ts) = ts
  | [], _ => rfl
  | [t], h => by
    have ht := h t (by simp)
    show fieldsFrom [] t = [t]
    have := fieldsFrom_token t [] [] ht.2
    rw [List.append_nil, List.nil_append] at this
    rw [this, fieldsFrom, if_neg ht.1]
  | t :: t' :: ts, h => by
    have ht := h t (by simp)
    show fieldsFrom [] (t ++ [' '] ++ join [' '] (t' :: ts)) = _
    rw [List.append_assoc, fieldsFrom_token t [] _ ht.2, List.nil_append, List.singleton_append, fieldsFrom, if_pos (by decide), if_neg ht.1]
    congr 1
    exact fields_join (t' :: ts) (fun x hx => h x (List.mem_cons_of_mem _ hx))

theorem join_ne {sep : Str} : ∀ {ts : List Str}, ts ≠ [] → (∀ t ∈ ts, t ≠ []) → join sep ts ≠ []
  | [], h, _ => absurd rfl h
  | [t], _, h => h t (by simp)
  | t :: t' :: ts, _, h => fun e => by
    have e1 : t ++ sep ++ join sep (t' :: ts) = [] := e
    rw [List.append_assoc] at e1
    exact h t (by simp) (List.append_eq_nil_iff.1 e1).1

theorem join_first {sep : Str} {t : Str} (ts : List Str) (ht : t ≠ []) : (join sep (t :: ts)).head? = t.head? := by
  cases ts with
  | nil => rfl
  | cons t' ts =>
    show (t ++ sep ++ join sep (t' :: ts)).head? = _
    cases t with
    | nil => exact absurd rfl ht
    | cons c t => rfl

theorem join_end {sep : Str} : ∀ {ts : List Str} {t : Str}, (∀ t ∈ ts, t ≠ []) → ts.getLast? = some t → (join sep ts).getLast? = t.getLast?
  | [], _, _, h => by cases h
  | [x], t, _, h => by cases h; rfl
  | x :: y :: ts, t, hn, h => by
    show (x ++ sep ++ join sep (y :: ts)).getLast? = _
    have h2 : (y :: ts).getLast? = some t := by rw [List.getLast?_cons_cons] at h; exact h
    rw [List.getLast?_append, join_end (fun z hz => hn z (List.mem_cons_of_mem _ hz)) h2]
    have : t ≠ [] := hn t (List.mem_cons_of_mem _ (List.mem_of_getLast? h2))
    cases hl : t.getLast? with
    | none => exact absurd (List.getLast?_eq_none_iff.1 hl) this
    | some c => rfl

/-- A list of tokens has no blank at its ends. -/
theorem strip_join {ts : List Str} (h : ∀ t ∈ ts, t ≠ [] ∧ ∀ c ∈ t, isSpace c = false) : strip (join [' '] ts) = join [' '] ts := by
  apply strip_ends
  · intro c hc
    cases ts with
    | nil => cases hc
    | cons t ts =>
      have ht := h t (by simp)
      rw [join_first ts ht.1] at hc
      exact ht.2 c (List.mem_of_head? hc)
  · intro c hc
    cases hl : ts.getLast? with
    | none => rw [List.getLast?_eq_none_iff.1 hl] at hc; cases hc
    | some t =>
      rw [join_end (fun t ht => (h t ht).1) hl] at hc
      exact (h t (List.mem_of_getLast? hl)).2 c (List.mem_of_getLast? hc)

/-! ### One parameter -/

theorem isName_iff {u : Char → Bool} {w : Str} : isName u w = true ↔ Name u w := by
  cases w with
  | nil => exact ⟨fun h => (by cases h), by rintro ⟨c, s, e, _⟩; cases e⟩
  | cons c s =>
    simp only [isName, Bool.and_eq_true, Bool.or_eq_true, decide_eq_true_eq, beq_iff_eq, List.all_eq_true]
    constructor
    · rintro ⟨(h | h) | h, h2⟩
      · exact ⟨c, s, rfl, .inl h, h2⟩
      · exact ⟨c, s, rfl, .inr (.inl h), h2⟩
      · exact ⟨c, s, rfl, .inr (.inr h), h2⟩
    · rintro ⟨c', s', e, h, h2⟩
      cases e
      rcases h with h | h | h
      · exact ⟨.inl (.inl h), h2⟩
      · exact ⟨.inl (.inr h), h2⟩
      · exact ⟨.inr h, h2⟩

/-- What a name is made of. -/
theorem name_token {u : Char → Bool} (hu : ∀ c, isSpace c = true → isWordChar u c = false) {w : Str} (h : Name u w) : Token w := by
  obtain ⟨c, s, rfl, h1, h2⟩ := h
  have hw : ∀ d ∈ c :: s, isWordChar u d = true := by
    intro d hd
    rcases List.mem_cons.1 hd with rfl | hd
    · unfold isWordChar
      rcases h1 with h1 | h1 | h1
      · have h3 : 97 ≤ d.toNat ∧ d.toNat ≤ 122 := ⟨h1.1, h1.2⟩
        have h4 : d.toNat < 128 := by omega
        simp [h4, h3.1, h3.2]
      · have h3 : 65 ≤ d.toNat ∧ d.toNat ≤ 90 := ⟨h1.1, h1.2⟩
        have h4 : d.toNat < 128 := by omega
        simp [h4, h3.1, h3.2]
      · rw [h1]; rfl
    · exact h2 d hd
  refine ⟨by simp, fun d hd => ⟨?_, ?_, ?_⟩⟩
  · cases hs : isSpace d with
    | false => rfl
    | true => exact absurd (hu d hs) (by rw [hw d hd]; decide)
  · rintro rfl; exact absurd (hw _ hd) Bool.false_ne_true
  · rintro rfl; exact absurd (hw _ hd) Bool.false_ne_true

theorem stripOne_blank (u : Char → Bool) (s : Str) : stripOne u (' ' :: s) = stripOne u s := by
  unfold stripOne
  rw [show strip (' ' :: s) = strip s from rfl]

theorem param_tokens {u : Char → Bool} (hu : ∀ c, isSpace c = true → isWordChar u c = false) {p : Param} (h : p.Clear u) :
    ∀ t ∈ p.type ++ p.name.toList, Token t := by
  intro t ht
  rcases List.mem_append.1 ht with ht | ht
  · exact h.tokens t ht
  · cases hn : p.name with
    | none => rw [hn] at ht; cases ht
    | some n =>
      rw [hn] at ht
      rw [List.mem_singleton.1 ht]
      exact name_token hu (h.names n hn)

/-- The name of the parameter goes. -/
theorem stripOne_param {u : Char → Bool} (hu : ∀ c, isSpace c = true → isWordChar u c = false) {p : Param} (h : p.Clear u) :
    stripOne u p.text = p.unnamed := by
  have ht := param_tokens hu h
  have ht' : ∀ t ∈ p.type ++ p.name.toList, t ≠ [] ∧ ∀ c ∈ t, isSpace c = false := fun t hx => ⟨(ht t hx).1, fun c hc => ((ht t hx).2 c hc).1⟩
  have hne : join [' '] (p.type ++ p.name.toList) ≠ [] := join_ne (by simp [h.some]) (fun t hx => (ht t hx).1)
  unfold stripOne Param.text Param.unnamed
  simp only [strip_join ht', fields_join _ ht']
  rw [if_neg hne]
  have hl : 0 < p.type.length := List.length_pos_iff.2 h.some
  cases hn : p.name with
  | some n =>
    rw [if_pos]
    · show join _ (p.type ++ [n]).dropLast = _
      rw [List.dropLast_concat]
    · show 2 ≤ (p.type ++ [n]).length ∧ (p.type ++ [n]).getLast?.any (isName u) = true
      rw [List.length_append, List.getLast?_concat]
      exact ⟨Nat.succ_le_succ hl, isName_iff.2 (h.names n hn)⟩
  | none =>
    show (if 2 ≤ (p.type ++ []).length ∧ (p.type ++ []).getLast?.any (isName u) = true then _ else join [' '] (p.type ++ [])) = _
    rw [List.append_nil, if_neg]
    rintro ⟨h1, h2⟩
    rcases h.last hn with h3 | h3
    · omega
    · rw [Option.any_eq_true] at h2
      obtain ⟨t, h4, h5⟩ := h2
      exact h3 t h4 (isName_iff.1 h5)

/-! ### The list of the parameters -/

theorem splitOn_none {s : Char} : ∀ {a : Str}, s ∉ a → splitOn s a = [a]
  | [], _ => rfl
  | c :: a, h => by
    rw [splitOn, if_neg (fun e => h (by simp [e])), splitOn_none (fun e => h (by simp [e]))]

theorem mem_join {sep : Str} {c : Char} : ∀ {ts : List Str}, c ∈ join sep ts → c ∈ sep ∨ ∃ t ∈ ts, c ∈ t
  | [], h => by cases h
  | [t], h => .inr ⟨t, by simp, h⟩
  | t :: t' :: ts, h => by
    have h1 : c ∈ t ++ sep ++ join sep (t' :: ts) := h
    rcases List.mem_append.1 h1 with h1 | h1
    · rcases List.mem_append.1 h1 with h1 | h1
      · exact .inr ⟨t, by simp, h1⟩
      · exact .inl h1
    · rcases mem_join h1 with h2 | ⟨x, hx, h2⟩
      · exact .inl h2
      · exact .inr ⟨x, List.mem_cons_of_mem _ hx, h2⟩

theorem param_no {u : Char → Bool} (hu : ∀ c, isSpace c = true → isWordChar u c = false) {p : Param} (h : p.Clear u) : ',' ∉ p.text ∧ ']' ∉ p.text := by
  constructor
  · intro hm
    rcases mem_join hm with h1 | ⟨t, ht, h1⟩
    · exact absurd h1 (by decide)
    · exact ((param_tokens hu h t ht).2 _ h1).2.1 rfl
  · intro hm
    rcases mem_join hm with h1 | ⟨t, ht, h1⟩
    · exact absurd h1 (by decide)
    · exact ((param_tokens hu h t ht).2 _ h1).2.2 rfl

theorem comma_eq : ", ".toList = [',', ' '] := by decide

theorem piece_eq {u : Char → Bool} (hu : ∀ c, isSpace c = true → isWordChar u c = false) {p : Param} (h : p.Clear u) {w : Str} (hw : w = [] ∨ w = [' ']) :
    splitOn ',' (w ++ p.text) = [w ++ p.text] ∧ stripOne u (w ++ p.text) = p.unnamed := by
  have h1 := (param_no hu h).1
  rcases hw with rfl | rfl
  · exact ⟨splitOn_none h1, stripOne_param hu h⟩
  · refine ⟨splitOn_none (fun hm => ?_), ?_⟩
    · rcases List.mem_append.1 hm with hm | hm
      · exact absurd hm (by decide)
      · exact h1 hm
    · show stripOne u (' ' :: p.text) = _
      rw [stripOne_blank, stripOne_param hu h]

/-- All the names go. -/
theorem strip_params {u : Char → Bool} (hu : ∀ c, isSpace c = true → isWordChar u c = false) : ∀ {p : Param} {ps : List Param} {w : Str},
    (∀ q ∈ p :: ps, q.Clear u) → (w = [] ∨ w = [' ']) →
    (splitOn ',' (w ++ join ", ".toList ((p :: ps).map Param.text))).map (stripOne u) = (p :: ps).map Param.unnamed
  | p, [], w, h, hw => by
    have hp := piece_eq hu (h p List.mem_cons_self) hw
    show (splitOn ',' (w ++ p.text)).map (stripOne u) = [p.unnamed]
    rw [hp.1, List.map_singleton, hp.2]
  | p, q :: ps, w, h, hw => by
    have hp := piece_eq hu (h p List.mem_cons_self) hw
    have ih := strip_params hu (p := q) (ps := ps) (w := [' ']) (fun x hx => h x (List.mem_cons_of_mem _ hx)) (.inr rfl)
    have e : w ++ join ", ".toList ((p :: q :: ps).map Param.text) = (w ++ p.text) ++ ',' :: ([' '] ++ join ", ".toList ((q :: ps).map Param.text)) := by
      show _ ++ (p.text ++ ", ".toList ++ join ", ".toList ((q :: ps).map Param.text)) = _
      rw [List.append_assoc, List.append_assoc]
      rfl
    rw [e, Glue.splitOn_split, List.map_append, ih, hp.1, List.map_singleton, hp.2]
    rfl

theorem params_text {u : Char → Bool} (hu : ∀ c, isSpace c = true → isWordChar u c = false) : ∀ {ps : List Param}, (∀ p ∈ ps, p.Clear u) →
    join ", ".toList ((splitOn ',' (join ", ".toList (ps.map Param.text))).map (stripOne u)) = join ", ".toList (ps.map Param.unnamed)
  | [], _ => rfl
  | p :: ps, h => by
    have := strip_params hu h (.inl rfl)
    rw [List.nil_append] at this
    rw [this]

theorem params_close {u : Char → Bool} (hu : ∀ c, isSpace c = true → isWordChar u c = false) {ps : List Param} (h : ∀ p ∈ ps, p.Clear u) :
    ']' ∉ join ", ".toList (ps.map Param.text) := by
  intro hm
  rcases mem_join hm with h1 | ⟨t, ht, h1⟩
  · exact absurd h1 (by decide)
  · obtain ⟨p, hp, rfl⟩ := List.mem_map.1 ht
    exact (param_no hu (h p hp)).2 h1

/-! ### The callables of a text -/

theorem upTo_eq : ∀ {a : Str} (s : Str), ']' ∉ a → upTo (a ++ ']' :: s) = some a
  | [], _, _ => by rw [List.nil_append, upTo, if_pos rfl]
  | c :: a, s, h => by
    rw [List.cons_append, upTo, if_neg (fun e => h (by simp [e])), upTo_eq s (fun e => h (by simp [e]))]
    rfl

theorem stripFrom_drop (u : Char → Bool) : ∀ (n : Nat) (s : Str), stripCallableFrom u n s = stripCallableFrom u 0 (s.drop n)
  | 0, _ => rfl
  | n + 1, [] => by rw [List.drop_nil, stripCallableFrom, stripCallableFrom]
  | n + 1, c :: s => by rw [stripCallableFrom, stripFrom_drop u n s]; rfl

theorem head_eq : callableHead = Spec.callable := rfl

theorem strip_kept {u : Char → Bool} : ∀ {s : Str}, ¬ Spec.callable <:+: s → stripCallableFrom u 0 s = s
  | [], _ => rfl
  | c :: s, h => by
    rw [stripCallableFrom, if_neg, strip_kept (fun e => h (e.trans (List.suffix_cons c s).isInfix))]
    intro e
    rw [head_eq, List.isPrefixOf_iff_prefix] at e
    exact h e.isInfix

/-- One callable. -/
theorem strip_one {u : Char → Bool} {a : Str} (s : Str) (ha : ']' ∉ a) :
    stripCallableFrom u 0 (Spec.callable ++ (a ++ ']' :: s)) =
      Spec.callable ++ (join ", ".toList ((splitOn ',' a).map (stripOne u)) ++ ']' :: stripCallableFrom u 0 s) := by
  obtain ⟨c, t, e⟩ : ∃ c t, Spec.callable = c :: t := ⟨_, _, rfl⟩
  have hlen : callableHead.length = t.length + 1 := by rw [head_eq, e]; rfl
  have e1 : Spec.callable ++ (a ++ ']' :: s) = c :: (t ++ (a ++ ']' :: s)) := by rw [e]; rfl
  rw [e1, stripCallableFrom, if_pos]
  · have e2 : (c :: (t ++ (a ++ ']' :: s))).drop callableHead.length = a ++ ']' :: s := by
      rw [hlen, List.drop_succ_cons, List.drop_left]
    rw [e2, upTo_eq s ha]
    show callableHead ++ _ ++ _ ++ stripCallableFrom u _ _ = _
    rw [stripFrom_drop, hlen]
    have e3 : (t ++ (a ++ ']' :: s)).drop (t.length + 1 + a.length) = s := by
      rw [show t.length + 1 + a.length = t.length + (a.length + 1) by omega, ← List.drop_drop, List.drop_left, ← List.drop_drop, List.drop_left]
      rfl
    rw [e3, head_eq, List.append_assoc, List.append_assoc]
    rfl
  · rw [head_eq, ← e1, List.isPrefixOf_iff_prefix]
    exact List.prefix_append _ _

/-- The text before the first callable. -/
theorem strip_before {u : Char → Bool} : ∀ {a : Str} (s : Str), ¬ Spec.callable <:+: a →
    stripCallableFrom u 0 (a ++ (Spec.callable ++ s)) = a ++ stripCallableFrom u 0 (Spec.callable ++ s)
  | [], _, _ => rfl
  | c :: a, s, h => by
    rw [List.cons_append, stripCallableFrom, if_neg, strip_before s (fun e => h (e.trans (List.suffix_cons c a).isInfix))]
    · rfl
    · intro e
      rw [head_eq, List.isPrefixOf_iff_prefix] at e
      have e' : Spec.callable <+: (c :: a) ++ (Spec.callable ++ s) := e
      rcases List.prefix_or_prefix_of_prefix e' (List.prefix_append (c :: a) _) with h1 | h1
      · exact h h1.isInfix
      · obtain ⟨y, hy⟩ := h1
        have h2 : y <+: Spec.callable ++ s := (List.prefix_append_right_inj (c :: a)).1 (by rw [hy]; exact e')
        have h3 : y ≠ [] := by
          rintro rfl
          rw [List.append_nil] at hy
          exact h (hy ▸ List.infix_rfl)
        obtain ⟨d, y', rfl⟩ := List.exists_cons_of_ne_nil h3
        have h4 : d = 'C' := by
          obtain ⟨z, hz⟩ := h2
          exact (List.cons.inj (show d :: (y' ++ z) = 'C' :: _ from hz)).1
        have h5 : a ++ d :: y' = "allable[[".toList := (List.cons.inj (show c :: (a ++ d :: y') = 'C' :: "allable[[".toList from hy)).2
        have h6 : 'C' ∈ "allable[[".toList := by rw [← h5, h4]; simp
        exact absurd h6 (by decide)

theorem strip_unnamed {u : Char → Bool} (hu : ∀ c, isSpace c = true → isWordChar u c = false) {s r : Str} (h : Unnamed u s r) : stripCallable u s = r := by
  unfold stripCallable
  induction h with
  | kept s h => exact strip_kept h
  | callable a ps s r ha hp _ ih =>
    rw [strip_before _ ha, strip_one s (params_close hu hp), params_text hu hp, ih]

end Verif.ToPy
