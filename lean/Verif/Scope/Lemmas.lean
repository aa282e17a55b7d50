import Verif.Py.StrLemmas
import Verif.Repl.Lemmas
import Verif.Scope.Spec

namespace Verif.Scope
open Verif.Py Spec

/-! ### paths -/

theorem text_eq (p : List Str) : text p = join colons p := rfl

theorem strCpp_eq (s : CppScope) : strCpp s = text s := by
  unfold strCpp
  cases s with
  | nil => rfl
  | cons => rfl

theorem strCppPrefix_nil : strCppPrefix [] = [] := rfl
theorem strCppPrefix_ne {s : CppScope} (h : s ≠ []) : strCppPrefix s = text s ++ colons := by
  unfold strCppPrefix
  cases s with
  | nil => exact absurd rfl h
  | cons => rfl

theorem colons_prefix_iff (a b : Str) : colons <+: a ++ b → ':' ∉ a → a ≠ [] → False := by
  rintro ⟨t, ht⟩ hn hne
  cases a with
  | nil => exact hne rfl
  | cons x xs =>
    simp only [colons, List.cons_append, List.nil_append, List.cons.injEq] at ht
    exact hn (by rw [← ht.1]; simp)

theorem split_colons_cons (a b : Str) (h : ':' ∉ a) :
    split (a ++ colons ++ b) colons = a :: split b colons := by
  unfold split
  have := Repl.splitAux_first colons a b [] (by decide) (by
    intro x y hxy hy hp
    rw [List.append_assoc] at hp
    exact colons_prefix_iff y (colons ++ b) hp (fun hm => h (by rw [hxy]; simp [hm])) hy)
  simpa using this

theorem not_contains_colons {s : Str} (h : ':' ∉ s) : contains s colons = false := by
  rw [Bool.eq_false_iff]
  intro hc
  obtain ⟨a, b, he⟩ := (contains_iff _ _).1 hc
  exact h (by rw [he]; simp [colons])

theorem split_colons_single {s : Str} (h : ':' ∉ s) : split s colons = [s] := by
  unfold split
  simpa using Repl.splitAux_none colons s [] (not_contains_colons h)

theorem split_join_colons : ∀ {ls : List Str}, ls ≠ [] → (∀ l ∈ ls, ':' ∉ l) → split (join colons ls) colons = ls
  | [], h, _ => absurd rfl h
  | [l], _, h => split_colons_single (h l (by simp))
  | l :: m :: ms, _, h => by
    rw [join_cons_cons, split_colons_cons _ _ (h l (by simp)),
      split_join_colons (by simp) (fun x hx => h x (List.mem_cons_of_mem _ hx))]

theorem join_splitAux (sep : Str) (hne : sep ≠ []) (s : Str) : ∀ (k : Nat) (cur : Str), k ≤ s.length →
    join sep (splitAux sep k cur s) = cur.reverse ++ s.drop k := by
  induction s with
  | nil => intro k cur _; simp [splitAux]
  | cons c s ih =>
    intro k cur hk
    cases k with
    | succ k =>
      unfold splitAux
      rw [ih k cur (by simpa using hk)]
      simp
    | zero =>
      unfold splitAux
      by_cases hp : sep.isPrefixOf (c :: s) = true
      · rw [if_pos hp]
        have hpre := List.isPrefixOf_iff_prefix.1 hp
        have hlen := hpre.length_le
        simp only [List.length_cons] at hlen
        rw [join_cons_of_ne_nil _ _ (Repl.splitAux_ne_nil _ _ _ _), ih _ _ (by omega)]
        obtain ⟨t, ht⟩ := hpre
        cases sep with
        | nil => exact absurd rfl hne
        | cons d ds =>
          simp only [List.cons_append, List.cons.injEq] at ht
          obtain ⟨rfl, rfl⟩ := ht
          simp
      · rw [if_neg hp, ih 0 (c :: cur) (Nat.zero_le _)]
        simp

theorem text_inj {p q : List Str} (hp : Path p) (hq : Path q) (h : text p = text q) : p = q := by
  have key : ∀ r : List Str, Path r → (text r = [] → r = []) := by
    intro r hr h0
    cases r with
    | nil => rfl
    | cons a as =>
      exfalso
      have hne := (hr a (by simp)).1
      cases as with
      | nil => exact hne h0
      | cons b bs =>
        rw [text_eq, join_cons_cons] at h0
        simp at h0
        exact hne h0.1
  by_cases hp0 : p = []
  · subst hp0
    exact (key q hq h.symm).symm
  · by_cases hq0 : q = []
    · subst hq0; exact key p hp h
    · have h1 := split_join_colons hp0 (fun l hl => (hp l hl).2)
      have h2 := split_join_colons hq0 (fun l hl => (hq l hl).2)
      rw [← h1, ← h2, ← text_eq, ← text_eq, h]

theorem ancestors_snoc (l : List Str) (x : Str) : ancestors (l ++ [x]) = (l ++ [x]) :: ancestors l := by
  unfold ancestors
  rw [List.length_append, List.length_singleton, List.range_succ_eq_map, List.map_cons, List.map_map]
  congr 1
  · exact List.take_of_length_le (by simp)
  · apply List.map_congr_left
    intro i _
    simp only [Function.comp_apply, Nat.succ_eq_add_one]
    rw [List.take_append_of_le_length (by omega)]
    congr 1
    omega

theorem hierarchyLoop_some (n : Nat) (s : CppScope) (h : s.length < n) :
    hierarchyLoop n (some s) = ancestors s := by
  induction n generalizing s with
  | zero => omega
  | succ n ih =>
    unfold hierarchyLoop parentScope
    rcases List.eq_nil_or_concat s with hs | ⟨l, x, hs⟩
    · subst hs; cases n <;> rfl
    · subst hs
      simp only [List.concat_eq_append, List.length_append, List.length_cons, List.length_nil,
        Nat.zero_add, List.dropLast_concat] at h ⊢
      rw [if_pos (by omega), ih l (by omega)]
      rw [ancestors_snoc]

theorem mem_ancestors (p q : List Str) : q ∈ ancestors p ↔ q <+: p := by
  unfold ancestors
  rw [List.mem_map]
  constructor
  · rintro ⟨i, _, rfl⟩
    exact List.take_prefix _ _
  · intro h
    refine ⟨p.length - q.length, ?_, ?_⟩
    · rw [List.mem_range]; omega
    · have := h.length_le
      have e : p.length - (p.length - q.length) = q.length := by omega
      rw [e]
      exact (List.prefix_iff_eq_take.1 h).symm

theorem accessLoop_eq (n : Nat) (s : CppScope) (o : CppScope) :
    accessLoop n (some s) o = (hierarchyLoop n (some s)).any (fun p => scopeEq p o) := by
  induction n generalizing s with
  | zero => rfl
  | succ n ih =>
    unfold accessLoop hierarchyLoop
    rw [List.any_cons]
    cases hp : parentScope s with
    | none => cases scopeEq s o <;> cases n <;> rfl
    | some q => rw [ih q]; cases scopeEq s o <;> rfl

theorem path_of_prefix {p q : List Str} (hp : Path p) (h : q <+: p) : Path q :=
  fun n hn => hp n (h.subset hn)

/-! ### the scanner -/

theorem flush_ne {f : Str → Str} {t : Str} (h : t ≠ []) : flush f t = f t := by
  unfold flush; rw [if_neg h]

theorem flush_nil (f : Str → Str) : flush f [] = [] := rfl

theorem word_ne_nil {u : Char → Bool} {w : Str} (h : Word u w) : w ≠ [] := by cases h <;> simp

theorem wordChar_ne {u : Char → Bool} {c d : Char} (h : isWordChar u c = true) (hd : isWordChar (fun _ => false) d = false)
    (ha : d.toNat < 128) : c ≠ d := by
  rintro rfl
  unfold isWordChar at h hd
  rw [if_pos ha] at h hd
  rw [h] at hd; cases hd

theorem notWord_colon (u : Char → Bool) : isWordChar u ':' = false := by rfl
theorem notWord_quote (u : Char → Bool) : isWordChar u '"' = false := by rfl
theorem notWord_slash (u : Char → Bool) : isWordChar u '/' = false := by rfl

theorem scan_wordChar {u : Char → Bool} {f : Str → Str} {t : Str} {c : Char} {rest : Str} (h : isWordChar u c = true) :
    scan u f t false false (c :: rest) = scan u f (t ++ [c]) false false rest := by
  have h1 : c ≠ '"' := wordChar_ne h (by decide) (by decide)
  have h2 : c ≠ '/' := wordChar_ne h (by decide) (by decide)
  conv => lhs; unfold scan scanAux
  simp [h1, h2, h, scan]

theorem scan_colons {u : Char → Bool} {f : Str → Str} {t : Str} {rest : Str} :
    scan u f t false false (':' :: ':' :: rest) = scan u f (t ++ colons) false false rest := by
  conv => lhs; unfold scan scanAux
  simp [notWord_colon]
  cases rest <;> rfl

theorem scan_sep {u : Char → Bool} {f : Str → Str} {t : Str} {c : Char} {rest : Str} (h : isWordChar u c = false)
    (h1 : c ≠ '"') (h2 : ¬ (c = ':' ∧ rest.head? = some ':')) (h3 : ¬ (c = '/' ∧ rest.head? = some '/')) :
    scan u f t false false (c :: rest) = flush f t ++ c :: scan u f [] false false rest := by
  conv => lhs; unfold scan scanAux
  have h4 : (c == '/' && rest.head? == some '/') = false := by
    rw [Bool.eq_false_iff]; intro hh
    simp only [Bool.and_eq_true, beq_iff_eq] at hh
    exact h3 hh
  simp only [beq_iff_eq, h1, Bool.false_and, Bool.false_eq_true, if_false, h4, Bool.not_false, Bool.and_self, if_true, h,
    beq_eq_false_iff_ne.2 h1]
  rw [if_neg (by simpa using h2)]
  rfl

theorem scan_word {u : Char → Bool} {f : Str → Str} {w : Str} (hw : Word u w) : ∀ (t rest : Str),
    scan u f t false false (w ++ rest) = scan u f (t ++ w) false false rest := by
  induction hw with
  | one c h => intro t rest; exact scan_wordChar h
  | colons => intro t rest; exact scan_colons
  | cons c w h _ ih => intro t rest; rw [List.cons_append, scan_wordChar h, ih]; simp
  | consColons w _ ih =>
    intro t rest
    rw [List.cons_append, List.cons_append, scan_colons, ih]; simp [colons]

/-- Inside a string, until the closing quote. -/
theorem scan_inString {u : Char → Bool} {f : Str → Str} {b : Str} (hb : '"' ∉ b) : ∀ (t rest : Str),
    scan u f t true false (b ++ rest) = b ++ scan u f t true false rest := by
  induction b with
  | nil => intro t rest; rfl
  | cons c b ih =>
    intro t rest
    have h1 : c ≠ '"' := fun h => hb (by simp [h])
    rw [List.cons_append]
    conv => lhs; unfold scan scanAux
    simp only [beq_eq_false_iff_ne.2 h1, Bool.false_and, Bool.false_eq_true, if_false, Bool.not_true, Bool.and_false,
      ite_self]
    have := ih (fun h => hb (by simp [h])) t rest
    unfold scan at this ⊢
    rw [this]
    rfl

theorem scan_openQuote {u : Char → Bool} {f : Str → Str} (t rest : Str) :
    scan u f t false false ('"' :: rest) = '"' :: scan u f t true false rest := by
  conv => lhs; unfold scan scanAux
  simp [scan]

theorem scan_closeQuote {u : Char → Bool} {f : Str → Str} (t rest : Str) :
    scan u f t true false ('"' :: rest) = flush f t ++ '"' :: scan u f [] false false rest := by
  conv => lhs; unfold scan scanAux
  simp [notWord_quote, scan]

/-- Inside a comment, until the end of the line. -/
theorem scan_inComment {u : Char → Bool} {f : Str → Str} {b : Str} (hb : '\n' ∉ b) : ∀ (t rest : Str),
    scan u f t false true (b ++ rest) = b ++ scan u f t false true rest := by
  induction b with
  | nil => intro t rest; rfl
  | cons c b ih =>
    intro t rest
    have h1 : c ≠ '\n' := fun h => hb (by simp [h])
    rw [List.cons_append]
    conv => lhs; unfold scan scanAux
    simp only [Bool.not_true, Bool.and_false, Bool.false_eq_true, if_false, ite_self, beq_eq_false_iff_ne.2 h1,
      Bool.not_false, Bool.and_true]
    have := ih (fun h => hb (by simp [h])) t rest
    unfold scan at this ⊢
    rw [this]
    rfl

theorem scan_endComment {u : Char → Bool} {f : Str → Str} (t rest : Str) :
    scan u f t false true ('\n' :: rest) = '\n' :: scan u f t false false rest := by
  conv => lhs; unfold scan scanAux
  simp [scan]

theorem scan_slashes {u : Char → Bool} {f : Str → Str} (t rest : Str) :
    scan u f t false false ('/' :: '/' :: rest) = '/' :: scan u f t false true ('/' :: rest) := by
  conv => lhs; unfold scan scanAux
  simp [scan]

theorem render_cons (s : Seg) (segs : List Seg) : render (s :: segs) = s.text ++ render segs := by
  simp [render]

theorem newline_sep (u : Char → Bool) : isWordChar u '\n' = false := by rfl

theorem scan_lexed (u : Char → Bool) (f : Str → Str) : ∀ (segs : List Seg), Lexed u segs → Loose segs →
    scan u f [] false false (render segs) = mapWords f segs
  | [], _, _ => rfl
  | .word w :: segs, h, hl => by
    obtain ⟨hw, hn, h⟩ := h
    obtain ⟨hl1, hl⟩ := hl
    have ih := scan_lexed u f segs h hl
    rw [render_cons]
    show scan u f [] false false (w ++ render segs) = f w ++ mapWords f segs
    rw [scan_word hw, List.nil_append]
    rcases hl1 with rfl | ⟨c, rest, rfl⟩
    · show flush f w = f w ++ []
      rw [flush_ne (word_ne_nil hw), List.append_nil]
    · obtain ⟨k1, k2, k3, k4, k5⟩ := h
      rw [render_cons] at ih ⊢
      show scan u f w false false (c :: render rest) = _
      rw [scan_sep k1 k2 k3 k4, flush_ne (word_ne_nil hw)]
      have ih' : scan u f [] false false (c :: render rest) = mapWords f (.sep c :: rest) := ih
      rw [scan_sep k1 k2 k3 k4, flush_nil] at ih'
      rw [← ih']; rfl
  | .sep c :: segs, h, hl => by
    obtain ⟨k1, k2, k3, k4, h⟩ := h
    have ih := scan_lexed u f segs h hl
    rw [render_cons]
    show scan u f [] false false (c :: render segs) = c :: mapWords f segs
    rw [scan_sep k1 k2 k3 k4, flush_nil, ih]; rfl
  | .str b :: segs, h, hl => by
    obtain ⟨k1, h⟩ := h
    have ih := scan_lexed u f segs h hl
    rw [render_cons]
    show scan u f [] false false ('"' :: b ++ ['"'] ++ render segs) = ('"' :: b ++ ['"']) ++ mapWords f segs
    rw [List.append_assoc, List.cons_append, scan_openQuote, scan_inString k1]
    simp only [List.cons_append, List.nil_append]
    rw [scan_closeQuote, flush_nil, ih]
    simp
  | .comment b :: segs, h, hl => by
    obtain ⟨k1, k2, h⟩ := h
    have ih := scan_lexed u f segs h hl
    rw [render_cons]
    show scan u f [] false false ('/' :: '/' :: b ++ render segs) = ('/' :: '/' :: b) ++ mapWords f segs
    have e : ('/' :: '/' :: b ++ render segs) = '/' :: '/' :: (b ++ render segs) := rfl
    rw [e, scan_slashes]
    have e2 : ('/' :: (b ++ render segs)) = ('/' :: b) ++ render segs := rfl
    have k1' : '\n' ∉ '/' :: b := by simp [k1]
    rw [e2, scan_inComment k1']
    rcases k2 with rfl | ⟨rest, rfl⟩
    · show '/' :: (('/' :: b) ++ []) = ('/' :: '/' :: b) ++ []
      rfl
    · have ih' : scan u f [] false false ('\n' :: render rest) = mapWords f (.sep '\n' :: rest) := ih
      rw [scan_sep (newline_sep u) (by decide) (by simp) (by simp), flush_nil, List.nil_append] at ih'
      rw [← ih', render_cons]
      show '/' :: (('/' :: b) ++ scan u f [] false true ('\n' :: render rest)) = _
      rw [scan_endComment]
      rfl
  | .openStr b :: segs, h, hl => by
    obtain ⟨k1, rfl⟩ := h
    show scan u f [] false false ('"' :: b ++ []) = ('"' :: b) ++ []
    rw [List.cons_append, scan_openQuote, scan_inString k1]
    rfl

/-! every code has pieces -/

theorem quote_split (s : Str) : (∃ b r, '"' ∉ b ∧ s = b ++ '"' :: r) ∨ '"' ∉ s := by
  induction s with
  | nil => right; simp
  | cons c s ih =>
    by_cases h : c = '"'
    · subst h; exact Or.inl ⟨[], s, by simp, rfl⟩
    · rcases ih with ⟨b, r, h1, h2⟩ | h1
      · exact Or.inl ⟨c :: b, r, by simp [h1, Ne.symm h], by rw [h2]; rfl⟩
      · right; simp [h1, Ne.symm h]

theorem line_split (s : Str) : ∃ b r, '\n' ∉ b ∧ s = b ++ r ∧ (r = [] ∨ ∃ r', r = '\n' :: r') := by
  induction s with
  | nil => exact ⟨[], [], by simp, rfl, Or.inl rfl⟩
  | cons c s ih =>
    by_cases h : c = '\n'
    · subst h; exact ⟨[], '\n' :: s, by simp, rfl, Or.inr ⟨s, rfl⟩⟩
    · obtain ⟨b, r, h1, h2, h3⟩ := ih
      exact ⟨c :: b, r, by simp [h1, Ne.symm h], by rw [h2]; rfl, h3⟩

theorem lexed_cons_word {u : Char → Bool} {a : Str} (ha : Word u a)
    (happ : ∀ w, Word u w → Word u (a ++ w)) {segs : List Seg} (h : Lexed u segs) :
    ∃ segs', Lexed u segs' ∧ render segs' = a ++ render segs := by
  cases segs with
  | nil => exact ⟨[.word a], ⟨ha, by simp, trivial⟩, by simp [render, Seg.text]⟩
  | cons s segs =>
    cases hs : s with
    | word w =>
      subst hs
      obtain ⟨h1, h2, h3⟩ := h
      exact ⟨.word (a ++ w) :: segs, ⟨happ w h1, h2, h3⟩, by simp [render, Seg.text]⟩
    | sep c => subst hs; exact ⟨.word a :: .sep c :: segs, ⟨ha, by simp [Seg.isWord], h⟩, by simp [render, Seg.text]⟩
    | str c => subst hs; exact ⟨.word a :: .str c :: segs, ⟨ha, by simp [Seg.isWord], h⟩, by simp [render, Seg.text]⟩
    | comment c => subst hs; exact ⟨.word a :: .comment c :: segs, ⟨ha, by simp [Seg.isWord], h⟩, by simp [render, Seg.text]⟩
    | openStr c => subst hs; exact ⟨.word a :: .openStr c :: segs, ⟨ha, by simp [Seg.isWord], h⟩, by simp [render, Seg.text]⟩

theorem exists_lexed (u : Char → Bool) (n : Nat) : ∀ code : Str, code.length ≤ n →
    ∃ segs, Lexed u segs ∧ render segs = code := by
  induction n with
  | zero =>
    intro code h
    exact ⟨[], trivial, (List.eq_nil_of_length_eq_zero (by omega)).symm⟩
  | succ n ih =>
    intro code h
    cases code with
    | nil => exact ⟨[], trivial, rfl⟩
    | cons c rest =>
      simp only [List.length_cons] at h
      by_cases hq : c = '"'
      · subst hq
        rcases quote_split rest with ⟨b, r, h1, h2⟩ | h1
        · have hl := congrArg List.length h2
          simp only [List.length_append, List.length_cons] at hl
          obtain ⟨segs, hs, hr⟩ := ih r (by omega)
          exact ⟨.str b :: segs, ⟨h1, hs⟩, by rw [render_cons, hr, h2]; simp [Seg.text]⟩
        · exact ⟨[.openStr rest], ⟨h1, rfl⟩, by simp [render, Seg.text]⟩
      · by_cases hw : isWordChar u c = true
        · obtain ⟨segs, hs, hr⟩ := ih rest (by omega)
          obtain ⟨segs', hs', hr'⟩ := lexed_cons_word (a := [c]) (.one c hw) (fun w h => .cons c w hw h) hs
          exact ⟨segs', hs', by rw [hr', hr]; rfl⟩
        · by_cases hc : c = ':' ∧ rest.head? = some ':'
          · obtain ⟨rfl, hh⟩ := hc
            cases rest with
            | nil => cases hh
            | cons d rest =>
              simp only [List.head?_cons, Option.some.injEq] at hh
              subst hh
              simp only [List.length_cons] at h
              obtain ⟨segs, hs, hr⟩ := ih rest (by omega)
              obtain ⟨segs', hs', hr'⟩ := lexed_cons_word (a := [':', ':']) .colons (fun w h => .consColons w h) hs
              exact ⟨segs', hs', by rw [hr', hr]; rfl⟩
          · by_cases hd : c = '/' ∧ rest.head? = some '/'
            · obtain ⟨rfl, hh⟩ := hd
              cases rest with
              | nil => cases hh
              | cons d rest =>
                simp only [List.head?_cons, Option.some.injEq] at hh
                subst hh
                obtain ⟨b, r, h1, h2, h3⟩ := line_split rest
                have hl := congrArg List.length h2
                simp only [List.length_append, List.length_cons] at hl h
                rcases h3 with rfl | ⟨r', rfl⟩
                · exact ⟨[.comment b], ⟨h1, Or.inl rfl, trivial⟩, by simp [render, Seg.text, h2]⟩
                · simp only [List.length_cons] at hl
                  obtain ⟨segs, hs, hr⟩ := ih r' (by omega)
                  refine ⟨.comment b :: .sep '\n' :: segs,
                    ⟨h1, Or.inr ⟨segs, rfl⟩, newline_sep u, by decide, by simp, by simp, hs⟩, ?_⟩
                  rw [render_cons, render_cons, hr, h2]; simp [Seg.text]
            · obtain ⟨segs, hs, hr⟩ := ih rest (by omega)
              refine ⟨.sep c :: segs, ⟨by simpa using hw, hq, ?_, ?_, hs⟩, ?_⟩
              · rw [hr]; exact hc
              · rw [hr]; exact hd
              · rw [render_cons, hr]; rfl

theorem scan_perm (u : Char → Bool) : ∀ (n : Nat) (t : Str) (ins inc : Bool) (code : Str), code.length ≤ n →
    (scan u id t ins inc code).Perm (t ++ code) := by
  intro n
  induction n with
  | zero =>
    intro t ins inc code h
    have : code = [] := List.eq_nil_of_length_eq_zero (by omega)
    subst this
    unfold scan scanAux flush
    split
    · rename_i ht; subst ht; exact .refl _
    · simp
  | succ n ih =>
    intro t ins inc code h
    cases code with
    | nil =>
      unfold scan scanAux flush
      split
      · rename_i ht; subst ht; exact .refl _
      · simp
    | cons c rest =>
      simp only [List.length_cons] at h
      unfold scan at ih ⊢
      unfold scanAux
      simp only []
      generalize (if (c == '"' && !inc) = true then !ins else ins) = ins'
      generalize (if (c == '/' && rest.head? == some '/' && !ins') = true then true else inc) = inc'
      have hfl : flush id t = t := by
        unfold flush; split
        · rename_i ht; exact ht.symm
        · rfl
      have hskip : ∀ i, (c :: scanAux u id false t ins' i rest).Perm (t ++ c :: rest) := fun i =>
        ((ih t ins' i rest (by omega)).cons c).trans List.perm_middle.symm
      by_cases h1 : (!ins' && !inc') = true
      · rw [if_pos h1]
        by_cases h2 : isWordChar u c = true
        · rw [if_pos h2]
          simpa using ih (t ++ [c]) ins' false rest (by omega)
        · rw [if_neg h2]
          split
          · rename_i hcc
            cases rest with
            | nil => simp at hcc
            | cons d rest' =>
              simp only [List.head?_cons, Bool.and_eq_true, beq_iff_eq, Option.some.injEq] at hcc
              obtain ⟨rfl, rfl⟩ := hcc
              simp only [List.length_cons] at h
              have := ih (t ++ colons) ins' false rest' (by omega)
              unfold scanAux
              simpa [colons] using this
          · rw [hfl]
            exact ((ih [] ins' false rest (by omega)).cons c).append_left t
      · rw [if_neg h1]
        exact hskip _

/-! ### qualification -/

theorem qualifyToken_cons (h : List Str) (i : Str) (ids : List Str) (t : Str) :
    qualifyToken h (i :: ids) t = qualifyToken h ids (if tokenMatches i h t then i else t) := rfl

theorem tokenMatches_iff (i : Str) (h : List Str) (t : Str) :
    tokenMatches i h t = true ↔ ¬ colons <+: t ∧ ∃ p ∈ h, p ++ t = i := by
  unfold tokenMatches startsWith
  by_cases hs : colons <+: t
  · rw [if_pos (List.isPrefixOf_iff_prefix.2 hs)]
    simp [hs]
  · rw [if_neg (fun hh => hs (List.isPrefixOf_iff_prefix.1 hh))]
    simp [hs]

theorem pathPrefix_eq (p : List Str) : pathPrefix p = strCppPrefix p := by
  cases p with
  | nil => rfl
  | cons => rfl

theorem matches_iff_accessible {scope ids : List Str} {i t : Str} (hi : i ∈ ids) :
    tokenMatches i (scopeHierarchyPrefixList scope) t = true ↔ ¬ colons <+: t ∧ Accessible scope ids t i := by
  rw [tokenMatches_iff]
  unfold scopeHierarchyPrefixList scopeHierarchyList Accessible
  rw [hierarchyLoop_some _ _ (by omega)]
  constructor
  · rintro ⟨h1, p, hp, he⟩
    obtain ⟨q, hq, rfl⟩ := List.mem_map.1 hp
    exact ⟨h1, hi, q, (mem_ancestors _ _).1 hq, by rw [pathPrefix_eq, he]⟩
  · rintro ⟨h1, _, q, hq, he⟩
    exact ⟨h1, strCppPrefix q, List.mem_map.2 ⟨q, (mem_ancestors _ _).2 hq, rfl⟩, by rw [he, pathPrefix_eq]⟩

theorem qualify_lookups (scope all : List Str) : ∀ (ids : List Str) (t : Str), (∀ i ∈ ids, i ∈ all) →
    Lookups scope all t (qualifyToken (scopeHierarchyPrefixList scope) ids t) := by
  intro ids
  induction ids with
  | nil => intro t _; exact .done t
  | cons i ids ih =>
    intro t h
    rw [qualifyToken_cons]
    by_cases hm : tokenMatches i (scopeHierarchyPrefixList scope) t = true
    · rw [if_pos hm]
      exact .step t i _ ((matches_iff_accessible (h i (by simp))).1 hm).2 (ih i (fun j hj => h j (by simp [hj])))
    · rw [if_neg hm]
      exact ih t (fun j hj => h j (by simp [hj]))

/-- No identifier of `ids` changes `t`. -/
theorem qualify_stable (scope all : List Str) : ∀ (ids : List Str) (t : Str), (∀ i ∈ ids, i ∈ all) →
    (∀ i ∈ ids, Accessible scope all t i → i = t) →
    qualifyToken (scopeHierarchyPrefixList scope) ids t = t := by
  intro ids
  induction ids with
  | nil => intro t _ _; rfl
  | cons i ids ih =>
    intro t h hs
    rw [qualifyToken_cons]
    have h1 := ih t (fun j hj => h j (by simp [hj])) (fun j hj => hs j (by simp [hj]))
    by_cases hm : tokenMatches i (scopeHierarchyPrefixList scope) t = true
    · rw [if_pos hm]
      have := hs i (by simp) ((matches_iff_accessible (h i (by simp))).1 hm).2
      rw [this]; exact h1
    · rw [if_neg hm]; exact h1

theorem qualify_append (h a b : List Str) (t : Str) :
    qualifyToken h (a ++ b) t = qualifyToken h b (qualifyToken h a t) := by
  unfold qualifyToken
  rw [List.foldl_append]

/-! ### terse identifiers -/

theorem join_ne_nil_cons (a : Str) (as : List Str) (h : as ≠ []) :
    join colons (a :: as) = a ++ (colons ++ join colons as) := by
  rw [join_cons_of_ne_nil _ _ h]; simp

/-- Equality of texts up to the first colon. -/
theorem first_part {a b x y : Str} (ha : ':' ∉ a) (hb : ':' ∉ b) (h : a ++ (colons ++ x) = b ++ (colons ++ y)) :
    a = b ∧ x = y := by
  have h1 : split (a ++ colons ++ x) colons = split (b ++ colons ++ y) colons := by simp [h]
  rw [split_colons_cons _ _ ha, split_colons_cons _ _ hb] at h1
  have hab := (List.cons.inj h1).1
  subst hab
  have := List.append_cancel_left h
  exact ⟨rfl, List.append_cancel_left this⟩

theorem startsWith_join : ∀ {P idp : List Str}, P ≠ [] → idp ≠ [] → (∀ l ∈ P, ':' ∉ l) → (∀ l ∈ idp, ':' ∉ l) →
    (join colons P ++ colons <+: join colons idp ↔ ∃ R, R ≠ [] ∧ idp = P ++ R)
  | [], _, h, _, _, _ => absurd rfl h
  | [p], idp, _, hi, hP, hI => by
    constructor
    · rintro ⟨t, ht⟩
      cases idp with
      | nil => exact absurd rfl hi
      | cons a as =>
        cases as with
        | nil =>
          exfalso
          have : ':' ∈ a := by
            have h0 : join colons [a] = a := rfl
            rw [h0] at ht
            rw [← ht]; simp [colons]
          exact hI a (by simp) this
        | cons b bs =>
          rw [join_ne_nil_cons a (b :: bs) (by simp)] at ht
          have h0 : join colons [p] = p := rfl
          rw [h0, List.append_assoc] at ht
          have := first_part (hP p (by simp)) (hI a (by simp)) ht
          exact ⟨b :: bs, by simp, by rw [this.1]; rfl⟩
    · rintro ⟨R, hR, rfl⟩
      refine ⟨join colons R, ?_⟩
      show p ++ colons ++ join colons R = join colons (p :: R)
      rw [join_ne_nil_cons p R hR]; simp
  | p :: q :: P, idp, _, hi, hP, hI => by
    have ih := fun (idp' : List Str) (h1 : idp' ≠ []) (h2 : ∀ l ∈ idp', ':' ∉ l) =>
      startsWith_join (P := q :: P) (idp := idp') (by simp) h1 (fun l hl => hP l (List.mem_cons_of_mem _ hl)) h2
    constructor
    · rintro ⟨t, ht⟩
      cases idp with
      | nil => exact absurd rfl hi
      | cons a as =>
        cases as with
        | nil =>
          exfalso
          have h0 : join colons [a] = a := rfl
          rw [h0] at ht
          have : ':' ∈ a := by rw [← ht]; simp [colons]
          exact hI a (by simp) this
        | cons b bs =>
          rw [join_ne_nil_cons a (b :: bs) (by simp), join_ne_nil_cons p (q :: P) (by simp)] at ht
          rw [List.append_assoc, List.append_assoc, List.append_assoc] at ht
          obtain ⟨h1, h2⟩ := first_part (hP p (by simp)) (hI a (by simp)) ht
          have := (ih (b :: bs) (by simp) (fun l hl => hI l (List.mem_cons_of_mem _ hl))).1
            ⟨t, by rw [List.append_assoc]; exact h2⟩
          obtain ⟨R, hR, he⟩ := this
          exact ⟨R, hR, by rw [h1, he]; rfl⟩
    · rintro ⟨R, hR, rfl⟩
      have := (ih (q :: P ++ R) (by simp) (fun l hl => hI l (List.mem_cons_of_mem _ hl))).2 ⟨R, hR, rfl⟩
      obtain ⟨t, ht⟩ := this
      refine ⟨t, ?_⟩
      have e : p :: q :: P ++ R = p :: (q :: P ++ R) := rfl
      rw [e, join_ne_nil_cons p (q :: P ++ R) (by simp), join_ne_nil_cons p (q :: P) (by simp), ← ht]
      simp

theorem join_append {P R : List Str} (hP : P ≠ []) (hR : R ≠ []) :
    join colons (P ++ R) = join colons P ++ colons ++ join colons R := by
  induction P with
  | nil => exact absurd rfl hP
  | cons p P ih =>
    cases P with
    | nil => exact join_cons_of_ne_nil _ _ hR
    | cons q P =>
      have e : p :: q :: P ++ R = p :: (q :: P ++ R) := rfl
      rw [e, join_ne_nil_cons p (q :: P ++ R) (by simp), join_ne_nil_cons p (q :: P) (by simp), ih (by simp)]
      simp

theorem removeExtract_some {idp P : List Str} {r : Str} (hP0 : P ≠ []) (hi0 : idp ≠ [])
    (hP : ∀ l ∈ P, ':' ∉ l) (hI : ∀ l ∈ idp, ':' ∉ l) (h : removeExtract (join colons idp) P = some r) :
    ∃ R, R ≠ [] ∧ idp = P ++ R ∧ r = join colons R := by
  unfold removeExtract at h
  simp only [] at h
  split at h
  · rename_i hs
    obtain ⟨R, hR, he⟩ := (startsWith_join hP0 hi0 hP hI).1 (List.isPrefixOf_iff_prefix.1 hs)
    refine ⟨R, hR, he, ?_⟩
    cases h
    rw [he, join_append hP0 hR, List.drop_left]
  · cases h

theorem removeExtract_none {idp P : List Str} (hP0 : P ≠ []) (hi0 : idp ≠ [])
    (hP : ∀ l ∈ P, ':' ∉ l) (hI : ∀ l ∈ idp, ':' ∉ l) (h : removeExtract (join colons idp) P = none) :
    ∀ R, R ≠ [] → idp ≠ P ++ R := by
  intro R hR he
  have := (startsWith_join hP0 hi0 hP hI).2 ⟨R, hR, he⟩
  unfold removeExtract at h
  simp only [] at h
  unfold startsWith at h
  rw [if_pos (List.isPrefixOf_iff_prefix.2 this)] at h
  cases h

theorem split_scopePrefix {sp : CppScope} (h : Path sp) : split (strCppPrefix sp) colons = sp ++ [[]] := by
  cases sp with
  | nil => rfl
  | cons a as =>
    rw [strCppPrefix_ne (by simp), text_eq]
    have : join colons (a :: as) ++ colons = join colons ((a :: as) ++ [[]]) := by
      rw [join_append (by simp) (by simp)]; simp
    rw [this]
    apply split_join_colons (by simp)
    intro l hl
    rcases List.mem_append.1 hl with hl | hl
    · exact (h l hl).2
    · simp at hl; subst hl; simp

theorem findSome_range {α : Type} {n : Nat} {f : Nat → Option α} {r : α}
    (h : (List.range n).findSome? f = some r) : ∃ i, i < n ∧ f i = some r ∧ ∀ j, j < i → f j = none := by
  induction n with
  | zero => simp at h
  | succ n ih =>
    rw [List.range_succ, List.findSome?_append] at h
    cases hr : (List.range n).findSome? f with
    | some x =>
      rw [hr] at h
      simp only [Option.some_or, Option.some.injEq] at h
      subst h
      obtain ⟨i, h1, h2, h3⟩ := ih hr
      exact ⟨i, by omega, h2, h3⟩
    | none =>
      rw [hr] at h
      simp only [Option.none_or, List.findSome?_cons, List.findSome?_nil] at h
      refine ⟨n, by omega, ?_, ?_⟩
      · cases hf : f n with
        | none => rw [hf] at h; cases h
        | some x => rw [hf] at h; exact h
      · intro j hj
        rw [List.findSome?_eq_none_iff] at hr
        exact hr j (List.mem_range.2 hj)

/-- Everything that can come out: the longest prefix of the cut scope, or an infix of it. -/
theorem makeTerse_cases (sp idp : List Str) (hsp : Path sp) (hid : Path idp) (hne : idp ≠ []) :
    let parts := cutScope (idp.headD []) (sp ++ [[]])
    (∃ k R, k < parts.length ∧ 0 < k ∧ R ≠ [] ∧ idp = parts.take k ++ R ∧
      makeTerse (strCppPrefix sp) (text idp) = text R ∧
      (∀ k', k < k' → k' ≤ parts.length → ∀ R', R' ≠ [] → idp ≠ parts.take k' ++ R')) ∨
    ((∀ k', 0 < k' → k' ≤ parts.length → ∀ R', R' ≠ [] → idp ≠ parts.take k' ++ R') ∧
      ((∃ i R, i < parts.length ∧ R ≠ [] ∧ idp = parts.drop i ++ R ∧
        makeTerse (strCppPrefix sp) (text idp) = text R) ∨
       makeTerse (strCppPrefix sp) (text idp) = text idp)) := by
  intro parts
  have hcolon : ∀ l ∈ sp ++ [[]], ':' ∉ l := by
    intro l hl
    rcases List.mem_append.1 hl with hl | hl
    · exact (hsp l hl).2
    · simp at hl; subst hl; simp
  have hparts : ∀ l ∈ parts, ':' ∉ l := by
    intro l hl
    apply hcolon
    show l ∈ sp ++ [[]]
    have hl' : l ∈ cutScope (idp.headD []) (sp ++ [[]]) := hl
    unfold cutScope at hl'
    split at hl'
    · exact List.mem_of_mem_drop hl'
    · exact hl'
  have hidc : ∀ l ∈ idp, ':' ∉ l := fun l hl => (hid l hl).2
  have hlast : parts ≠ [] ∧ ([] : Str) ∈ parts ∧ parts.getLast? = some [] := by
    have hg : ∀ j, j < (sp ++ [([] : Str)]).length → ((sp ++ [([] : Str)]).drop j).getLast? = some [] := by
      intro j hj
      rw [List.length_append] at hj
      simp only [List.length_cons, List.length_nil, Nat.zero_add] at hj
      rw [List.drop_append_of_le_length (by omega), List.getLast?_append]; rfl
    have : parts.getLast? = some [] := by
      show (cutScope (idp.headD []) (sp ++ [[]])).getLast? = some []
      unfold cutScope
      split
      · rename_i hm
        exact hg _ (List.idxOf_lt_length_iff.2 hm)
      · simp
    refine ⟨?_, List.mem_of_getLast? this, this⟩
    intro h0; rw [h0] at this; cases this
  have htake_ne : ∀ k, 0 < k → parts.take k ≠ [] := by
    intro k hk h0
    rw [List.take_eq_nil_iff] at h0
    rcases h0 with h0 | h0
    · omega
    · exact hlast.1 h0
  have hsub : ∀ k, ∀ l ∈ parts.take k, ':' ∉ l := fun k l hl => hparts l (List.mem_of_mem_take hl)
  have hsplit1 : split (text idp) colons = idp := by rw [text_eq]; exact split_join_colons hne hidc
  have hmk : makeTerse (strCppPrefix sp) (text idp) =
      (match (List.range parts.length).findSome? (fun i => removeExtract (text idp) (parts.take (parts.length - i))) with
      | some r => r
      | none =>
        match (List.range parts.length).findSome? (fun i => removeExtract (text idp) (parts.drop i)) with
        | some r => r
        | none => text idp) := by
    unfold makeTerse
    rw [hsplit1, split_scopePrefix hsp] <;> rfl
  cases h1 : (List.range parts.length).findSome? (fun i => removeExtract (text idp) (parts.take (parts.length - i))) with
  | some r =>
    left
    obtain ⟨i, hi, hr, hmin⟩ := findSome_range h1
    obtain ⟨R, hR, he, hrr⟩ := removeExtract_some (htake_ne _ (by omega)) hne (hsub _) hidc hr
    refine ⟨parts.length - i, R, ?_, by omega, hR, he, ?_, ?_⟩
    · by_cases h0 : i = 0
      · exfalso
        subst h0
        rw [Nat.sub_zero, List.take_length] at he
        have : ([] : Str) ∈ idp := by rw [he]; exact List.mem_append_left _ hlast.2.1
        exact (hid _ this).1 rfl
      · omega
    · rw [hmk, h1]; exact hrr
    · intro k' hk hk' R' hR'
      have h0 := hmin (parts.length - k') (by omega)
      have e : parts.length - (parts.length - k') = k' := by omega
      simp only [e] at h0
      exact removeExtract_none (htake_ne _ (by omega)) hne (hsub _) hidc h0 R' hR'
  | none =>
    right
    constructor
    · intro k' hk hk' R' hR'
      rw [List.findSome?_eq_none_iff] at h1
      have h0 := h1 (parts.length - k') (List.mem_range.2 (by omega))
      have e : parts.length - (parts.length - k') = k' := by omega
      simp only [e] at h0
      exact removeExtract_none (htake_ne _ (by omega)) hne (hsub _) hidc h0 R' hR'
    · cases h2 : (List.range parts.length).findSome? (fun i => removeExtract (text idp) (parts.drop i)) with
      | some r =>
        left
        obtain ⟨i, hi, hr, _⟩ := findSome_range h2
        have hd : parts.drop i ≠ [] := by
          intro h0; rw [List.drop_eq_nil_iff] at h0; omega
        obtain ⟨R, hR, he, hrr⟩ := removeExtract_some hd hne
          (fun l hl => hparts l (List.mem_of_mem_drop hl)) hidc hr
        exact ⟨i, R, hi, hR, he, by rw [hmk, h1, h2]; exact hrr⟩
      | none =>
        right
        rw [hmk, h1, h2]

/-- The second loop never finds anything more: the parts end with an empty one. -/
theorem no_suffix {parts idp R : List Str} {i : Nat} (hi : i < parts.length) (hl : parts.getLast? = some [])
    (hid : Path idp) (he : idp = parts.drop i ++ R) : False := by
  have : ([] : Str) ∈ parts.drop i := by
    have h0 : (parts.drop i).getLast? = some [] := by
      have hne : parts.drop i ≠ [] := by intro h0; rw [List.drop_eq_nil_iff] at h0; omega
      have h1 : parts = parts.take i ++ parts.drop i := (List.take_append_drop i parts).symm
      rw [h1, List.getLast?_append, List.getLast?_eq_some_getLast hne] at hl
      rw [List.getLast?_eq_some_getLast hne]
      simpa using hl
    exact List.mem_of_getLast? h0
  exact (hid _ (by rw [he]; exact List.mem_append_left _ this)).1 rfl

end Verif.Scope
