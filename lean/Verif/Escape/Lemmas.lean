import Verif.Py.StrLemmas
import Verif.Escape.Model
import Verif.Escape.Spec

namespace Verif.Escape
open Verif.Py

/-- The two replacements, character by character. -/
def q (s : Str) : Str :=
  s.flatMap (fun c => if c = '\n' then ['\\', 'n'] else if c = '"' then ['\\', '"'] else [c])

theorem q_eq (s : Str) :
    replace (replace s ['\n'] ['\\', 'n']) ['"'] ['\\', '"'] = q s := by
  rw [replace_char, replace_char]
  induction s with
  | nil => rfl
  | cons c cs ih =>
    unfold q at ih ⊢
    simp only [List.flatMap_cons]
    rw [List.flatMap_append, ih]
    by_cases h1 : c = '\n'
    · subst h1; rfl
    · by_cases h2 : c = '"'
      · subst h2; rfl
      · simp [h1, h2]

/-- The elements emitted for a comment. -/
def elems : Str → List Spec.Elem
  | [] => []
  | c :: cs =>
    if c = '\n' then .escape 'n' :: elems cs
    else if c = '"' then .escape '"' :: elems cs
    else if c = '\\' then
      match cs with
      | [] => [.escape '\\']
      | d :: ds =>
        if d ∈ ['n', 't', 'o', 'x', '\''] then .escape d :: elems ds
        else .escape '\\' :: elems (d :: ds)
    else .ordinary c :: elems cs

theorem escapePairs_skip (c : Char) (s : Str) (h : c ≠ '\\') :
    escapePairs (c :: s) = c :: escapePairs s := by
  cases s with
  | nil => simp [escapePairs, h]
  | cons d ds => simp [escapePairs, h]

theorem escapePairs_kept (d : Char) (s : Str) (h : d ∈ keptEscapes) :
    escapePairs ('\\' :: d :: s) = '\\' :: d :: escapePairs s := by
  have hd : d ≠ '\\' := by rintro rfl; revert h; decide
  rw [← escapePairs_skip d s hd]
  simp [escapePairs, h]

theorem escapePairs_double (s : Str) (h : ∀ d ∈ s.head?, d ∉ keptEscapes) :
    escapePairs ('\\' :: s) = '\\' :: '\\' :: escapePairs s := by
  cases s with
  | nil => rfl
  | cons d ds =>
    have := h d (by simp)
    simp [escapePairs, this]

theorem escape_q (s : Str) : escapePairs (q s) = Spec.text (elems s) := by
  suffices H : ∀ n (s : Str), s.length ≤ n → escapePairs (q s) = Spec.text (elems s) from
    H _ s (Nat.le_refl _)
  intro n
  induction n with
  | zero => intro s hs; have : s = [] := by simpa using hs
            subst this; rfl
  | succ n ih =>
    intro s hs
    cases s with
    | nil => rfl
    | cons c cs =>
      simp at hs
      have hq : q (c :: cs) =
        (if c = '\n' then ['\\', 'n'] else if c = '"' then ['\\', '"'] else [c]) ++ q cs := rfl
      rw [hq]
      unfold elems
      by_cases h1 : c = '\n'
      · rw [if_pos h1, if_pos h1]
        show escapePairs ('\\' :: 'n' :: q cs) = _
        rw [escapePairs_kept _ _ (by decide), ih cs hs]
        rfl
      · by_cases h2 : c = '"'
        · rw [if_neg h1, if_pos h2, if_neg h1, if_pos h2]
          show escapePairs ('\\' :: '"' :: q cs) = _
          rw [escapePairs_kept _ _ (by decide), ih cs hs]
          rfl
        · rw [if_neg h1, if_neg h2, if_neg h1, if_neg h2]
          by_cases h3 : c = '\\'
          · subst h3
            rw [if_pos rfl]
            cases cs with
            | nil => rfl
            | cons d ds =>
              simp at hs
              simp only
              by_cases h4 : d ∈ ['n', 't', 'o', 'x', '\'']
              · rw [if_pos h4]
                have hd1 : d ≠ '\n' := by rintro rfl; revert h4; decide
                have hd2 : d ≠ '"' := by rintro rfl; revert h4; decide
                have e : q (d :: ds) = d :: q ds := by simp [q, hd1, hd2]
                rw [e]
                have hk : d ∈ keptEscapes := by
                  simp [keptEscapes] at h4 ⊢
                  rcases h4 with h | h | h | h | h <;> simp [h]
                show escapePairs ('\\' :: d :: q ds) = _
                rw [escapePairs_kept _ _ hk, ih ds (by omega)]
                rfl
              · rw [if_neg h4]
                show escapePairs ('\\' :: q (d :: ds)) = _
                rw [escapePairs_double, ih (d :: ds) (by simp; omega)]
                · rfl
                · intro x hx
                  by_cases hd1 : d = '\n'
                  · subst hd1; simp [q] at hx; subst hx; decide
                  · by_cases hd2 : d = '"'
                    · subst hd2; simp [q] at hx; subst hx; decide
                    · simp [q, hd1, hd2] at hx
                      subst hx
                      intro hk
                      simp [keptEscapes] at hk
                      simp at h4
                      rcases hk with h | h | h | h | h | h
                      · exact h4.1 h
                      · exact h4.2.1 h
                      · exact h4.2.2.1 h
                      · exact h4.2.2.2.1 h
                      · exact hd2 h
                      · exact h4.2.2.2.2 h
          · rw [if_neg h3]
            show escapePairs (c :: q cs) = _
            rw [escapePairs_skip _ _ h3, ih cs hs]
            rfl

/-- All escapes that are emitted. -/
def emitted : List Char := ['n', 't', 'o', 'x', '"', '\'', '\\']

theorem elems_wf (s : Str) : ∀ e ∈ elems s, e.WF ∧ ∀ c, e = .escape c → c ∈ emitted := by
  suffices H : ∀ n (s : Str), s.length ≤ n → ∀ e ∈ elems s, e.WF ∧ ∀ c, e = .escape c → c ∈ emitted
    from H _ s (Nat.le_refl _)
  intro n
  induction n with
  | zero => intro s hs e he; have : s = [] := by simpa using hs
            subst this; simp [elems] at he
  | succ n ih =>
    intro s hs e he
    have esc : ∀ c, c ∈ emitted → (Spec.Elem.escape c).WF ∧
        ∀ d, Spec.Elem.escape c = .escape d → d ∈ emitted := by
      intro c hc
      refine ⟨?_, ?_⟩
      · intro h; subst h; revert hc; decide
      · intro d hd; cases hd; exact hc
    cases s with
    | nil => simp [elems] at he
    | cons c cs =>
      simp at hs
      unfold elems at he
      by_cases h1 : c = '\n'
      · rw [if_pos h1] at he
        rcases List.mem_cons.1 he with rfl | he
        · exact esc _ (by decide)
        · exact ih cs hs e he
      · rw [if_neg h1] at he
        by_cases h2 : c = '"'
        · rw [if_pos h2] at he
          rcases List.mem_cons.1 he with rfl | he
          · exact esc _ (by decide)
          · exact ih cs hs e he
        · rw [if_neg h2] at he
          by_cases h3 : c = '\\'
          · rw [if_pos h3] at he
            cases cs with
            | nil => simp at he; subst he; exact esc _ (by decide)
            | cons d ds =>
              simp at hs
              simp only at he
              by_cases h4 : d ∈ ['n', 't', 'o', 'x', '\'']
              · rw [if_pos h4] at he
                rcases List.mem_cons.1 he with rfl | he
                · apply esc
                  simp at h4
                  rcases h4 with h | h | h | h | h <;> simp [emitted, h]
                · exact ih ds (by omega) e he
              · rw [if_neg h4] at he
                rcases List.mem_cons.1 he with rfl | he
                · exact esc _ (by decide)
                · exact ih (d :: ds) (by simp; omega) e he
          · rw [if_neg h3] at he
            rcases List.mem_cons.1 he with rfl | he
            · exact ⟨⟨h2, h3, h1⟩, by intro d hd; cases hd⟩
            · exact ih cs hs e he

theorem emitted_not_space {c : Char} (h : c ∈ emitted) : isSpace c = false := by
  revert h; revert c; decide

theorem text_append (a b : List Spec.Elem) : Spec.text (a ++ b) = Spec.text a ++ Spec.text b := by
  simp [Spec.text]

/-- Stripping acts on whole elements. -/
theorem rstrip_text (es : List Spec.Elem) (h : ∀ e ∈ es, ∀ c, e = .escape c → c ∈ emitted) :
    ∃ a b, es = a ++ b ∧ (∀ e ∈ b, ∃ c, e = .ordinary c ∧ isSpace c = true) ∧
      rstrip (Spec.text es) = Spec.text a := by
  suffices H : ∀ n (es : List Spec.Elem), es.length = n →
      (∀ e ∈ es, ∀ c, e = .escape c → c ∈ emitted) →
      ∃ a b, es = a ++ b ∧ (∀ e ∈ b, ∃ c, e = .ordinary c ∧ isSpace c = true) ∧
        rstrip (Spec.text es) = Spec.text a from H _ es rfl h
  intro n
  induction n with
  | zero => intro es hl _; have : es = [] := by simpa using hl
            subst this; exact ⟨[], [], rfl, by simp, rfl⟩
  | succ n ih =>
    intro es hl h
    obtain ⟨t, e, rfl⟩ : ∃ t e, es = t ++ [e] := by
      have hne : es ≠ [] := by rintro rfl; simp at hl
      exact ⟨es.dropLast, es.getLast hne, (List.dropLast_concat_getLast hne).symm⟩
    simp at hl
    cases e with
    | ordinary c =>
      have e1 : Spec.text (t ++ [Spec.Elem.ordinary c]) = Spec.text t ++ [c] := by
        rw [text_append]; rfl
      cases hc : isSpace c with
      | true =>
        obtain ⟨a, b, h1, h2, h3⟩ := ih t hl (fun x hx => h x (by simp [hx]))
        refine ⟨a, b ++ [.ordinary c], by simp [h1], ?_, ?_⟩
        · intro x hx
          rcases List.mem_append.1 hx with hx | hx
          · exact h2 x hx
          · simp at hx; exact ⟨c, hx, hc⟩
        · rw [e1, rstrip_append_of_all (by intro x hx; simp at hx; rw [hx]; exact hc), h3]
      | false =>
        refine ⟨t ++ [.ordinary c], [], by simp, by simp, ?_⟩
        rw [e1, rstrip_append_of_not hc]
    | escape c =>
      have hc := emitted_not_space (h (.escape c) (by simp) c rfl)
      refine ⟨t ++ [.escape c], [], by simp, by simp, ?_⟩
      have e1 : Spec.text (t ++ [Spec.Elem.escape c]) = (Spec.text t ++ ['\\']) ++ [c] := by
        rw [text_append]; simp [Spec.text, Spec.Elem.text]
      rw [e1, rstrip_append_of_not hc]

theorem lstrip_text (es : List Spec.Elem) :
    ∃ a b, es = a ++ b ∧ (∀ e ∈ a, ∃ c, e = .ordinary c ∧ isSpace c = true) ∧
      lstrip (Spec.text es) = Spec.text b := by
  induction es with
  | nil => exact ⟨[], [], rfl, by simp, rfl⟩
  | cons e es ih =>
    cases e with
    | ordinary c =>
      have e1 : Spec.text (Spec.Elem.ordinary c :: es) = c :: Spec.text es := rfl
      cases hc : isSpace c with
      | true =>
        obtain ⟨a, b, h1, h2, h3⟩ := ih
        refine ⟨.ordinary c :: a, b, by simp [h1], ?_, ?_⟩
        · intro x hx
          rcases List.mem_cons.1 hx with hx | hx
          · exact ⟨c, hx, hc⟩
          · exact h2 x hx
        · rw [e1]
          have := lstrip_append_of_all (a := [c]) (b := Spec.text es)
            (by intro x hx; simp at hx; rw [hx]; exact hc)
          simp at this
          rw [this, h3]
      | false =>
        exact ⟨[], .ordinary c :: es, rfl, by simp, by rw [e1, lstrip_cons_of_not hc]⟩
    | escape c =>
      refine ⟨[], .escape c :: es, rfl, by simp, ?_⟩
      have e1 : Spec.text (Spec.Elem.escape c :: es) = '\\' :: c :: Spec.text es := rfl
      rw [e1, lstrip_cons_of_not (by decide)]

theorem strip_text (es : List Spec.Elem) (h : ∀ e ∈ es, ∀ c, e = .escape c → c ∈ emitted) :
    ∃ a b c, es = a ++ b ++ c ∧ (∀ e ∈ a ++ c, ∃ c, e = .ordinary c ∧ isSpace c = true) ∧
      strip (Spec.text es) = Spec.text b := by
  obtain ⟨a, b, h1, h2, h3⟩ := lstrip_text es
  obtain ⟨b', c, h4, h5, h6⟩ := rstrip_text b (fun e he => h e (by rw [h1]; simp [he]))
  refine ⟨a, b', c, by rw [h1, h4]; simp, ?_, ?_⟩
  · intro e he
    rcases List.mem_append.1 he with he | he
    · exact h2 e he
    · exact h5 e he
  · unfold strip; rw [h3, h6]

theorem q_length (s : Str) : s.length ≤ (q s).length := by
  induction s with
  | nil => simp [q]
  | cons c cs ih =>
    have : q (c :: cs) =
      (if c = '\n' then ['\\', 'n'] else if c = '"' then ['\\', '"'] else [c]) ++ q cs := rfl
    rw [this]
    split
    · simp; omega
    · split <;> simp <;> omega

/-- Short comments: same result, except for a single backslash. -/
theorem escape_short (s : Str) (h : s ≠ ['\\']) : escapeBackslashInComments (q s) = escapePairs (q s) := by
  unfold escapeBackslashInComments
  split
  · rename_i hl
    have := q_length s
    match s, h, hl with
    | [], _, _ => rfl
    | [c], h, hl =>
      have hc : c ≠ '\\' := by rintro rfl; exact h rfl
      by_cases h1 : c = '\n'
      · subst h1; simp [q] at hl
      · by_cases h2 : c = '"'
        · subst h2; simp [q] at hl
        · simp [q, h1, h2, escapePairs, hc]
    | a :: b :: r, _, hl => simp at this; omega
  · rfl

/-- The formatted comment, as elements. -/
theorem format_eq (s : Str) (h : s ≠ ['\\']) :
    formatCppCommentOnOneLine (some s) =
      if '\n' ∈ s then Spec.text (elems s) else strip (Spec.text (elems s)) := by
  unfold formatCppCommentOnOneLine
  simp only
  rw [q_eq, escape_short s h, escape_q]
  have : contains s ['\n'] = true ↔ '\n' ∈ s := by
    rw [contains_iff]
    constructor
    · rintro ⟨a, b, rfl⟩; simp
    · intro h
      obtain ⟨a, b, rfl⟩ := List.append_of_mem h
      exact ⟨a, b, by simp⟩
  by_cases hm : '\n' ∈ s
  · rw [if_pos (this.2 hm), if_pos hm]
  · rw [if_neg (fun h => hm (this.1 h)), if_neg hm]

/-- Without backslashes the elements denote the text. -/
theorem elems_value (s : Str) (h : '\\' ∉ s) : (elems s).map Spec.Elem.value = s.map some := by
  induction s with
  | nil => rfl
  | cons c cs ih =>
    have hc : c ≠ '\\' := fun e => h (by simp [e])
    have hcs : '\\' ∉ cs := fun e => h (by simp [e])
    unfold elems
    by_cases h1 : c = '\n'
    · subst h1; simp [ih hcs, Spec.Elem.value]
    · by_cases h2 : c = '"'
      · subst h2; simp [ih hcs, Spec.Elem.value]
      · simp [h1, h2, hc, ih hcs, Spec.Elem.value]

end Verif.Escape

namespace Verif.Escape
open Verif.Py

theorem strip_all {s : Str} (h : ∀ c ∈ s, isSpace c = true) : strip s = [] := by
  unfold strip; rw [(lstrip_eq_nil_iff s).2 h]; rfl

theorem lstrip_append_of_some {b c : Str} (h : ¬ ∀ x ∈ b, isSpace x = true) :
    lstrip (b ++ c) = lstrip b ++ c := by
  induction b with
  | nil => exact absurd (by simp) h
  | cons x xs ih =>
    cases hx : isSpace x with
    | false => rw [List.cons_append, lstrip_cons_of_not hx, lstrip_cons_of_not hx]; rfl
    | true =>
      have e : ∀ t : Str, lstrip (x :: t) = lstrip t := fun t => by
        simp [lstrip, hx]
      rw [List.cons_append, e, e, ih]
      intro hall
      exact h (by intro y hy; exact (List.mem_cons.1 hy).elim (fun e => e ▸ hx) (hall y))

theorem strip_append {a b c : Str} (ha : ∀ x ∈ a, isSpace x = true) (hc : ∀ x ∈ c, isSpace x = true) :
    strip (a ++ b ++ c) = strip b := by
  by_cases hb : ∀ x ∈ b, isSpace x = true
  · rw [strip_all hb, strip_all]
    intro x hx
    simp at hx
    exact hx.elim (ha x) (fun h => h.elim (hb x) (hc x))
  · unfold strip
    rw [List.append_assoc, lstrip_append_of_all ha, lstrip_append_of_some hb, rstrip_append_of_all hc]

/-- Values of a list of elements all denoting characters. -/
theorem denoted_part (a b c : List Spec.Elem) (v : Str)
    (h : (a ++ b ++ c).map Spec.Elem.value = v.map some)
    (hs : ∀ e ∈ a ++ c, ∃ c, e = .ordinary c ∧ isSpace c = true) :
    ∃ w, b.map Spec.Elem.value = w.map some ∧ strip w = strip v := by
  rw [List.map_append, List.map_append] at h
  obtain ⟨v1, v3, hv, h1, h3⟩ := List.map_eq_append_iff.1 h.symm
  obtain ⟨va, vb, hv', ha, hb⟩ := List.map_eq_append_iff.1 h1
  have key : ∀ (es : List Spec.Elem) (u : Str), (∀ e ∈ es, ∃ c, e = .ordinary c ∧ isSpace c = true) →
      u.map some = es.map Spec.Elem.value → ∀ x ∈ u, isSpace x = true := by
    intro es u he hu x hx
    have : some x ∈ es.map Spec.Elem.value := by rw [← hu]; exact List.mem_map.2 ⟨x, hx, rfl⟩
    obtain ⟨e, he1, he2⟩ := List.mem_map.1 this
    obtain ⟨c, rfl, hc⟩ := he e he1
    simp [Spec.Elem.value] at he2
    rw [← he2]; exact hc
  refine ⟨vb, hb.symm, ?_⟩
  rw [hv, hv', strip_append (key a va (fun e he => hs e (by simp [he])) ha)
    (key c v3 (fun e he => hs e (by simp [he])) h3)]

end Verif.Escape
