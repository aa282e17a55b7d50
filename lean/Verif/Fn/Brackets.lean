import Verif.Fn.Meaning

/-! Lemmas on the reader of brackets. -/

namespace Verif.Fn.Spec
open Verif.Py

theorem readAll_append (s : Mode × List Char) (a b : Str) : readAll s (a ++ b) = (readAll s a).bind (readAll · b) := by
  induction a generalizing s with
  | nil => rfl
  | cons c cs ih =>
    rw [List.cons_append, readAll, readAll]
    cases read s.1 s.2 c with
    | none => rfl
    | some t => exact ih t

theorem readCode_frame {st : List Char} (r : List Char) {c : Char} {t : Mode × List Char} (h : readCode st c = some t) :
    readCode (st ++ r) c = some (t.1, t.2 ++ r) := by
  unfold readCode at *
  split at h
  · rw [if_pos ‹_›]; cases h; rfl
  rw [if_neg ‹_›]
  split at h
  · rw [if_pos ‹_›]; cases h; rfl
  rw [if_neg ‹_›]
  split at h
  · rw [if_pos ‹_›]; cases h; rfl
  rw [if_neg ‹_›]
  split at h
  · rw [if_pos ‹_›]; cases h; rfl
  rw [if_neg ‹_›]
  split at h
  · rw [if_pos ‹_›]
    cases st with
    | nil => cases h
    | cons b st =>
      simp only [List.cons_append] at h ⊢
      split at h
      · rw [if_pos ‹_›]; cases h; rfl
      · cases h
  · rw [if_neg ‹_›]; cases h; rfl

theorem read_frame {m : Mode} {st : List Char} (r : List Char) {c : Char} {t : Mode × List Char} (h : read m st c = some t) :
    read m (st ++ r) c = some (t.1, t.2 ++ r) := by
  cases m <;> simp only [read] at h ⊢
  · exact readCode_frame r h
  · split at h
    · rw [if_pos ‹_›]; cases h; rfl
    rw [if_neg ‹_›]
    split at h
    · rw [if_pos ‹_›]; cases h; rfl
    · rw [if_neg ‹_›]; exact readCode_frame r h
  all_goals first
    | (cases h; rfl)
    | (split at h
       · cases h
       · rw [if_neg ‹_›]; cases h; rfl)

theorem readAll_frame {s t : Mode × List Char} (r : List Char) {a : Str} (h : readAll s a = some t) :
    readAll (s.1, s.2 ++ r) a = some (t.1, t.2 ++ r) := by
  induction a generalizing s with
  | nil => cases h; rfl
  | cons c cs ih =>
    simp only [readAll] at h ⊢
    cases e : read s.1 s.2 c with
    | none => rw [e] at h; cases h
    | some u =>
      rw [e] at h
      rw [read_frame r e]
      exact ih h

/-- A closed text changes nothing. -/
theorem Closed.read {a : Str} (h : Closed a) (st : List Char) : readAll (.code, st) a = some (.code, st) := by
  have := readAll_frame st h
  simpa using this

theorem closed_append {a b : Str} (ha : Closed a) (hb : Closed b) : Closed (a ++ b) := by
  unfold Closed
  rw [readAll_append, ha.read]
  exact hb

theorem closed_nil : Closed [] := rfl

/-- A text between brackets. -/
theorem closed_wrap {a b c : Str} {st : List Char} (ha : readAll (.code, []) a = some (.code, st)) (hb : Closed b)
    (hc : readAll (.code, st) c = some (.code, [])) : Closed (a ++ b ++ c) := by
  unfold Closed
  rw [readAll_append, readAll_append, ha, Option.bind_some, hb.read, Option.bind_some, hc]

theorem closed_join {sep : Str} (hs : Closed sep) (xs : List Str) (h : ∀ x ∈ xs, Closed x) : Closed (join sep xs) := by
  induction xs with
  | nil => exact closed_nil
  | cons x xs ih =>
    by_cases e : xs = []
    · subst e; exact h x (by simp)
    · rw [join_cons_of_ne_nil _ _ e]
      exact closed_append (closed_append (h x (by simp)) hs) (ih (fun y hy => h y (by simp [hy])))

/-- A comment up to the end of the line. -/
theorem readAll_line {a : Str} (h : '\n' ∉ a) (st : List Char) : readAll (.line, st) (a ++ ['\n']) = some (.code, st) := by
  induction a with
  | nil => rfl
  | cons c cs ih =>
    have hc : c ≠ '\n' := fun e => h (by simp [e])
    rw [List.cons_append, readAll]
    simp only [Spec.read, if_neg hc, Option.bind_some]
    exact ih (fun hm => h (by simp [hm]))

theorem readCode_space {c : Char} (h : isSpace c = true) (st : List Char) : readCode st c = some (.code, st) := by
  have key : ∀ d, isSpace d = false → c ≠ d := fun d hd e => by rw [e, hd] at h; cases h
  have h1 := key '/' (by decide)
  have h2 := key '"' (by decide)
  have h3 := key '\'' (by decide)
  have h4 := key '(' (by decide)
  have h5 := key '{' (by decide)
  have h6 := key '[' (by decide)
  have h7 := key ')' (by decide)
  have h8 := key '}' (by decide)
  have h9 := key ']' (by decide)
  simp only [readCode, h1, h2, h3, h4, h5, h6, h7, h8, h9, or_self, if_false]

theorem closed_blank {a : Str} (h : ∀ c ∈ a, isSpace c = true) : Closed a := by
  induction a with
  | nil => rfl
  | cons c cs ih =>
    unfold Closed
    rw [readAll]
    simp only [Spec.read, readCode_space (h c (by simp)), Option.bind_some]
    exact ih (fun x hx => h x (by simp [hx]))

theorem closed_lstrip {a : Str} (h : Closed a) : Closed (lstrip a) := by
  obtain ⟨w, e, hw⟩ := lstrip_decomp a
  have hc : Closed w := closed_blank hw
  unfold Closed at h
  rw [e, readAll_append, hc.read, Option.bind_some] at h
  exact h

theorem closed_laid {ind : Str} (hi : Closed ind) {anns : List Str} (h : ∀ a ∈ anns, Closed a) : Closed (laid ind anns) := by
  unfold laid
  apply closed_join (by decide)
  intro x hx
  obtain ⟨a, ha, rfl⟩ := List.mem_map.1 hx
  exact closed_append hi (h a ha)

theorem closed_tail {ind : Str} (hi : Closed ind) (strip : Bool) {anns : List Str} (h : ∀ a ∈ anns, Closed a) :
    Closed (tail strip ind anns) := by
  have hl := closed_laid hi h
  have hn : Closed ['\n'] := by decide
  unfold tail
  split
  · exact closed_nil
  · apply closed_append (by decide)
    split
    · exact closed_append hn hl
    · split
      · exact closed_lstrip hl
      · exact hl

/-- A head that opens some brackets, a comment, the rest of the statement, and what closes the brackets. -/
theorem closed_statement {h0 loc callable ind : Str} {st : List Char} (hh : readAll (.code, []) h0 = some (.code, st))
    (hloc : readAll (.code, st) (loc ++ ['\n']) = some (.code, st)) (hc : Closed callable) (hi : Closed ind) (strip : Bool) {anns : List Str}
    (ha : ∀ a ∈ anns, Closed a) (method : Bool) (hst : readAll (.code, st) (closing method) = some (.code, [])) :
    Closed (statement (h0 ++ loc) callable strip ind anns method) := by
  have e : statement (h0 ++ loc) callable strip ind anns method =
      h0 ++ ((loc ++ ['\n']) ++ (ind ++ (callable ++ (tail strip ind anns ++ closing method)))) := by
    simp only [statement, List.append_assoc]
    rfl
  unfold Closed
  rw [e, readAll_append, hh, Option.bind_some, readAll_append, hloc, Option.bind_some, readAll_append, hi.read, Option.bind_some,
    readAll_append, hc.read, Option.bind_some, readAll_append, (closed_tail hi strip ha).read, Option.bind_some, hst]

/-- A comment after blanks, up to the end of the line. -/
theorem readAll_comment {ind c : Str} (hi : Closed ind) (hc : '\n' ∉ c) (st : List Char) :
    readAll (.code, st) (ind ++ ('/' :: '/' :: c) ++ ['\n']) = some (.code, st) := by
  rw [List.append_assoc, readAll_append, hi.read, Option.bind_some]
  show readAll (.line, st) (c ++ ['\n']) = _
  exact readAll_line hc st

theorem readAll_ctorTail {ind : Str} (hi : Closed ind) (r : List Str) (a : Str) (h : ∀ x ∈ a :: r, Closed x) :
    readAll (.code, ['(']) (unlines (ctorStatement.ctorTail ind a r)) = some (.code, []) := by
  induction r generalizing a with
  | nil =>
    show readAll _ (ind ++ a ++ [')']) = _
    rw [readAll_append, readAll_append, hi.read, Option.bind_some, (h a (by simp)).read]
    rfl
  | cons b r ih =>
    have e : unlines (ctorStatement.ctorTail ind a (b :: r)) = ind ++ (a ++ ([',', '\n'] ++ unlines (ctorStatement.ctorTail ind b r))) := by
      have hne : ctorStatement.ctorTail ind b r ≠ [] := by cases r <;> simp [ctorStatement.ctorTail]
      rw [ctorStatement.ctorTail, unlines, join_cons_of_ne_nil _ _ hne]
      simp only [List.append_assoc]
      rfl
    rw [e, readAll_append, hi.read, Option.bind_some, readAll_append, (h a (by simp)).read, Option.bind_some, readAll_append]
    exact ih b (fun x hx => h x (by simp [hx]))

theorem closed_ctor {lib types loc ind : Str} (hl : Closed lib) (ht : Closed types) (hi : Closed ind)
    (hloc : ∀ st, readAll (.code, st) (loc ++ ['\n']) = some (.code, st)) (anns : List Str) (h : ∀ a ∈ anns, Closed a) :
    Closed (unlines (ctorStatement lib types loc ind anns) ++ ['\n']) := by
  cases anns with
  | nil =>
    have e : unlines (ctorStatement lib types loc ind []) ++ ['\n'] =
        ['.', 'd', 'e', 'f', '('] ++ (lib ++ ([':', ':', 'i', 'n', 'i', 't', '<'] ++ (types ++ (['>', '(', ')', ')'] ++ (loc ++ ['\n']))))) := by
      unfold ctorStatement
      simp only [unlines, join_single, List.append_assoc]
      rfl
    unfold Closed
    rw [e, readAll_append]
    show readAll (.code, ['(']) _ = _
    rw [readAll_append, hl.read, Option.bind_some, readAll_append]
    show readAll (.code, ['(']) _ = _
    rw [readAll_append, ht.read, Option.bind_some, readAll_append]
    exact hloc []
  | cons a r =>
    have hne : ctorStatement.ctorTail ind a r ≠ [] := by cases r <;> simp [ctorStatement.ctorTail]
    have e : unlines (ctorStatement lib types loc ind (a :: r)) ++ ['\n'] =
        ['.', 'd', 'e', 'f', '('] ++ (lib ++ ([':', ':', 'i', 'n', 'i', 't', '<'] ++ (types ++ (['>', '(', ')', ','] ++ ((loc ++ ['\n']) ++
          (unlines (ctorStatement.ctorTail ind a r) ++ ['\n'])))))) := by
      unfold ctorStatement
      simp only
      rw [unlines, join_cons_of_ne_nil _ _ hne]
      simp only [List.append_assoc, unlines]
      rfl
    unfold Closed
    rw [e, readAll_append]
    show readAll (.code, ['(']) _ = _
    rw [readAll_append, hl.read, Option.bind_some, readAll_append]
    show readAll (.code, ['(']) _ = _
    rw [readAll_append, ht.read, Option.bind_some, readAll_append]
    show readAll (.code, ['(']) _ = _
    rw [readAll_append, hloc, Option.bind_some, readAll_append, readAll_ctorTail hi r a h]
    rfl

/-- The parts of a callable are closed texts. -/
def Callable.ClosedParts : Callable → Prop
  | .address t => Closed t
  | .cast lib types _ t => Closed lib ∧ (∀ x ∈ types, Closed x) ∧ Closed t
  | .short cls name => Closed cls ∧ Closed name
  | .lambda params ret code call => (∀ x ∈ params, Closed x) ∧ (∀ r, ret = some r → Closed r) ∧ (∀ c, code = some c → Closed c) ∧ Closed call

theorem closed_between {a b c : Str} (o : Char) (ha : Closed a) (hb : Closed b) (hc : Closed c)
    (ho : (o = '(' → False) → o = '{') : Closed (a ++ [o] ++ b ++ [if o = '(' then ')' else '}'] ++ c) := by
  have e : a ++ [o] ++ b ++ [if o = '(' then ')' else '}'] ++ c = a ++ ([o] ++ (b ++ ([if o = '(' then ')' else '}'] ++ c))) := by simp
  unfold Closed
  rw [e, readAll_append, ha.read, Option.bind_some, readAll_append]
  by_cases h : o = '('
  · subst h
    show readAll (.code, ['(']) (b ++ ([')'] ++ c)) = _
    rw [readAll_append, hb.read, Option.bind_some, readAll_append]
    exact hc
  · have := ho h
    subst this
    show readAll (.code, ['{']) (b ++ (['}'] ++ c)) = _
    rw [readAll_append, hb.read, Option.bind_some, readAll_append]
    exact hc

theorem text_cast (ind lib : Str) (types : List Str) (const : Bool) (t : Str) : (Callable.cast lib types const t).text ind =
    lib ++ "::overload_cast<".toList ++ join ", ".toList types ++ ">(".toList ++ t ++ constTag lib const ++ ")".toList := rfl

theorem text_short (ind cls name : Str) : (Callable.short cls name).text ind =
    "[](".toList ++ cls ++ " & self) { return self.".toList ++ name ++ "(); }".toList := rfl

/-- the arrow of a lambda -/
def arrow : Option Str → Str
  | none => []
  | some r => " -> ".toList ++ r

theorem text_lambda (ind : Str) (params : List Str) (ret code : Option Str) (call : Str) : (Callable.lambda params ret code call).text ind =
    "[](".toList ++ join ", ".toList params ++ ")".toList ++ arrow ret ++ "\n".toList ++ ind ++ "{\n".toList ++ bodyOf ind code ++ ind ++ ind ++
      call ++ ";\n".toList ++ ind ++ "}".toList := by
  cases ret <;> rfl

theorem closed_callable {ind : Str} (hi : Closed ind) (c : Callable) (h : c.ClosedParts) : Closed (c.text ind) := by
  have hp : ∀ {a b c : Str}, Closed a → Closed b → Closed c → Closed (a ++ ['('] ++ b ++ [')'] ++ c) :=
    fun ha hb hc => closed_between '(' ha hb hc (by simp)
  have hbr : ∀ {a b c : Str}, Closed a → Closed b → Closed c → Closed (a ++ ['{'] ++ b ++ ['}'] ++ c) :=
    fun ha hb hc => closed_between '{' ha hb hc (by simp)
  cases c with
  | address t =>
    have e : (Callable.address t).text ind = t := rfl
    rw [e]
    have e2 : (Callable.address t).ClosedParts = Closed t := rfl
    rw [e2] at h
    exact h
  | cast lib types const t =>
    obtain ⟨h1, h2, h3⟩ := h
    have ht : Closed (constTag lib const) := by
      unfold constTag
      split
      · exact closed_append (closed_append (by decide) h1) (by decide)
      · exact closed_nil
    have key : ∀ T C : Str, Closed T → Closed C → Closed (lib ++ "::overload_cast<".toList ++ T ++ ">(".toList ++ t ++ C ++ ")".toList) := by
      intro T C hT hC
      have := hp (closed_append (closed_append (closed_append h1 (show Closed "::overload_cast<".toList by decide)) hT)
        (show Closed ">".toList by decide)) (closed_append h3 hC) closed_nil
      have e : lib ++ "::overload_cast<".toList ++ T ++ ">(".toList ++ t ++ C ++ ")".toList =
          lib ++ "::overload_cast<".toList ++ T ++ ">".toList ++ ['('] ++ (t ++ C) ++ [')'] ++ [] := by simp
      rw [e]
      exact this
    have hj := closed_join (show Closed ", ".toList by decide) types h2
    have e := text_cast ind lib types const t
    rw [e]
    exact key _ _ hj ht
  | short cls name =>
    obtain ⟨h1, h2⟩ := h
    have hin : Closed (" return self.".toList ++ name ++ "(); ".toList) := closed_append (closed_append (by decide) h2) (by decide)
    have := hp (show Closed "[]".toList by decide) (closed_append h1 (show Closed " & self".toList by decide))
      (hbr (show Closed " ".toList by decide) hin closed_nil)
    have e : "[](".toList ++ cls ++ " & self) { return self.".toList ++ name ++ "(); }".toList =
        "[]".toList ++ ['('] ++ (cls ++ " & self".toList) ++ [')'] ++
          (" ".toList ++ ['{'] ++ (" return self.".toList ++ name ++ "(); ".toList) ++ ['}'] ++ []) := by simp
    rw [text_short, e]
    exact this
  | lambda params ret code call =>
    obtain ⟨h1, h2, h3, h4⟩ := h
    have hb : Closed (bodyOf ind code) := by
      cases code with
      | none => exact closed_nil
      | some c => exact closed_append (closed_append (closed_append hi hi) (h3 c rfl)) (by decide)
    have hin : Closed ("\n".toList ++ bodyOf ind code ++ ind ++ ind ++ call ++ ";\n".toList ++ ind) :=
      closed_append (closed_append (closed_append (closed_append (closed_append (closed_append (by decide) hb) hi) hi) h4) (by decide)) hi
    have key : ∀ R P : Str, Closed R → Closed P → Closed ("[](".toList ++ P ++ ")".toList ++ R ++ "\n".toList ++ ind ++ "{\n".toList ++
        bodyOf ind code ++ ind ++ ind ++ call ++ ";\n".toList ++ ind ++ "}".toList) := by
      intro R P hR hP
      have hafter : Closed (R ++ "\n".toList ++ ind) := closed_append (closed_append hR (by decide)) hi
      have := hp (show Closed "[]".toList by decide) hP (hbr hafter hin closed_nil)
      have e : "[](".toList ++ P ++ ")".toList ++ R ++ "\n".toList ++ ind ++ "{\n".toList ++ bodyOf ind code ++ ind ++ ind ++ call ++
          ";\n".toList ++ ind ++ "}".toList = "[]".toList ++ ['('] ++ P ++ [')'] ++ (R ++ "\n".toList ++ ind ++ ['{'] ++
            ("\n".toList ++ bodyOf ind code ++ ind ++ ind ++ call ++ ";\n".toList ++ ind) ++ ['}'] ++ []) := by simp
      rw [e]
      exact this
    have hj := closed_join (show Closed ", ".toList by decide) params h1
    have hr : Closed (arrow ret) := by
      cases ret with
      | none => exact closed_nil
      | some r => exact closed_append (show Closed " -> ".toList by decide) (h2 r rfl)
    rw [text_lambda]
    exact key _ _ hr hj

end Verif.Fn.Spec
