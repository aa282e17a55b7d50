import Verif.Where.Model
import Verif.Attach.Props

/-! Properties C107 (the verbatim code) and C108 (the code shown in the messages). -/

namespace Verif.Where.Props
open Verif.Py Verif.Where

/-! ### C107 -/

/-- The only line breaks are line feeds. -/
def OnlyLf (s : Str) : Prop := ∀ c ∈ s, isBreak c = true → c = '\n'

instance (s : Str) : Decidable (OnlyLf s) := inferInstanceAs (Decidable (∀ c ∈ s, _ → _))

theorem splitlines_eq : ∀ s : Str, OnlyLf s → splitlines s = if (lines s).getLast? = some [] then (lines s).dropLast else lines s
  | [], _ => rfl
  | c :: cs, h => by
    have ih := splitlines_eq cs (fun x hx => h x (.tail _ hx))
    have hne : lines cs ≠ [] := lines_ne_nil cs
    have hstep : splitlines (c :: cs) = if isBreak c then [] :: splitlines cs else match splitlines cs with | [] => [[c]] | l :: ls => (c :: l) :: ls := by
      have hr : c ≠ '\r' := fun e => absurd ((h c (.head _) (by rw [e]; rfl)).symm.trans e) (by decide)
      rw [splitlines]
      all_goals first | rfl | exact fun _ k => absurd k hr
    rw [hstep]
    by_cases hb : isBreak c = true
    · have hc := h c (.head _) hb
      subst hc
      rw [if_pos hb, ih]
      have hl : lines ('\n' :: cs) = [] :: lines cs := rfl
      rw [hl]
      obtain ⟨l, ls, e⟩ := List.exists_cons_of_ne_nil hne
      rw [e, List.getLast?_cons_cons]
      by_cases k : (l :: ls).getLast? = some []
      · rw [if_pos k, if_pos k]; rfl
      · rw [if_neg k, if_neg k]
    · rw [if_neg hb, ih]
      obtain ⟨l, ls, e⟩ := List.exists_cons_of_ne_nil hne
      have hc : c ≠ '\n' := fun k => hb (by rw [k]; rfl)
      have hl : lines (c :: cs) = (c :: l) :: ls := by
        have e' : splitOn '\n' cs = l :: ls := e
        show splitOn '\n' (c :: cs) = _
        rw [splitOn, if_neg hc, e']
      rw [hl, e]
      cases ls with
      | nil =>
        cases l with
        | nil => rfl
        | cons a l => rfl
      | cons m ls =>
        rw [List.getLast?_cons_cons, List.getLast?_cons_cons]
        by_cases k : (m :: ls).getLast? = some []
        · rw [if_pos k, if_pos k]; rfl
        · rw [if_neg k, if_neg k]

/-- What a line becomes: a blank line, or a line with only the mark of empty lines, becomes empty. -/
def shown (l : Str) : Str := if (∀ c ∈ l, isSpace c = true) ∨ strip l = "// _SRCML_EMPTY_LINE_".toList then [] else l

theorem mem_join (c : Char) : ∀ ls : List Str, c ∈ join ['\n'] ls → c = '\n' ∨ ∃ l ∈ ls, c ∈ l
  | [], h => absurd h (by simp [join])
  | [l], h => .inr ⟨l, .head _, h⟩
  | l :: m :: ls, h => by
    have h' : c ∈ l ++ ['\n'] ++ join ['\n'] (m :: ls) := h
    rcases List.mem_append.1 h' with k | k
    · rcases List.mem_append.1 k with k | k
      · exact .inr ⟨l, .head _, k⟩
      · exact .inl (List.mem_singleton.1 k)
    · rcases mem_join c (m :: ls) k with k | ⟨x, hx, k⟩
      · exact .inl k
      · exact .inr ⟨x, .tail _ hx, k⟩

theorem mem_of_line {c : Char} : ∀ {s l : Str}, l ∈ lines s → c ∈ l → c ∈ s
  | [], l, h, hc => by rw [List.mem_singleton.1 h] at hc; exact absurd hc (by simp)
  | x :: s, l, h, hc => by
    by_cases e : x = '\n'
    · have hl : lines (x :: s) = [] :: lines s := by rw [e]; rfl
      rw [hl] at h
      rcases List.mem_cons.1 h with k | k
      · rw [k] at hc; exact absurd hc (by simp)
      · exact .tail _ (mem_of_line k hc)
    · obtain ⟨m, ls, he⟩ := List.exists_cons_of_ne_nil (lines_ne_nil s)
      have hl : lines (x :: s) = (x :: m) :: ls := by
        have e' : splitOn '\n' s = m :: ls := he
        show splitOn '\n' (x :: s) = _
        rw [splitOn, if_neg e, e']
      rw [hl] at h
      rcases List.mem_cons.1 h with k | k
      · rw [k] at hc
        rcases List.mem_cons.1 hc with k | k
        · rw [k]; exact .head _
        · exact .tail _ (mem_of_line (he ▸ .head _) k)
      · exact .tail _ (mem_of_line (he ▸ .tail _ k) hc)

/-- The marks of empty lines. -/
def mk (l : Str) : Str := if ∀ c ∈ l, isSpace c = true then Attach.emptyLineComment else l

theorem mark_lines (code : Str) : lines (Attach.markEmptyLines code) = (lines code).map mk := Attach.C20_empty_lines_marked code

theorem comment_ne : Attach.emptyLineComment ≠ [] := by decide
theorem comment_lf : OnlyLf Attach.emptyLineComment := by decide
theorem comment_strip : strip Attach.emptyLineComment = Attach.emptyLineComment := by decide

theorem mk_shown (l : Str) : (if strip (mk l) = Attach.emptyLineComment then [] else mk l) = shown l := by
  unfold mk
  by_cases hl : ∀ c ∈ l, isSpace c = true
  · rw [if_pos hl, if_pos comment_strip]
    exact (if_pos (Or.inl hl)).symm
  · rw [if_neg hl]
    by_cases hs : strip l = Attach.emptyLineComment
    · rw [if_pos hs]
      exact (if_pos (Or.inr hs)).symm
    · rw [if_neg hs]
      refine (if_neg ?_).symm
      rintro (k | k)
      · exact hl k
      · exact hs k

theorem mark_lf {code : Str} (h : OnlyLf code) : OnlyLf (Attach.markEmptyLines code) := by
  intro c hc hb
  rw [← unlines_lines (Attach.markEmptyLines code), mark_lines] at hc
  rcases mem_join c _ hc with k | ⟨l, hl, k⟩
  · exact k
  · obtain ⟨m, hm, rfl⟩ := List.mem_map.1 hl
    unfold mk at k
    by_cases hl : ∀ c ∈ m, isSpace c = true
    · rw [if_pos hl] at k; exact comment_lf c k hb
    · rw [if_neg hl] at k; exact h c (mem_of_line hm k) hb

theorem mark_last (code : Str) : (lines (Attach.markEmptyLines code)).getLast? ≠ some [] := by
  rw [mark_lines, List.getLast?_map]
  cases (lines code).getLast? with
  | none => exact fun k => by cases k
  | some l =>
    show some (mk l) ≠ some []
    intro k
    injection k with k
    unfold mk at k
    by_cases hl : ∀ c ∈ l, isSpace c = true
    · rw [if_pos hl] at k; exact comment_ne k
    · rw [if_neg hl] at k; exact hl (by rw [k]; intro c hc; cases hc)

/-- C107: the exact verbatim code of a code with only line feeds: the same lines, where blank lines are empty. -/
theorem C107_exact (code : Str) (h : OnlyLf code) : lines (verbatim true (given true code)) = (lines code).map shown := by
  unfold verbatim given
  rw [if_pos rfl, if_pos rfl, splitlines_eq _ (mark_lf h), if_neg (mark_last code), mark_lines, List.map_map]
  have e : (fun line => if strip line = Attach.emptyLineComment then [] else line) ∘ mk = shown := funext mk_shown
  rw [e]
  apply lines_unlines
  · exact fun k => lines_ne_nil code (List.map_eq_nil_iff.1 k)
  · intro l hl
    obtain ⟨m, hm, rfl⟩ := List.mem_map.1 hl
    unfold shown
    split
    · exact fun k => by cases k
    · exact not_mem_of_mem_lines hm

/-- The full statement: the verbatim code of a code is this code. -/
def C107_statement : Prop := ∀ (preserve : Bool) (code : Str), verbatim preserve (given preserve code) = code

/-- C107: a form feed becomes a line feed, for example; the blanks of blank lines are lost. -/
theorem C107_fails : ¬ C107_statement := by
  intro h
  have := h true ['a', Char.ofNat 12, 'b']
  revert this
  decide +kernel

example : verbatim true (given true "a\r\nb".toList) = "a\nb".toList ∧ verbatim true (given true "a\n \nb".toList) = "a\n\nb".toList := by
  decide +kernel

/-- C107: it holds for a code with only line feeds, whose blank lines are empty, and without a comment that is the mark of empty lines; and always
when the empty lines are not preserved. -/
theorem C107_partial (preserve : Bool) (code : Str)
    (h : preserve = true → OnlyLf code ∧ (∀ l ∈ lines code, l ≠ [] → ∃ c ∈ l, isSpace c = false) ∧
      ∀ l ∈ lines code, strip l ≠ "// _SRCML_EMPTY_LINE_".toList) :
    verbatim preserve (given preserve code) = code := by
  cases preserve with
  | false => rfl
  | true =>
    obtain ⟨h1, h2, h3⟩ := h rfl
    have e := C107_exact code h1
    have : (lines code).map shown = lines code := by
      conv => rhs; rw [← List.map_id (lines code)]
      apply List.map_congr_left
      intro l hl
      unfold shown
      by_cases hn : l = []
      · rw [hn, if_pos (Or.inl (fun c hc => by cases hc))]; rfl
      · refine if_neg ?_
        rintro (k | k)
        · obtain ⟨c, hc, hs⟩ := h2 l hl hn
          rw [k c hc] at hs; cases hs
        · exact h3 l hl k
    rw [this] at e
    rw [← unlines_lines (verbatim true (given true code)), e, unlines_lines]

example : OnlyLf "int a;\n\n// b\n".toList ∧ (∀ l ∈ lines "int a;\n\n// b\n".toList, l ≠ [] → ∃ c ∈ l, isSpace c = false) ∧
    ∀ l ∈ lines "int a;\n\n// b\n".toList, strip l ≠ "// _SRCML_EMPTY_LINE_".toList := by decide +kernel

theorem splitlines_windows : ∀ (l cs : Str), (∀ c ∈ l, isBreak c = false) → splitlines (l ++ '\r' :: '\n' :: cs) = l :: splitlines cs
  | [], cs, _ => by
    show splitlines ('\r' :: '\n' :: cs) = [] :: splitlines cs
    rw [splitlines]
  | c :: l, cs, h => by
    have hc : isBreak c = false := h c (.head _)
    have ih := splitlines_windows l cs (fun x hx => h x (.tail _ hx))
    have hr : c ≠ '\r' := fun e => by rw [e] at hc; exact absurd hc (by decide)
    rw [List.cons_append, splitlines, hc, ih]
    · rfl
    · intro _ e
      exact absurd e hr

/-- C107: the line ends `\r\n` of Windows become line feeds: no line is added or lost. -/
theorem C107_windows : ∀ ls : List Str, (∀ l ∈ ls, ∀ c ∈ l, isBreak c = false) → (∀ l ∈ ls, strip l ≠ Attach.emptyLineComment) →
    verbatim true (ls.flatMap (fun l => l ++ ['\r', '\n'])) = unlines ls := by
  intro ls h hm
  have e : splitlines (ls.flatMap (fun l => l ++ ['\r', '\n'])) = ls := by
    clear hm
    induction ls with
    | nil => rfl
    | cons l ls ih =>
      rw [List.flatMap_cons, List.append_assoc]
      have := splitlines_windows l (ls.flatMap (fun l => l ++ ['\r', '\n'])) (h l (.head _))
      rw [show l ++ (['\r', '\n'] ++ ls.flatMap (fun l => l ++ ['\r', '\n'])) = l ++ '\r' :: '\n' :: ls.flatMap (fun l => l ++ ['\r', '\n']) from rfl, this,
        ih (fun x hx => h x (.tail _ hx))]
  unfold verbatim
  rw [if_pos rfl, e]
  congr 1
  exact (List.map_congr_left (fun l hl => if_neg (hm l hl))).trans (List.map_id _)

example : verbatim true "int a;\r\n\r\nint b;\r\n".toList = "int a;\n\nint b;".toList := by decide +kernel

/-! ### C108 -/

/-- A line of code and the caret below it. -/
def pointed (l : Str) (column : Nat) : Str := l ++ ['\n'] ++ List.replicate (column - 1) ' ' ++ ['^', '\n']

theorem caretFrom_tail (column : Int) : ∀ (ls : List Str) (i : Nat), 0 < i → caretFrom 0 column i ls = ls.flatMap (fun l => l ++ ['\n'])
  | [], _, _ => rfl
  | l :: ls, i, h => by
    rw [caretFrom, caretFrom_tail column ls (i + 1) (by omega)]
    have : ¬ ((i : Int) = 0) := by omega
    simp only [this, if_false, List.append_nil, List.flatMap_cons]

/-- C108: the message shows the line where the element starts, a caret below its first character, and the next lines of the element, `maxLines` at
most. -/
theorem C108_context (code own : Str) (startLine startCol stopLine stopCol maxLines : Nat) (l : Str) (hne : code ≠ [])
    (h1 : 1 ≤ startLine) (hl : (lines code)[startLine - 1]? = some l) (hs : startLine ≤ stopLine) :
    context code own ⟨startLine, startCol⟩ ⟨stopLine, stopCol⟩ maxLines =
      pointed l startCol ++ (((lines code).drop startLine).take (min maxLines (stopLine - startLine))).flatMap (fun x => x ++ ['\n']) := by
  obtain ⟨n, rfl⟩ : ∃ n, startLine = n + 1 := ⟨startLine - 1, by omega⟩
  have hlen : code.length > 0 := List.length_pos_iff.2 hne
  unfold context
  rw [if_pos hlen]
  dsimp only
  rw [if_pos ⟨by omega, by omega⟩]
  have hlast : (if (stopLine : Int) > ((n + 1 : Nat) : Int) + (maxLines : Int) then ((n + 1 : Nat) : Int) + (maxLines : Int) else (stopLine : Int)) =
      (((n + 1) + min maxLines (stopLine - (n + 1)) : Nat) : Int) := by
    split <;> omega
  rw [hlast]
  unfold slice
  have e1 : (((n + 1 : Nat) : Int)).toNat = n + 1 := by omega
  have e2 : ((((n + 1) + min maxLines (stopLine - (n + 1)) : Nat) : Int) + 1).toNat - (n + 1) = min maxLines (stopLine - (n + 1)) + 1 := by omega
  rw [e1, e2, List.drop_succ_cons]
  have hd : (lines code).drop n = l :: (lines code).drop (n + 1) := by
    have hn : n < (lines code).length := by
      by_contra hc
      rw [Nat.add_sub_cancel, List.getElem?_eq_none (by omega)] at hl
      cases hl
    rw [List.drop_eq_getElem_cons hn]
    rw [Nat.add_sub_cancel, List.getElem?_eq_getElem hn] at hl
    injection hl with hl
    rw [hl]
  rw [hd, List.take_succ_cons, caretFrom, caretFrom_tail _ _ _ (by omega)]
  unfold pointed
  have e3 : ((startCol : Int) - 1).toNat = startCol - 1 := by omega
  simp only [e3]
  simp

example : context "int a;\n  Foo b[2];\nint c;".toList [] ⟨2, 3⟩ ⟨2, 11⟩ 2 = "  Foo b[2];\n  ^\n".toList := by decide +kernel

/-- C108: the line that is shown is the one that srcML has read, since the marks of empty lines do not move the lines. -/
theorem C108_line (preserve : Bool) (code : Str) (n : Nat) (l : Str) (h : (lines code)[n]? = some l) (hl : ∃ c ∈ l, isSpace c = false) :
    (lines (given preserve code))[n]? = some l ∧ (lines (given preserve code)).length = (lines code).length := by
  unfold given
  cases preserve with
  | false => exact ⟨h, rfl⟩
  | true =>
    rw [if_pos rfl, mark_lines]
    refine ⟨?_, List.length_map _⟩
    rw [List.getElem?_map, h]
    show some (mk l) = some l
    unfold mk
    rw [if_neg]
    intro k
    obtain ⟨c, hc, hs⟩ := hl
    rw [k c hc] at hs
    cases hs

/-- The full statement on the length: at most `maxLines` lines of code are shown. -/
def C108_max_statement : Prop := ∀ (code own : Str) (start stop : Position) (maxLines : Nat), code ≠ [] → 1 ≤ start.line → start.line ≤ stop.line →
  (context code own start stop maxLines).count '\n' ≤ maxLines + 1

/-- C108: one more line of code is shown. -/
theorem C108_max_fails : ¬ C108_max_statement := by
  intro h
  have := h "a {\nb;\nc;\nd;\n}".toList [] ⟨1, 1⟩ ⟨5, 1⟩ 2 (by decide) (by decide) (by decide)
  revert this
  decide +kernel

/-- The full statement on the cache: the code of the message is the one from which the element was made, whatever codes are read after it. -/
def C108_cache_statement : Prop := ∀ (c : Codes) (filename : Option Str) (code : Str) (others : List (Option Str × Str)),
  cachedCode (others.foldl (fun c x => storeCode c x.1 x.2) (storeCode c filename code)) filename = some code

/-- C108: a code without file is replaced by the next code without file, for example the type or the constructor that litgen writes and parses. -/
theorem C108_cache_fails : ¬ C108_cache_statement := by
  intro h
  have := h [] none "void f();".toList [(none, "int dummy;".toList)]
  revert this
  decide +kernel

theorem cached_store (c : Codes) (f g : Option Str) (code : Str) : cachedCode (storeCode c f code) g = if g = f then some code else cachedCode c g := by
  unfold cachedCode storeCode
  rw [List.find?_cons]
  by_cases e : g = f
  · rw [if_pos e, show decide (f = g) = true from by simp [e]]; rfl
  · rw [if_neg e, show decide (f = g) = false from by simp [Ne.symm e]]
    show (List.find? (fun x => decide (x.1 = g)) (List.filter (fun x => decide (x.1 ≠ f)) c)).map Prod.snd =
      (List.find? (fun x => decide (x.1 = g)) c).map Prod.snd
    refine congrArg _ ?_
    induction c with
    | nil => rfl
    | cons x c ih =>
      rw [List.filter_cons]
      by_cases hx : x.1 = f
      · have : ¬ (x.1 = g) := fun k => e (k.symm.trans hx)
        rw [show decide (x.1 ≠ f) = false from by simp [hx], List.find?_cons, show decide (x.1 = g) = false from by simp [this]]
        exact ih
      · rw [show decide (x.1 ≠ f) = true from by simp [hx], if_pos rfl, List.find?_cons, List.find?_cons, ih]

/-- C108: it holds when the codes that are read after it have other names. -/
theorem C108_cache_partial (filename : Option Str) (code : Str) : ∀ (others : List (Option Str × Str)) (c : Codes),
    (∀ x ∈ others, x.1 ≠ filename) → cachedCode c filename = some code →
    cachedCode (others.foldl (fun c x => storeCode c x.1 x.2) c) filename = some code
  | [], _, _, h => h
  | x :: others, c, ho, h => by
    refine C108_cache_partial filename code others (storeCode c x.1 x.2) (fun y hy => ho y (.tail _ hy)) ?_
    rw [cached_store, if_neg (fun e => ho x (.head _) e.symm), h]

/-- C108: a code is in the cache after it was stored. -/
theorem C108_stored (c : Codes) (filename : Option Str) (code : Str) : cachedCode (storeCode c filename code) filename = some code := by
  rw [cached_store, if_pos rfl]

example : ∀ x ∈ [(none, "int dummy;".toList)], x.1 ≠ some "a.h".toList := by decide

end Verif.Where.Props
