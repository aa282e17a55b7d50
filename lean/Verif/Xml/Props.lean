import Verif.Xml.Model
import Verif.Py.StrLemmas
import Verif.Py.Split

/-! Properties C113 (tags, children and positions of the XML elements) and C114 (the readable form of an XML tree). -/

namespace Verif.Xml.Props
open Verif.Py Verif.Xml

/-! ### C113: the tags -/

theorem afterBrace_eq (u l : Str) (h : '}' ∉ u) : afterBrace (u ++ '}' :: l) = some l := by
  induction u with
  | nil => exact if_pos rfl
  | cons c u ih =>
    rw [List.mem_cons, not_or] at h
    show (if c = '}' then _ else _) = _
    rw [if_neg (Ne.symm h.1)]
    exact ih h.2

theorem no_prefix {s p : Str} (hp : ':' ∈ p) (h : ':' ∉ s) : contains s p = false := by
  rw [Bool.eq_false_iff, Ne, contains_iff]
  rintro ⟨a, b, e⟩
  exact h (by rw [e]; simp [hp])

theorem clean_local {l : Str} (h : ':' ∉ l) : replace (replace l "ns0:".toList []) "ns1:".toList [] = l := by
  rw [replace_of_not_contains (no_prefix (by decide) h), replace_of_not_contains (no_prefix (by decide) h)]

theorem clean_eq (t : Str) : cleanTag t = (if startsWith t ['{'] then afterBrace t else some t).map
    (fun t => replace (replace t "ns0:".toList []) "ns1:".toList []) := rfl

/-- C113: the tag (or attribute) is the name without its XML namespace, whether this namespace is written as its address or as a prefix. -/
theorem C113_tag (u l : Str) (hl : ':' ∉ l) (hb : l.head? ≠ some '{') :
    ('}' ∉ u → cleanTag ("{".toList ++ u ++ "}".toList ++ l) = some l) ∧ cleanTag ("ns0:".toList ++ l) = some l ∧
    cleanTag ("ns1:".toList ++ l) = some l ∧ cleanTag l = some l := by
  have hs : ∀ {p : Str}, p.head? ≠ some '{' → startsWith p ['{'] = false := by
    intro p hp
    cases p with
    | nil => rfl
    | cons c p =>
      rw [Bool.eq_false_iff]
      intro h
      have : '{' = c := by simpa [startsWith] using h
      exact hp (by rw [← this]; rfl)
  refine ⟨?_, ?_, ?_, ?_⟩
  · intro hu
    have e : "{".toList ++ u ++ "}".toList ++ l = '{' :: (u ++ '}' :: l) := by
      show ['{'] ++ u ++ ['}'] ++ l = _
      simp
    rw [e]
    rw [clean_eq, if_pos (by simp [startsWith])]
    have : afterBrace ('{' :: (u ++ '}' :: l)) = some l := afterBrace_eq ('{' :: u) l (by simp [hu])
    rw [this]
    exact congrArg some (clean_local hl)
  · rw [clean_eq, if_neg (by rw [hs (by rw [show "ns0:".toList = ['n', 's', '0', ':'] from rfl]; simp)]; simp)]
    refine congrArg some ?_
    show replace (replace ("ns0:".toList ++ l) "ns0:".toList []) "ns1:".toList [] = l
    rw [replace_match (by decide), replace_of_not_contains (no_prefix (by decide) hl), List.nil_append, replace_of_not_contains (no_prefix (by decide) hl)]
  · rw [clean_eq, if_neg (by rw [hs (by rw [show "ns1:".toList = ['n', 's', '1', ':'] from rfl]; simp)]; simp)]
    refine congrArg some ?_
    have h0 : contains ("ns1:".toList ++ l) "ns0:".toList = false := by
      rw [Bool.eq_false_iff, Ne, contains_iff]
      rintro ⟨a, b, e⟩
      rw [show "ns1:".toList = ['n', 's', '1', ':'] from rfl, show "ns0:".toList = ['n', 's', '0', ':'] from rfl] at e
      have hm : ∀ x : Str, ':' ∉ l → l ≠ x ++ ['n', 's', '0', ':'] ++ b := by
        intro x h e'
        exact h (by rw [e']; simp)
      match a with
      | [] => simp at e
      | [a1] => simp at e
      | [a1, a2] => simp at e
      | [a1, a2, a3] => simp at e
      | a1 :: a2 :: a3 :: a4 :: a5 =>
        simp only [List.cons_append, List.nil_append, List.cons.injEq] at e
        exact hm a5 hl e.2.2.2.2
    show replace (replace ("ns1:".toList ++ l) "ns0:".toList []) "ns1:".toList [] = l
    rw [replace_of_not_contains h0, replace_match (by decide), replace_of_not_contains (no_prefix (by decide) hl), List.nil_append]
  · rw [clean_eq, if_neg (by rw [hs hb]; simp)]
    exact congrArg some (clean_local hl)

example : cleanTag "{http://www.srcML.org/srcML/src}function_decl".toList = some "function_decl".toList := by decide +kernel

/-- C113, the full statement for the kinds: elements of different kinds have different tags. -/
def C113_kinds_statement : Prop := ∀ a b : Str, cleanTag a = cleanTag b → a = b

/-- C113: it fails: the statement `if` and the directive `#if` have the same tag. -/
theorem C113_kinds_fails : ¬ C113_kinds_statement := by
  intro h
  have := h "{http://www.srcML.org/srcML/src}if".toList "{http://www.srcML.org/srcML/cpp}if".toList (by decide +kernel)
  revert this
  decide +kernel

/-- C113: it holds in one XML namespace. -/
theorem C113_kinds_partial (u a b : Str) (hu : '}' ∉ u) (ha : ':' ∉ a ∧ a.head? ≠ some '{') (hb : ':' ∉ b ∧ b.head? ≠ some '{')
    (h : cleanTag ("{".toList ++ u ++ "}".toList ++ a) = cleanTag ("{".toList ++ u ++ "}".toList ++ b)) : a = b := by
  rw [(C113_tag u a ha.1 ha.2).1 hu, (C113_tag u b hb.1 hb.2).1 hu] at h
  exact Option.some.inj h

/-! ### C113: the children -/

/-- C113: the children with a tag are those children, in order; the child with a tag is found exactly when there is one child with this tag. -/
theorem C113_child (e c : Elem) (tag : Str) :
    (c ∈ childrenWithTag e tag ↔ c ∈ e.children ∧ tagOf c = some tag) ∧ (childrenWithTag e tag).Sublist e.children ∧
    (childWithTag e tag = some c ↔ ∃ a b, e.children = a ++ c :: b ∧ tagOf c = some tag ∧ ∀ d, d ∈ a ∨ d ∈ b → tagOf d ≠ some tag) := by
  refine ⟨by simp [childrenWithTag], List.filter_sublist, ?_⟩
  have h1 : childWithTag e tag = some c ↔ childrenWithTag e tag = [c] := by
    unfold childWithTag
    cases childrenWithTag e tag with
    | nil => simp
    | cons x xs =>
      cases xs with
      | nil => simp
      | cons y ys => simp
  rw [h1]
  unfold childrenWithTag
  constructor
  · intro h
    obtain ⟨a, b, h2, h3, h4, h5⟩ := List.filter_eq_cons_iff.1 h
    refine ⟨a, b, h2, by simpa using h4, ?_⟩
    rintro d (hd | hd)
    · simpa using h3 d hd
    · rw [List.filter_eq_nil_iff] at h5
      simpa using h5 d hd
  · rintro ⟨a, b, h2, h3, h4⟩
    rw [h2, List.filter_append, List.filter_cons, if_pos (by simpa using h3), List.filter_eq_nil_iff.2, List.filter_eq_nil_iff.2]
    · rfl
    · intro d hd; simpa using h4 d (.inr hd)
    · intro d hd; simpa using h4 d (.inl hd)

/-! ### C113: the positions -/

theorem natStr_no_colon (n : Nat) : ':' ∉ natStr n := by
  obtain ⟨ds, _, h2, h3, _⟩ := natStr_spec n
  rw [h3]
  intro h
  obtain ⟨d, hd, e⟩ := List.mem_map.1 h
  have : ∀ d, d < 10 → digitChar d ≠ ':' := by decide
  exact this d (h2 d hd) e

theorem intStr_no_colon (n : Int) : ':' ∉ intStr n := by
  unfold intStr
  split
  · exact natStr_no_colon _
  · intro h
    rcases List.mem_cons.1 h with h | h
    · exact absurd h (by decide)
    · exact natStr_no_colon _ h

/-- C113: a position is read back from its text. -/
theorem C113_position_text (p : Where.Position) : fromString (posStr p) = some p := by
  have e : splitOn ':' (posStr p) = [intStr p.line, intStr p.column] := by
    unfold posStr
    have e1 : intStr p.line ++ ":".toList ++ intStr p.column = intStr p.line ++ ':' :: intStr p.column := by
      show intStr p.line ++ [':'] ++ intStr p.column = _
      simp
    rw [e1, splitOn_append_sep (intStr_no_colon _), splitOn_of_not_mem (intStr_no_colon _)]
  unfold fromString
  rw [e]
  simp only [pyInt_intStr 10 (.inr rfl)]

theorem loop_skip (which : Str) (r : Option Where.Position) (a : List (Str × Str)) (h : ∀ p ∈ a, ∃ k, cleanTag p.1 = some k ∧ k ≠ which) :
    positionLoop which r a = some r := by
  induction a generalizing r with
  | nil => rfl
  | cons p a ih =>
    obtain ⟨k, h1, h2⟩ := h p (.head _)
    obtain ⟨x, v⟩ := p
    unfold positionLoop
    rw [h1]
    show (if k = which then _ else _) = _
    rw [if_neg h2]
    exact ih r (fun q hq => h q (.tail _ hq))

theorem loop_append (which : Str) (r : Option Where.Position) (a b : List (Str × Str)) (h : ∀ p ∈ a, ∃ k, cleanTag p.1 = some k ∧ k ≠ which) :
    positionLoop which r (a ++ b) = positionLoop which r b := by
  induction a generalizing r with
  | nil => rfl
  | cons p a ih =>
    obtain ⟨k, h1, h2⟩ := h p (.head _)
    obtain ⟨x, v⟩ := p
    show positionLoop which r ((x, v) :: (a ++ b)) = _
    rw [positionLoop, h1]
    show (if k = which then _ else _) = _
    rw [if_neg h2]
    exact ih r (fun q hq => h q (.tail _ hq))

/-- The attributes of an element, with one position of each kind at most. -/
def Other (which : Str) (a : List (Str × Str)) : Prop := ∀ p ∈ a, ∃ k, cleanTag p.1 = some k ∧ k ≠ which

/-- C113: the place of an element is the one written in its attribute, whatever its XML namespace and the other attributes; it is `-1:-1` without this attribute. -/
theorem C113_place (which key t : Str) (text : Option Str) (cs : List Elem) (a b : List (Str × Str)) (p : Where.Position)
    (ha : Other which a) (hb : Other which b) (hk : cleanTag key = some which) :
    place which (.mk t (a ++ (key, posStr p) :: b) text cs) = some p ∧ place which (.mk t (a ++ b) text cs) = some ⟨-1, -1⟩ := by
  constructor
  · unfold place position
    show (positionLoop which none (a ++ (key, posStr p) :: b)).map _ = _
    rw [loop_append which none a _ ha, positionLoop, hk]
    show (if which = which then _ else _ : Option (Option Where.Position)).map _ = _
    rw [if_pos rfl, C113_position_text]
    show (positionLoop which (some p) b).map _ = _
    rw [loop_skip which _ b hb]
    rfl
  · unfold place position
    show (positionLoop which none (a ++ b)).map _ = _
    rw [loop_append which none a _ ha, loop_skip which _ b hb]
    rfl

example : place "start".toList (.mk "{http://www.srcML.org/srcML/src}name".toList
    [("{http://www.srcML.org/srcML/position}start".toList, "3:15".toList), ("{http://www.srcML.org/srcML/position}end".toList, "3:17".toList)] none []) =
    some ⟨3, 15⟩ := by decide +kernel

/-- C113: the end of an element that is merged with a following one becomes the end of the following one; its other attributes do not change. -/
theorem C113_copy_end (key v w : Str) (a b c d : List (Str × Str)) (hk : cleanTag key = some "end".toList)
    (ha : Other "end".toList a) (hb : Other "end".toList b) (hc : Other "end".toList c) (hd : Other "end".toList d) :
    copyEnd (a ++ (key, v) :: b) (c ++ (key, w) :: d) = c ++ (key, v) :: d ∧ copyEnd (a ++ (key, v) :: b) c = c ++ [(key, v)] ∧ copyEnd (a ++ b) c = c := by
  have skip : ∀ (l x : List (Str × Str)), Other "end".toList l →
      l.foldl (fun d p => if cleanTag p.1 = some "end".toList then setAttr d p.1 p.2 else d) x = x := by
    intro l
    induction l with
    | nil => intro x _; rfl
    | cons p l ih =>
      intro x h
      obtain ⟨k, h1, h2⟩ := h p (.head _)
      show l.foldl _ (if cleanTag p.1 = some "end".toList then _ else _) = _
      rw [if_neg (by rw [h1]; exact fun e => h2 (Option.some.inj e))]
      exact ih x (fun q hq => h q (.tail _ hq))
  have nk : ∀ {l : List (Str × Str)}, Other "end".toList l → ∀ p ∈ l, p.1 ≠ key := by
    intro l h p hp e
    obtain ⟨k, h1, h2⟩ := h p hp
    rw [e, hk] at h1
    exact h2 (Option.some.inj h1).symm
  have step : ∀ x, copyEnd (a ++ (key, v) :: b) x = setAttr x key v := by
    intro x
    unfold copyEnd
    rw [List.foldl_append, skip a x ha]
    show b.foldl _ (if cleanTag key = some "end".toList then _ else _) = _
    rw [if_pos hk]
    exact skip b _ hb
  have idm : ∀ {l : List (Str × Str)}, Other "end".toList l → l.map (fun p => if p.1 = key then (key, v) else p) = l := by
    intro l h
    conv => rhs; rw [← List.map_id l]
    exact List.map_congr_left (fun p hp => if_neg (nk h p hp))
  refine ⟨?_, ?_, ?_⟩
  · rw [step, setAttr, if_pos, List.map_append, List.map_cons, idm hc, idm hd]
    · show c ++ (if key = key then _ else _) :: d = _
      rw [if_pos rfl]
    · rw [List.any_eq_true]
      exact ⟨(key, w), List.mem_append_right _ (.head _), beq_self_eq_true _⟩
  · rw [step, setAttr, if_neg]
    rw [List.any_eq_true]
    rintro ⟨p, hp, e⟩
    exact nk hc p hp (beq_iff_eq.1 e)
  · unfold copyEnd
    rw [List.foldl_append, skip a c ha, skip b c hb]

/-! ### C114: the readable tree -/

/-- The tree of the tags. -/
inductive Skel where
  | node (tag : Str) (children : List Skel)

mutual
/-- The tags of an element and of its descendants. -/
def skel : Elem → Skel
  | .mk t _ _ cs => .node ((cleanTag t).getD []) (skelList cs)
def skelList : List Elem → List Skel
  | [] => []
  | e :: es => skel e :: skelList es
end

mutual
/-- The depths and the tags, in the order of the code. -/
def outline (level : Nat) : Skel → List (Nat × Str)
  | .node t cs => (level, t) :: outlineList (level + 1) cs
def outlineList (level : Nat) : List Skel → List (Nat × Str)
  | [] => []
  | s :: ss => outline level s ++ outlineList level ss
end

mutual
/-- All the tags are words. -/
def Words : Skel → Prop
  | .node t cs => t ≠ [] ∧ ' ' ∉ t ∧ '\n' ∉ t ∧ WordsList cs
def WordsList : List Skel → Prop
  | [] => True
  | s :: ss => Words s ∧ WordsList ss
end

/-- What a reader sees in a line: how far it is from the margin, and its first word. -/
def seen (l : Str) : Nat × Str := ((l.takeWhile (· == ' ')).length / 4, (l.dropWhile (· == ' ')).takeWhile (· != ' '))

theorem no_nl_replace (t : Str) : '\n' ∉ replace t ['\n'] [' '] := by
  rw [replace_char]
  intro h
  obtain ⟨c, _, h2⟩ := List.mem_flatMap.1 h
  split at h2
  · simp at h2
  · rename_i hne; simp at h2; exact hne h2.symm

theorem strip_sub {c : Char} {t : Str} (h : c ∈ strip t) : c ∈ t := by
  unfold strip at h
  have h1 : ∀ {s : Str}, c ∈ rstrip s → c ∈ s := by
    intro s hs
    unfold rstrip at hs
    exact List.mem_reverse.1 ((List.dropWhile_sublist _).subset (List.mem_reverse.1 hs))
  have h2 : ∀ {s : Str}, c ∈ lstrip s → c ∈ s := fun hs => (List.dropWhile_sublist _).subset hs
  first | exact h1 (h2 h) | exact h2 (h1 h)

theorem text_no_nl (e : Elem) : '\n' ∉ interestingText e := by
  unfold interestingText
  split
  · exact List.not_mem_nil
  · show '\n' ∉ (if _ = _ then [] else _ : Str)
    split
    · exact List.not_mem_nil
    · exact fun h => no_nl_replace _ (strip_sub h)

theorem natStr_no_nl (n : Nat) : '\n' ∉ natStr n := by
  obtain ⟨ds, _, h2, h3, _⟩ := natStr_spec n
  rw [h3]
  intro h
  obtain ⟨d, hd, e⟩ := List.mem_map.1 h
  have : ∀ d, d < 10 → digitChar d ≠ '\n' := by decide
  exact this d (h2 d hd) e

theorem intStr_no_nl (n : Int) : '\n' ∉ intStr n := by
  unfold intStr
  split
  · exact natStr_no_nl _
  · intro h
    rcases List.mem_cons.1 h with h | h
    · exact absurd h (by decide)
    · exact natStr_no_nl _ h

theorem info_form (e : Elem) : '\n' ∉ info e ∧ (info e ≠ [] → ∃ r, info e = 'l' :: r) := by
  have a1 : "line  ".toList = 'l' :: "ine  ".toList := by decide
  have a2 : "lines ".toList = 'l' :: "ines ".toList := by decide
  unfold info
  split
  · split
    · refine ⟨?_, fun _ => ⟨_, by rw [a1]; rfl⟩⟩
      intro h
      rcases List.mem_append.1 h with h | h
      · exact absurd h (by decide)
      · exact intStr_no_nl _ h
    · refine ⟨?_, fun _ => ⟨_, by rw [a2]; rfl⟩⟩
      intro h
      rcases List.mem_append.1 h with h | h
      · rcases List.mem_append.1 h with h | h
        · rcases List.mem_append.1 h with h | h
          · exact absurd h (by decide)
          · exact intStr_no_nl _ h
        · exact absurd h (by decide)
      · exact intStr_no_nl _ h
  · exact ⟨List.not_mem_nil, fun h => absurd rfl h⟩

theorem takeWhile_spaces (n : Nat) (s : Str) (h : s.head? ≠ some ' ') : (spaces n ++ s).takeWhile (· == ' ') = spaces n ∧
    (spaces n ++ s).dropWhile (· == ' ') = s := by
  induction n with
  | zero =>
    cases s with
    | nil => exact ⟨rfl, rfl⟩
    | cons c s =>
      have : (c == ' ') = false := by
        rw [beq_eq_false_iff_ne]
        exact fun e => h (by rw [e]; rfl)
      constructor
      · show List.takeWhile _ (c :: s) = _
        rw [List.takeWhile_cons, this]
        rfl
      · show List.dropWhile _ (c :: s) = _
        rw [List.dropWhile_cons, this]
        rfl
  | succ n ih =>
    have e : spaces (n + 1) = ' ' :: spaces n := rfl
    rw [e]
    exact ⟨congrArg (List.cons ' ') ih.1, ih.2⟩

/-- After a tag that is shown, nothing or a space; or the information that has no room for a space. -/
theorem line_form (level : Nat) (e : Elem) (shown : Str) : ∃ r, lineOf level e shown = spaces (4 * level) ++ ((tagOf e).getD [] ++ r) ∧
    (r = [] ∨ (∃ r', r = ' ' :: r') ∨ (60 ≤ 4 * level + ((tagOf e).getD []).length ∧ r = shown)) ∧
    ('\n' ∉ shown → '\n' ∉ r) := by
  have a1 : " text=\"".toList = ' ' :: "text=\"".toList := by decide
  have hx : '\n' ∉ (" text=\"".toList ++ interestingText e ++ "\"".toList) := by
    intro h
    rcases List.mem_append.1 h with h | h
    · rcases List.mem_append.1 h with h | h
      · exact absurd h (by decide)
      · exact text_no_nl e h
    · exact absurd h (by decide)
  have hsp : ∀ n, '\n' ∉ spaces n := fun n h => absurd (List.eq_of_mem_replicate h) (by decide)
  unfold lineOf
  by_cases h1 : (interestingText e).length > 0
  · by_cases h2 : shown.length > 0
    · refine ⟨(" text=\"".toList ++ interestingText e ++ "\"".toList) ++
        (spaces (60 - (spaces (4 * level) ++ (tagOf e).getD [] ++ (" text=\"".toList ++ interestingText e ++ "\"".toList)).length) ++ shown), ?_, ?_, ?_⟩
      · simp only [if_pos h1, if_pos h2]
        simp only [List.append_assoc]
      · exact .inr (.inl ⟨_, by rw [a1]; rfl⟩)
      · intro hs h
        rcases List.mem_append.1 h with h | h
        · exact hx h
        · rcases List.mem_append.1 h with h | h
          · exact hsp _ h
          · exact hs h
    · refine ⟨" text=\"".toList ++ interestingText e ++ "\"".toList, ?_, .inr (.inl ⟨_, by rw [a1]; rfl⟩), fun _ => hx⟩
      simp only [if_pos h1, if_neg h2]
      simp only [List.append_assoc]
  · by_cases h2 : shown.length > 0
    · refine ⟨spaces (60 - (spaces (4 * level) ++ (tagOf e).getD []).length) ++ shown, ?_, ?_, ?_⟩
      · simp only [if_neg h1, if_pos h2]
        simp only [List.append_assoc]
      · have hlen : (spaces (4 * level) ++ (tagOf e).getD []).length = 4 * level + ((tagOf e).getD []).length := by
          rw [List.length_append]
          congr 1
          exact List.length_replicate
        by_cases hq : 60 ≤ 4 * level + ((tagOf e).getD []).length
        · refine .inr (.inr ⟨hq, ?_⟩)
          rw [hlen, Nat.sub_eq_zero_of_le hq]
          rfl
        · refine .inr (.inl ?_)
          obtain ⟨k, hk⟩ : ∃ k, 60 - (spaces (4 * level) ++ (tagOf e).getD []).length = k + 1 := ⟨60 - (4 * level + ((tagOf e).getD []).length) - 1, by rw [hlen]; omega⟩
          rw [hk]
          exact ⟨spaces k ++ shown, rfl⟩
      · intro hs h
        rcases List.mem_append.1 h with h | h
        · exact hsp _ h
        · exact hs h
    · refine ⟨[], ?_, .inl rfl, fun _ => List.not_mem_nil⟩
      simp only [if_neg h1, if_neg h2]
      rw [List.append_nil]

theorem shown_form (prev : Str) (e : Elem) : '\n' ∉ shownInfo prev e ∧ shownInfo prev e = [] ∨ shownInfo prev e = info e := by
  unfold shownInfo
  split
  · exact .inr rfl
  · exact .inl ⟨List.not_mem_nil, rfl⟩

mutual
/-- No tag is so deep or so long that there is no room for a space before the place. -/
def Narrow (level : Nat) : Skel → Prop
  | .node t cs => 4 * level + t.length < 60 ∧ NarrowList (level + 1) cs
def NarrowList (level : Nat) : List Skel → Prop
  | [] => True
  | s :: ss => Narrow level s ∧ NarrowList level ss
end

theorem line_seen (level : Nat) (prev : Str) (t : Str) (a : List (Str × Str)) (x : Option Str) (cs : List Elem)
    (hw : (cleanTag t).getD [] ≠ [] ∧ ' ' ∉ (cleanTag t).getD [] ∧ '\n' ∉ (cleanTag t).getD []) (hn : 4 * level + ((cleanTag t).getD []).length < 60) :
    '\n' ∉ lineOf level (.mk t a x cs) (shownInfo prev (.mk t a x cs)) ∧
    seen (lineOf level (.mk t a x cs) (shownInfo prev (.mk t a x cs))) = (level, (cleanTag t).getD []) := by
  have hshown : '\n' ∉ shownInfo prev (.mk t a x cs) := by
    rcases shown_form prev (.mk t a x cs) with h | h
    · exact h.1
    · rw [h]; exact (info_form _).1
  obtain ⟨r, h1, h2, h3⟩ := line_form level (.mk t a x cs) (shownInfo prev (.mk t a x cs))
  have etag : (tagOf (.mk t a x cs)).getD [] = (cleanTag t).getD [] := rfl
  rw [etag] at h1 h2
  have h2' : r = [] ∨ ∃ r', r = ' ' :: r' := by
    rcases h2 with h | h | h
    · exact .inl h
    · exact .inr h
    · exact absurd h.1 (by omega)
  rw [h1]
  generalize (cleanTag t).getD [] = w at *
  obtain ⟨hw1, hw2, hw3⟩ := hw
  constructor
  · intro h
    rcases List.mem_append.1 h with h | h
    · exact absurd (List.eq_of_mem_replicate h) (by decide)
    · rcases List.mem_append.1 h with h | h
      · exact hw3 h
      · exact h3 hshown h
  · have hh : (w ++ r).head? ≠ some ' ' := by
      cases w with
      | nil => exact absurd rfl hw1
      | cons c w =>
        intro e
        have e' : c = ' ' := Option.some.inj e
        exact hw2 (by rw [e']; exact .head _)
    obtain ⟨k1, k2⟩ := takeWhile_spaces (4 * level) (w ++ r) hh
    unfold seen
    rw [k1, k2]
    have hl : (spaces (4 * level)).length / 4 = level := by
      rw [show (spaces (4 * level)).length = 4 * level from List.length_replicate]
      omega
    rw [hl]
    congr 1
    rw [List.takeWhile_append_of_pos (fun c hc => by
      rw [bne_iff_ne]; intro e; exact hw2 (e ▸ hc))]
    rcases h2' with h | ⟨r', h⟩
    · rw [h]; exact List.append_nil _
    · rw [h, List.takeWhile_cons, if_neg (by decide), List.append_nil]

theorem seen_lines_cons (l s : Str) (h : '\n' ∉ l) : lines (l ++ '\n' :: s) = l :: lines s := splitOn_append_sep h s

/-- The first word of a line without its margin, where the place that follows a tag without a space is not taken for a part of it. -/
def tagWord (s : Str) : Str :=
  let w := s.takeWhile (· != ' ')
  let r := s.dropWhile (· != ' ')
  match r.dropWhile (· == ' ') with
  | [] => w
  | c :: _ => if c = 't' ∨ c = 'l' then w else if startsWith r [' ', ' '] then w.dropLast.dropLast.dropLast.dropLast
      else w.dropLast.dropLast.dropLast.dropLast.dropLast

/-- What can be read in a line, whatever its length. -/
def readLine (l : Str) : Nat × Str := ((l.takeWhile (· == ' ')).length / 4, tagWord (l.dropWhile (· == ' ')))

theorem span_word (w r : Str) (hw : ' ' ∉ w) (hr : r.head? = none ∨ r.head? = some ' ') :
    (w ++ r).takeWhile (· != ' ') = w ∧ (w ++ r).dropWhile (· != ' ') = r := by
  have hp : ∀ c ∈ w, (c != ' ') = true := fun c hc => by
    rw [bne_iff_ne]; intro e; exact hw (e ▸ hc)
  rw [List.takeWhile_append_of_pos hp, List.dropWhile_append_of_pos hp]
  cases r with
  | nil => exact ⟨List.append_nil _, rfl⟩
  | cons c r =>
    have hc : c = ' ' := by
      rcases hr with h | h
      · cases h
      · exact Option.some.inj h
    rw [hc]
    exact ⟨List.append_nil _, rfl⟩

theorem intStr_head (n : Int) : ∃ c r, intStr n = c :: r ∧ c ≠ ' ' ∧ c ≠ 't' ∧ c ≠ 'l' := by
  have hn : ∀ k : Nat, ∃ c r, natStr k = c :: r ∧ c ≠ ' ' ∧ c ≠ 't' ∧ c ≠ 'l' := by
    intro k
    obtain ⟨ds, h1, h2, h3, _⟩ := natStr_spec k
    cases ds with
    | nil => exact absurd rfl h1
    | cons d ds =>
      have : ∀ d, d < 10 → digitChar d ≠ ' ' ∧ digitChar d ≠ 't' ∧ digitChar d ≠ 'l' := by decide
      exact ⟨_, _, h3, this d (h2 d (.head _))⟩
  unfold intStr
  split
  · exact hn _
  · exact ⟨_, _, rfl, by decide⟩

theorem tagWord_plain (w r : Str) (hw : ' ' ∉ w) (hr : r = [] ∨ (∃ n c r', r = ' ' :: (spaces n ++ c :: r') ∧ (c = 't' ∨ c = 'l'))) : tagWord (w ++ r) = w := by
  obtain ⟨h1, h2⟩ := span_word w r hw (by
    rcases hr with h | ⟨n, c, r', h, _⟩
    · exact .inl (by rw [h]; rfl)
    · exact .inr (by rw [h]; rfl))
  unfold tagWord
  simp only [h1, h2]
  rcases hr with h | ⟨n, c, r', h, hc⟩
  · rw [h]; rfl
  · have e : r = spaces (n + 1) ++ c :: r' := h
    have hd : r.dropWhile (· == ' ') = c :: r' := by
      rw [e]
      refine (takeWhile_spaces (n + 1) (c :: r') ?_).2
      intro h'
      have := Option.some.inj h'
      rcases hc with hc | hc <;> rw [this] at hc <;> exact absurd hc (by decide)
    rw [hd]
    exact if_pos hc

theorem tagWord_line (w : Str) (n : Int) (hw : ' ' ∉ w) : tagWord (w ++ ("line  ".toList ++ intStr n)) = w := by
  obtain ⟨c, r, h, h1, h2, h3⟩ := intStr_head n
  have e : w ++ ("line  ".toList ++ intStr n) = (w ++ ['l', 'i', 'n', 'e']) ++ (' ' :: ' ' :: c :: r) := by
    rw [h, show "line  ".toList = ['l', 'i', 'n', 'e', ' ', ' '] from rfl]
    simp
  rw [e]
  obtain ⟨k1, k2⟩ := span_word (w ++ ['l', 'i', 'n', 'e']) (' ' :: ' ' :: c :: r) (by simp [hw]) (.inr rfl)
  unfold tagWord
  simp only [k1, k2]
  have hd : (' ' :: ' ' :: c :: r).dropWhile (· == ' ') = c :: r := (takeWhile_spaces 2 (c :: r) (fun h => h1 (Option.some.inj h))).2
  rw [hd]
  show (if c = 't' ∨ c = 'l' then _ else _) = _
  rw [if_neg (fun h => h.elim h2 h3), if_pos (by simp [startsWith])]
  simp

theorem tagWord_lines (w s : Str) (n : Int) (hw : ' ' ∉ w) : tagWord (w ++ ("lines ".toList ++ intStr n ++ s)) = w := by
  obtain ⟨c, r, h, h1, h2, h3⟩ := intStr_head n
  have e : w ++ ("lines ".toList ++ intStr n ++ s) = (w ++ ['l', 'i', 'n', 'e', 's']) ++ (' ' :: c :: (r ++ s)) := by
    rw [h, show "lines ".toList = ['l', 'i', 'n', 'e', 's', ' '] from rfl]
    simp
  rw [e]
  obtain ⟨k1, k2⟩ := span_word (w ++ ['l', 'i', 'n', 'e', 's']) (' ' :: c :: (r ++ s)) (by simp [hw]) (.inr rfl)
  unfold tagWord
  simp only [k1, k2]
  have hd : (' ' :: c :: (r ++ s)).dropWhile (· == ' ') = c :: (r ++ s) := (takeWhile_spaces 1 (c :: (r ++ s)) (fun h => h1 (Option.some.inj h))).2
  rw [hd]
  show (if c = 't' ∨ c = 'l' then _ else _) = _
  rw [if_neg (fun h => h.elim h2 h3), if_neg (by simp [startsWith]; exact fun h => h1 h.symm)]
  simp

theorem info_cases (e : Elem) : info e = [] ∨ (∃ n, info e = "line  ".toList ++ intStr n) ∨ ∃ n s, info e = "lines ".toList ++ intStr n ++ s := by
  unfold info
  split
  · split
    · exact .inr (.inl ⟨_, rfl⟩)
    · exact .inr (.inr ⟨_, _, List.append_assoc _ _ _⟩)
  · exact .inl rfl

/-- What comes after the tag. -/
theorem line_rest (level : Nat) (prev : Str) (e : Elem) : ∃ r, lineOf level e (shownInfo prev e) = spaces (4 * level) ++ ((tagOf e).getD [] ++ r) ∧
    ((r = [] ∨ ∃ n c r', r = ' ' :: (spaces n ++ c :: r') ∧ (c = 't' ∨ c = 'l')) ∨ r = info e) := by
  have a1 : " text=\"".toList = ' ' :: (spaces 0 ++ 't' :: "ext=\"".toList) := by decide
  have hs : shownInfo prev e = [] ∨ shownInfo prev e = info e := (shown_form prev e).imp And.right id
  unfold lineOf
  by_cases h1 : (interestingText e).length > 0
  · by_cases h2 : (shownInfo prev e).length > 0
    · refine ⟨(" text=\"".toList ++ interestingText e ++ "\"".toList) ++ (spaces (60 - (spaces (4 * level) ++ (tagOf e).getD [] ++
        (" text=\"".toList ++ interestingText e ++ "\"".toList)).length) ++ shownInfo prev e), ?_, .inl (.inr ?_)⟩
      · simp only [if_pos h1, if_pos h2]
        simp only [List.append_assoc]
      · rw [a1]
        exact ⟨0, 't', _, rfl, .inl rfl⟩
    · refine ⟨" text=\"".toList ++ interestingText e ++ "\"".toList, ?_, .inl (.inr ?_)⟩
      · simp only [if_pos h1, if_neg h2]
        simp only [List.append_assoc]
      · rw [a1]
        exact ⟨0, 't', _, rfl, .inl rfl⟩
  · by_cases h2 : (shownInfo prev e).length > 0
    · refine ⟨spaces (60 - (spaces (4 * level) ++ (tagOf e).getD []).length) ++ shownInfo prev e, ?_, ?_⟩
      · simp only [if_neg h1, if_pos h2]
        simp only [List.append_assoc]
      · have hi : shownInfo prev e = info e := by
          rcases hs with h | h
          · rw [h] at h2; exact absurd h2 (by decide)
          · exact h
        rw [hi] at h2 ⊢
        obtain ⟨r, hr⟩ := (info_form e).2 (List.ne_nil_of_length_pos h2)
        cases hk : 60 - (spaces (4 * level) ++ (tagOf e).getD []).length with
        | zero => exact .inr rfl
        | succ k => exact .inl (.inr ⟨k, 'l', r, by rw [hr]; rfl, .inr rfl⟩)
    · refine ⟨[], ?_, .inl (.inl rfl)⟩
      simp only [if_neg h1, if_neg h2]
      rw [List.append_nil]

theorem line_read (level : Nat) (prev : Str) (t : Str) (a : List (Str × Str)) (x : Option Str) (cs : List Elem)
    (hw : (cleanTag t).getD [] ≠ [] ∧ ' ' ∉ (cleanTag t).getD [] ∧ '\n' ∉ (cleanTag t).getD []) :
    readLine (lineOf level (.mk t a x cs) (shownInfo prev (.mk t a x cs))) = (level, (cleanTag t).getD []) := by
  obtain ⟨r, h1, h2⟩ := line_rest level prev (.mk t a x cs)
  have etag : (tagOf (.mk t a x cs)).getD [] = (cleanTag t).getD [] := rfl
  rw [etag] at h1
  rw [h1]
  generalize (cleanTag t).getD [] = w at *
  obtain ⟨hw1, hw2, _⟩ := hw
  have hh : (w ++ r).head? ≠ some ' ' := by
    cases w with
    | nil => exact absurd rfl hw1
    | cons c w =>
      intro e
      have e' : c = ' ' := Option.some.inj e
      exact hw2 (by rw [e']; exact .head _)
  obtain ⟨k1, k2⟩ := takeWhile_spaces (4 * level) (w ++ r) hh
  have hl : (spaces (4 * level)).length / 4 = level := by
    rw [show (spaces (4 * level)).length = 4 * level from List.length_replicate]
    omega
  have ht : tagWord (w ++ r) = w := by
    rcases h2 with h | h
    · exact tagWord_plain w r hw2 h
    · rcases info_cases (.mk t a x cs) with h' | ⟨n, h'⟩ | ⟨n, s, h'⟩
      · exact tagWord_plain w r hw2 (.inl (h.trans h'))
      · rw [h, h']; exact tagWord_line w n hw2
      · rw [h, h']; exact tagWord_lines w s n hw2
  unfold readLine
  rw [k1, k2, hl, ht]

theorem line_no_nl (level : Nat) (prev : Str) (t : Str) (a : List (Str × Str)) (x : Option Str) (cs : List Elem) (hw : '\n' ∉ (cleanTag t).getD []) :
    '\n' ∉ lineOf level (.mk t a x cs) (shownInfo prev (.mk t a x cs)) := by
  have hshown : '\n' ∉ shownInfo prev (.mk t a x cs) := by
    rcases shown_form prev (.mk t a x cs) with h | h
    · exact h.1
    · rw [h]; exact (info_form _).1
  obtain ⟨r, h1, _, h3⟩ := line_form level (.mk t a x cs) (shownInfo prev (.mk t a x cs))
  rw [h1]
  intro h
  rcases List.mem_append.1 h with h | h
  · exact absurd (List.eq_of_mem_replicate h) (by decide)
  · rcases List.mem_append.1 h with h | h
    · exact hw h
    · exact h3 hshown h

mutual
theorem readable_lines (level : Nat) : ∀ (e : Elem) (prev : Str), Words (skel e) → ∀ s : Str,
    (lines ((readable prev level e).1 ++ s)).map readLine = outline level (skel e) ++ (lines s).map readLine ∧
    (Narrow level (skel e) → (lines ((readable prev level e).1 ++ s)).map seen = outline level (skel e) ++ (lines s).map seen)
  | .mk t a x cs, prev, hw, s => by
    have k1 := line_no_nl level prev t a x cs hw.2.2.1
    have k2 := line_read level prev t a x cs ⟨hw.1, hw.2.1, hw.2.2.1⟩
    obtain ⟨k3, k4⟩ := readableList_lines (level + 1) cs (nextInfo prev (.mk t a x cs)) hw.2.2.2 s
    have e1 : (readable prev level (.mk t a x cs)).1 ++ s = lineOf level (.mk t a x cs) (shownInfo prev (.mk t a x cs)) ++ '\n' ::
        ((readableList (nextInfo prev (.mk t a x cs)) (level + 1) cs).1 ++ s) := by
      rw [readable]
      exact List.append_assoc _ _ _
    rw [e1, seen_lines_cons _ _ k1, List.map_cons, List.map_cons, k2, k3]
    refine ⟨rfl, fun hn => ?_⟩
    rw [(line_seen level prev t a x cs ⟨hw.1, hw.2.1, hw.2.2.1⟩ hn.1).2, k4 hn.2]
    rfl
theorem readableList_lines (level : Nat) : ∀ (es : List Elem) (prev : Str), WordsList (skelList es) → ∀ s : Str,
    (lines ((readableList prev level es).1 ++ s)).map readLine = outlineList level (skelList es) ++ (lines s).map readLine ∧
    (NarrowList level (skelList es) → (lines ((readableList prev level es).1 ++ s)).map seen = outlineList level (skelList es) ++ (lines s).map seen)
  | [], prev, _, s => ⟨rfl, fun _ => rfl⟩
  | e :: es, prev, hw, s => by
    have e1 : (readableList prev level (e :: es)).1 ++ s = (readable prev level e).1 ++ ((readableList (readable prev level e).2 level es).1 ++ s) := by
      rw [readableList]
      exact List.append_assoc _ _ _
    obtain ⟨k1, k2⟩ := readable_lines level e prev hw.1 ((readableList (readable prev level e).2 level es).1 ++ s)
    obtain ⟨k3, k4⟩ := readableList_lines level es (readable prev level e).2 hw.2 s
    rw [e1, k1, k3]
    refine ⟨(List.append_assoc _ _ _).symm, fun hn => ?_⟩
    rw [k2 hn.1, k4 hn.2]
    exact (List.append_assoc _ _ _).symm
end

/-- C114, the full statement for the lines: the readable text has one line for each element, in the order of the code, with its depth and its tag as first word. -/
def C114_outline_statement : Prop := ∀ (e : Elem) (prev : Str), Words (skel e) → (lines (readable prev 0 e).1).map seen = outline 0 (skel e) ++ [(0, [])]

/-- C114: it fails for an element that is deep (15 levels): there is no space between its tag and its place. -/
theorem C114_outline_fails : ¬ C114_outline_statement := by
  intro h
  have := h (.mk (List.replicate 60 'a') [("start".toList, "1:1".toList), ("end".toList, "1:2".toList)] none []) [] (by
    have hc : cleanTag (List.replicate 60 'a') = some (List.replicate 60 'a') := by decide +kernel
    simp only [skel, skelList, Words, WordsList, hc]
    decide)
  revert this
  have hc : cleanTag (List.replicate 60 'a') = some (List.replicate 60 'a') := by decide +kernel
  simp only [skel, skelList, outline, outlineList, hc]
  decide +kernel

/-- C114: it holds when the tags are not so deep or so long. -/
theorem C114_outline_partial (e : Elem) (prev : Str) (hw : Words (skel e)) (hn : Narrow 0 (skel e)) :
    (lines (readable prev 0 e).1).map seen = outline 0 (skel e) ++ [(0, [])] := by
  have h := (readable_lines 0 e prev hw []).2 hn
  rw [List.append_nil] at h
  rw [h]
  rfl

mutual
theorem outline_inj (level : Nat) : ∀ (s s' : Skel) (r r' : List (Nat × Str)), (∀ p ∈ r.head?, p.1 ≤ level) → (∀ p ∈ r'.head?, p.1 ≤ level) →
    outline level s ++ r = outline level s' ++ r' → s = s' ∧ r = r'
  | .node t cs, .node t' cs', r, r', hr, hr', h => by
    have h1 : (level, t) = (level, t') ∧ outlineList (level + 1) cs ++ r = outlineList (level + 1) cs' ++ r' := List.cons.inj h
    obtain ⟨k1, k2⟩ := outlineList_inj (level + 1) cs cs' r r' (fun p hp => by have := hr p hp; omega) (fun p hp => by have := hr' p hp; omega) h1.2
    have ht : t = t' := (Prod.mk.inj h1.1).2
    exact ⟨by rw [ht, k1], k2⟩
theorem outlineList_inj (level : Nat) : ∀ (ss ss' : List Skel) (r r' : List (Nat × Str)), (∀ p ∈ r.head?, p.1 < level) → (∀ p ∈ r'.head?, p.1 < level) →
    outlineList level ss ++ r = outlineList level ss' ++ r' → ss = ss' ∧ r = r'
  | [], [], r, r', _, _, h => ⟨rfl, h⟩
  | [], .node t' cs' :: ss', r, r', hr, _, h => by
    exfalso
    have h' : r = (level, t') :: (outlineList (level + 1) cs' ++ outlineList level ss' ++ r') := by
      rw [show r = outlineList level [] ++ r from rfl, h]
      show ((level, t') :: outlineList (level + 1) cs' ++ outlineList level ss') ++ r' = _
      simp
    have := hr (level, t') (by rw [h']; rfl)
    exact absurd this (Nat.lt_irrefl _)
  | .node t cs :: ss, [], r, r', _, hr', h => by
    exfalso
    have h' : r' = (level, t) :: (outlineList (level + 1) cs ++ outlineList level ss ++ r) := by
      rw [show r' = outlineList level [] ++ r' from rfl, ← h]
      show ((level, t) :: outlineList (level + 1) cs ++ outlineList level ss) ++ r = _
      simp
    have := hr' (level, t) (by rw [h']; rfl)
    exact absurd this (Nat.lt_irrefl _)
  | s :: ss, s' :: ss', r, r', hr, hr', h => by
    have h1 : outline level s ++ (outlineList level ss ++ r) = outline level s' ++ (outlineList level ss' ++ r') := by
      rw [← List.append_assoc, ← List.append_assoc]
      exact h
    have hd : ∀ (q : List Skel) (x : List (Nat × Str)), (∀ p ∈ x.head?, p.1 < level) → ∀ p ∈ (outlineList level q ++ x).head?, p.1 ≤ level := by
      intro q x hx p hp
      match q with
      | [] => exact Nat.le_of_lt (hx p hp)
      | .node t cs :: q =>
        have : some (level, t) = some p := hp
        rw [← Option.some.inj this]
        exact Nat.le_refl level
    obtain ⟨k1, k2⟩ := outline_inj level s s' _ _ (hd ss r hr) (hd ss' r' hr') h1
    obtain ⟨k3, k4⟩ := outlineList_inj level ss ss' r r' hr hr' k2
    exact ⟨by rw [k1, k3], k4⟩
end

/-- C114: the tree of the tags can be found from the readable text, at any depth: two elements with the same text have the same tree of tags. -/
theorem C114_tree (e e' : Elem) (prev prev' : Str) (hw : Words (skel e)) (hw' : Words (skel e'))
    (h : (readable prev 0 e).1 = (readable prev' 0 e').1) : skel e = skel e' := by
  have h1 := (readable_lines 0 e prev hw []).1
  have h2 := (readable_lines 0 e' prev' hw' []).1
  rw [List.append_nil] at h1 h2
  rw [h, h2] at h1
  exact ((outline_inj 0 _ _ _ _ (by simp [lines, splitOn, readLine]) (by simp [lines, splitOn, readLine]) h1).1).symm

/-- The elements of the examples. -/
def word (s : Str) : Elem := .mk ("{http://www.srcML.org/srcML/src}".toList ++ s) [] (some s) []

def fn : Elem := .mk "{http://www.srcML.org/srcML/src}function".toList
  [("{http://www.srcML.org/srcML/position}start".toList, "1:1".toList), ("{http://www.srcML.org/srcML/position}end".toList, "2:3".toList)] none
  [.mk "{http://www.srcML.org/srcML/src}type".toList [] none [word "name".toList], word "block".toList]

example : Words (skel fn) ∧ Narrow 0 (skel fn) := by
  have h : skel fn = .node "function".toList [.node "type".toList [.node "name".toList []], .node "block".toList []] := by
    simp only [skel, skelList, fn, word]
    have h1 : cleanTag "{http://www.srcML.org/srcML/src}function".toList = some "function".toList := by decide +kernel
    have h2 : cleanTag "{http://www.srcML.org/srcML/src}type".toList = some "type".toList := by decide +kernel
    have h3 : cleanTag ("{http://www.srcML.org/srcML/src}".toList ++ "name".toList) = some "name".toList := by decide +kernel
    have h4 : cleanTag ("{http://www.srcML.org/srcML/src}".toList ++ "block".toList) = some "block".toList := by decide +kernel
    rw [h1, h2, h3, h4]
    rfl
  rw [h]
  simp only [Words, WordsList, Narrow, NarrowList]
  decide

example : (readable [] 0 fn).1 = ("function                                                    lines 1-2\n    type\n        name text=\"name\"\n" ++
    "    block text=\"block\"\n").toList := by decide +kernel

/-- C114, the full statement for the calls: the text of an element is always the same. -/
def C114_stable_statement : Prop := ∀ (e : Elem) (prev prev' : Str), (readable prev 0 e).1 = (readable prev' 0 e).1

/-- C114: it fails: the second time, the place of an element is left out when it was the last one that was shown. -/
theorem C114_stable_fails : ¬ C114_stable_statement ∧ (readable (readable [] 0 fn).2 0 fn).1 ≠ (readable [] 0 fn).1 := by
  have h : (readable (readable [] 0 fn).2 0 fn).1 ≠ (readable [] 0 fn).1 := by decide +kernel
  exact ⟨fun hs => h (hs fn _ _), h⟩

mutual
/-- The first place in an element, in the order of the code. -/
def firstInfo : Elem → Str
  | .mk t a x cs => if info (.mk t a x cs) ≠ [] then info (.mk t a x cs) else firstInfoList cs
def firstInfoList : List Elem → Str
  | [] => []
  | e :: es => if firstInfo e ≠ [] then firstInfo e else firstInfoList es
end

mutual
theorem stable : ∀ (e : Elem) (level : Nat) (p q : Str), (firstInfo e ≠ [] → firstInfo e ≠ p ∧ firstInfo e ≠ q) →
    (readable p level e).1 = (readable q level e).1 ∧ (if firstInfo e ≠ [] then (readable p level e).2 = (readable q level e).2
      else (readable p level e).2 = p ∧ (readable q level e).2 = q)
  | .mk t a x cs, level, p, q, h => by
    by_cases hi : info (.mk t a x cs) = []
    · have hf : firstInfo (.mk t a x cs) = firstInfoList cs := by
        rw [firstInfo, if_neg (fun h => h hi)]
      rw [hf] at h ⊢
      have hsp : ∀ r : Str, shownInfo r (.mk t a x cs) = [] := by
        intro r
        unfold shownInfo
        rw [hi]
        exact ite_self _
      have hnx : ∀ r : Str, nextInfo r (.mk t a x cs) = r := fun r => if_pos hi
      obtain ⟨k1, k2⟩ := stableList cs (level + 1) p q h
      have e1 : ∀ r, readable r level (.mk t a x cs) = (lineOf level (.mk t a x cs) [] ++ '\n' :: (readableList r (level + 1) cs).1, (readableList r (level + 1) cs).2) := by
        intro r
        rw [readable, hsp, hnx]
      rw [e1, e1]
      refine ⟨by rw [k1], k2⟩
    · have hf : firstInfo (.mk t a x cs) = info (.mk t a x cs) := by
        rw [firstInfo, if_pos hi]
      rw [hf] at h ⊢
      obtain ⟨h1, h2⟩ := h hi
      have e1 : ∀ r, info (.mk t a x cs) ≠ r → readable r level (.mk t a x cs) = readable [] level (.mk t a x cs) := by
        intro r hr
        have s1 : shownInfo r (.mk t a x cs) = info (.mk t a x cs) := if_pos hr
        have s2 : shownInfo [] (.mk t a x cs) = info (.mk t a x cs) := if_pos hi
        have n1 : nextInfo r (.mk t a x cs) = info (.mk t a x cs) := if_neg hi
        have n2 : nextInfo [] (.mk t a x cs) = info (.mk t a x cs) := if_neg hi
        rw [readable, readable, s1, s2, n1, n2]
      rw [if_pos hi, e1 p h1, e1 q h2]
      exact ⟨rfl, rfl⟩
theorem stableList : ∀ (es : List Elem) (level : Nat) (p q : Str), (firstInfoList es ≠ [] → firstInfoList es ≠ p ∧ firstInfoList es ≠ q) →
    (readableList p level es).1 = (readableList q level es).1 ∧ (if firstInfoList es ≠ [] then (readableList p level es).2 = (readableList q level es).2
      else (readableList p level es).2 = p ∧ (readableList q level es).2 = q)
  | [], level, p, q, _ => ⟨rfl, by rw [if_neg (fun h => h rfl)]; exact ⟨rfl, rfl⟩⟩
  | e :: es, level, p, q, h => by
    have e1 : ∀ r, readableList r level (e :: es) = ((readable r level e).1 ++ (readableList (readable r level e).2 level es).1,
        (readableList (readable r level e).2 level es).2) := fun r => rfl
    rw [e1, e1]
    by_cases hi : firstInfo e = []
    · have hf : firstInfoList (e :: es) = firstInfoList es := by rw [firstInfoList, if_neg (fun h => h hi)]
      rw [hf] at h ⊢
      obtain ⟨k1, k2⟩ := stable e level p q (fun h' => absurd hi h')
      rw [if_neg (fun h => h hi)] at k2
      rw [k1, k2.1, k2.2]
      obtain ⟨k3, k4⟩ := stableList es level p q h
      exact ⟨by rw [k3], k4⟩
    · have hf : firstInfoList (e :: es) = firstInfo e := by rw [firstInfoList, if_pos hi]
      rw [hf] at h ⊢
      obtain ⟨k1, k2⟩ := stable e level p q h
      rw [if_pos hi] at k2
      rw [k1, k2, if_pos hi]
      exact ⟨rfl, rfl⟩
end

/-- C114: the text is the same when the first place in the element is not the last one that was shown before. -/
theorem C114_stable_partial (e : Elem) (prev prev' : Str) (h : firstInfo e ≠ prev ∧ firstInfo e ≠ prev') :
    (readable prev 0 e).1 = (readable prev' 0 e).1 := (stable e 0 prev prev' (fun _ => h)).1

example : firstInfo fn ≠ [] ∧ firstInfo fn ≠ "line  1".toList := by decide +kernel

end Verif.Xml.Props
