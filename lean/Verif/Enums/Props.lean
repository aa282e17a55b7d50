import Verif.Enums.Lemmas

/-! C52: the binding of enumerations. -/

namespace Verif.Enums.Props
open Verif.Py Verif.Name Verif.Enums.Spec Verif.Keyword.Spec

/-! ### The members that are left out -/

theorem strip_identifier {s : Str} (h : Identifier s) : strip s = s ∧ ' ' ∉ s := by
  have hsp : ∀ c ∈ s, isSpace c = false := by
    intro c hc
    have h1 := h.2 c hc
    refine Bool.eq_false_iff.2 fun hs => ?_
    have : c.toNat < 48 ∨ c.toNat = 133 ∨ 128 ≤ c.toNat := by
      unfold isSpace at hs
      simp at hs
      omega
    have h2 : 48 ≤ c.toNat ∧ c.toNat ≤ 122 := by
      unfold Letter Digit at h1
      simp only [Char.le_def, UInt32.le_iff_toNat_le] at h1
      have e0 : ('0' : Char).val.toNat = 48 := rfl
      have e1 : ('9' : Char).val.toNat = 57 := rfl
      have e2 : ('a' : Char).val.toNat = 97 := rfl
      have e3 : ('z' : Char).val.toNat = 122 := rfl
      have e4 : ('A' : Char).val.toNat = 65 := rfl
      have e5 : ('Z' : Char).val.toNat = 90 := rfl
      have e6 : c.toNat = c.val.toNat := rfl
      rw [e0, e1, e2, e3, e4, e5] at h1
      rcases h1 with (h | h | h) | h
      · omega
      · omega
      · rw [h]; decide
      · omega
    omega
  refine ⟨?_, fun h => absurd (hsp _ h) (by decide)⟩
  obtain ⟨⟨c, r, e, _⟩, _⟩ := h
  unfold strip
  have hl : lstrip s = s := by
    rw [e]; unfold lstrip; rw [List.dropWhile_cons_of_neg]; rw [hsp c (by rw [e]; simp)]; simp
  rw [hl]
  apply rstrip_of_last
  intro c hc
  exact hsp c (List.mem_of_getLast? hc)

theorem lower_lower (s : Str) : lower (lower s) = lower s := by
  unfold lower
  rw [List.map_map]
  apply List.map_congr_left
  intro c _
  exact lowC_of_not_up (isUp_lowC c)

/-- C52. Which members are left out: exactly those taken for the number of members. -/
theorem C52_count (o : Options) (e : EnumDecl) (value : Str) (h : Identifier value) :
    isCount o e value = true ↔ Counts o e value := by
  have hs : toSnakeCase (lower value) = lower value := by
    apply Name.C07_snake_unchanged
    intro c hc
    obtain ⟨x, _, rfl⟩ := List.mem_map.1 hc
    intro hu
    have := (isUp_iff _).2 hu
    rw [isUp_lowC] at this
    exact Bool.noConfusion this
  obtain ⟨h1, h2⟩ := strip_identifier (Keyword.lower_identifier h)
  have hc : contains (lower value) [' '] = false := by
    refine Bool.eq_false_iff.2 fun hx => h2 ?_
    obtain ⟨a, b, e⟩ := (contains_iff _ _).1 hx
    rw [e]; simp
  unfold isCount Counts varNameContainsWord
  simp only
  rw [hs, h1, hc, lower_lower]
  cases o.skipCount <;> cases o.isSize value <;> cases e.isClass <;> simp

/-- The member `<enum>_COUNT` of a C enumeration is left out when its name looks like a size. -/
def C52_count_skipped_statement : Prop := ∀ (o : Options) (e : EnumDecl) (suffix : Str), Identifier e.name → Identifier suffix →
  o.skipCount = true → o.isSize (e.name ++ "_".toList ++ suffix) = true → isCount o e (e.name ++ "_".toList ++ suffix) = true

def names : Keyword.Options :=
  { sub := fun what by_ s => if s = what then by_ else s
    types := [], functions := [], vars := [], namespaces := [], snake := true, removePrefix := true, groupPrivate := false }

theorem apply_nil (sub : Repl.Engine) (s : Str) : Repl.apply sub [] s = s := by simp [Repl.apply, Repl.applyLoop, Repl.pass]

def options : Options := ⟨names, true, fun s => endsWith (lower s) "count".toList, fun _ => true, fun _ => false, false, true, spaces 4⟩

/-- C52. It fails for an enumeration whose name contains an underscore: one word cannot be equal to the whole name (`Col_` with
`Col__COUNT`, or `my_enum` with `my_enum_COUNT`). -/
theorem C52_count_skipped_fails : ¬ C52_count_skipped_statement := by
  intro h
  have := h options ⟨"my_enum".toList, false, [], "m".toList, [], [], []⟩ "COUNT".toList
    (by refine ⟨⟨'m', "y_enum".toList, rfl, by unfold Letter; decide⟩, ?_⟩; unfold Letter Digit; decide)
    (by refine ⟨⟨'C', "OUNT".toList, rfl, by unfold Letter; decide⟩, ?_⟩; unfold Letter Digit; decide) rfl (by decide +kernel)
  exact absurd this (by decide +kernel)

theorem lower_append (a b : Str) : lower (a ++ b) = lower a ++ lower b := List.map_append

theorem lower_no_underscore {s : Str} (h : '_' ∉ s) : '_' ∉ lower s := by
  intro hm
  obtain ⟨c, hc, e⟩ := List.mem_map.1 hm
  exact h (lowC_eq_underscore.1 e ▸ hc)

theorem identifier_append {a b : Str} (ha : Identifier a) (hb : Identifier b) : Identifier (a ++ "_".toList ++ b) := by
  obtain ⟨⟨c, r, rfl, hc⟩, h⟩ := ha
  refine ⟨⟨c, r ++ "_".toList ++ b, rfl, hc⟩, ?_⟩
  intro x hx
  rcases List.mem_append.1 hx with hx | hx
  · rcases List.mem_append.1 hx with hx | hx
    · exact h x hx
    · left; right; right
      simpa [show "_".toList = ['_'] from rfl] using hx
  · exact hb.2 x hx

/-- C52. It holds when the name of the enumeration has no underscore. Missing: the other names (see `C52_count_skipped_fails`). -/
theorem C52_count_skipped_partial (o : Options) (e : EnumDecl) (suffix : Str) (h1 : Identifier e.name) (h2 : Identifier suffix)
    (hu : '_' ∉ e.name) (hs : o.skipCount = true) (hz : o.isSize (e.name ++ "_".toList ++ suffix) = true) :
    isCount o e (e.name ++ "_".toList ++ suffix) = true := by
  rw [C52_count o e _ (identifier_append h1 h2)]
  refine ⟨hs, hz, .inr ?_⟩
  rw [lower_append, lower_append, List.append_assoc]
  have : lower "_".toList ++ lower suffix = '_' :: lower suffix := by
    rw [show lower "_".toList = ['_'] by decide +kernel]; rfl
  rw [this, splitOn_append_sep (lower_no_underscore hu)]
  simp

example : isCount options ⟨"Color".toList, false, [], "m".toList, [], [], []⟩ "Color_COUNT".toList = true ∧
    isCount options ⟨"Color".toList, false, [], "m".toList, [], [], []⟩ "Other_COUNT".toList = false ∧
    isCount options ⟨"Color".toList, true, [], "m".toList, [], [], []⟩ "AccountCount".toList = true := by decide +kernel

/-! ### The bound values -/

theorem decorated_eq (e : EnumDecl) (m : Member) (hn : Identifier e.name) (hs : ∀ s ∈ e.scope, Identifier s) :
    decorated e m = valueName e m.name := by
  have key : ∀ l : List Str, (∀ s ∈ l, Identifier s) →
      (if (join "::".toList l).length > 0 then join "::".toList l ++ "::".toList ++ m.name else m.name) = join "::".toList (l ++ [m.name]) := by
    intro l hl
    cases l with
    | nil => rfl
    | cons a l =>
      have : (join "::".toList (a :: l)).length > 0 := by
        obtain ⟨⟨c, r, e, _⟩, _⟩ := hl a (by simp)
        cases l with
        | nil => rw [e]; simp [join]
        | cons b l => rw [join_cons_cons, e]; simp
      rw [if_pos this]
      clear this hl
      induction l generalizing a with
      | nil => rfl
      | cons b l ih => rw [join_cons_cons, List.cons_append, List.cons_append, join_cons_cons, ← List.cons_append, ← ih b]; simp only [List.append_assoc]
  unfold decorated scopeStr valueName
  simp only
  cases e.isClass with
  | true =>
    refine key (e.scope ++ [e.name]) ?_
    intro s h
    rcases List.mem_append.1 h with h | h
    · exact hs s h
    · rw [List.mem_singleton.1 h]; exact hn
  | false =>
    have := key e.scope hs
    simpa using this

theorem entry_nl {en : Entry} (hp : Plain en.python) (hc : Plain en.cpp) (hm : Escape.Spec.LiteralBody en.comment) : '\n' ∉ en.line := by
  obtain ⟨es, hes, e⟩ := hm
  have hb : '\n' ∉ en.comment := by
    rw [e]
    clear e
    induction es with
    | nil => simp [Escape.Spec.text]
    | cons x es ih =>
      intro h
      rw [Escape.Spec.text, List.flatMap_cons] at h
      rcases List.mem_append.1 h with h | h
      · have := hes x (by simp)
        cases x with
        | ordinary c => exact this.2.2 (by simpa [Escape.Spec.Elem.text, eq_comm] using h)
        | escape c =>
          have h' : '\n' = '\\' ∨ '\n' = c := by simpa [Escape.Spec.Elem.text] using h
          rcases h' with h' | h'
          · exact absurd h' (by decide)
          · exact this h'.symm
      · exact ih (fun x hx => hes x (List.mem_cons_of_mem _ hx)) h
  have f : ∀ {s : Str}, Plain s → '\n' ∉ s := fun h hx => (h _ hx).2.2.2 rfl
  unfold Entry.line
  simp only [List.mem_append, not_or]
  exact ⟨⟨⟨⟨⟨⟨by decide, f hp⟩, by decide⟩, f hc⟩, by decide⟩, hb⟩, by decide⟩

theorem entry_last (a : Str) (en : Entry) : (a ++ en.line).getLast? = some ')' := by
  unfold Entry.line
  rw [← List.append_assoc]
  rw [List.getLast?_append_of_ne_nil _ (by decide)]
  rfl

theorem indentLine_of_last {s l : Str} (hne : l ≠ []) (h : ∀ c ∈ l.getLast?, isSpace c = false) : Indent.indentLine s true l = s ++ l := by
  unfold Indent.indentLine
  rw [if_neg (by simpa using hne), if_pos rfl, rstrip_of_last h]

theorem entry_ne (a : Str) (en : Entry) : a ++ en.line ≠ [] := by
  intro h
  have := entry_last a en
  rw [h] at this
  exact absurd this (by simp)

theorem indent_entry (s a : Str) (en : Entry) : Indent.indentLine s true (a ++ en.line) = s ++ (a ++ en.line) :=
  indentLine_of_last (entry_ne a en) (by rw [entry_last]; intro c hc; rw [← Option.some.inj hc]; decide)

/-- Each kept member has its entry. -/
theorem entries (o : Options) (e : EnumDecl) (h : WellFormed o e) (ms : List Member) (hm : ∀ m ∈ ms, m ∈ e.members) :
    ∃ es : List Entry, List.Forall₂ (Binds o e) ms es ∧ ms.mapM (memberLine o e) = some (es.map Entry.line) ∧
      ∀ en ∈ es, Plain en.python ∧ Plain en.cpp ∧ Escape.Spec.LiteralBody en.comment ∧ Identifier en.python ∧ ¬ Reserved en.python := by
  induction ms with
  | nil => exact ⟨[], .nil, rfl, by simp⟩
  | cons m ms ih =>
    obtain ⟨es, h1, h2, h3⟩ := ih (fun x hx => hm x (List.mem_cons_of_mem _ hx))
    have hmem := h.members m (hm m (by simp))
    obtain ⟨py, hpy, hid, hre⟩ := Keyword.Props.C39_member o.names e.isClass e.name m.name hmem.1 h.vars h.reserved
    refine ⟨⟨py, valueName e m.name, m.comment⟩ :: es, .cons ⟨hpy, rfl, rfl⟩ h1, ?_, ?_⟩
    · rw [List.mapM_cons]
      have : memberLine o e m = some (Entry.mk py (valueName e m.name) m.comment).line := by
        unfold memberLine
        rw [hpy, Option.map_some, decorated_eq e m h.name h.scope]
        rfl
      rw [this]
      show (ms.mapM (memberLine o e)).bind _ = _
      rw [h2]
      rfl
    · intro en hen
      rcases List.mem_cons.1 hen with rfl | hen
      · refine ⟨plain_identifier hid, ?_, hmem.2, hid, hre⟩
        apply plain_join
        intro s hs
        simp only [List.mem_append, List.mem_singleton] at hs
        rcases hs with (hs | hs) | rfl
        · exact h.scope s hs
        · split at hs
          · rw [List.mem_singleton.1 hs]; exact h.name
          · simp at hs
        · exact hmem.1
      · exact h3 en hen

/-- The first lines of the binding. -/
def title (o : Options) (e : EnumDecl) : List Str :=
  ["auto pyEnum".toList ++ Keyword.enumName o.names e.name ++ " =".toList,
   o.indent ++ (if o.pybind then "py".toList else "nb".toList) ++ "::enum_<".toList ++ join "::".toList (e.scope ++ [e.name]) ++ ">(".toList ++
     e.parentVar ++ ", \"".toList ++ Keyword.enumName o.names e.name ++ "\", ".toList ++
     (if o.pybind then "py::arithmetic()".toList
      else if o.flag (join "::".toList (e.scope ++ [e.name])) then "nb::is_arithmetic(), nb::is_flag()".toList else "nb::is_arithmetic()".toList) ++
     ", \"".toList ++ e.comment ++ "\")".toList ++ e.location]

/-- The bound values and the end of the statement. -/
def ending (o : Options) (es : List Entry) : List Str :=
  if o.exportValues then
    (if es = [] then [[]] else es.map (fun en => o.indent ++ (o.indent ++ en.line))) ++ [o.indent ++ ".export_values();".toList]
  else match es.getLast? with
    | none => [o.indent ++ ";".toList]
    | some last => es.dropLast.map (fun en => o.indent ++ (o.indent ++ en.line)) ++ [o.indent ++ (o.indent ++ (last.line ++ ";".toList))]

theorem literal_nl {s : Str} (hm : Escape.Spec.LiteralBody s) : '\n' ∉ s := by
  have h := entry_nl (en := ⟨[], [], s⟩) (fun c hc => by simp at hc) (fun c hc => by simp at hc) hm
  unfold Entry.line at h
  simp only [List.mem_append, not_or] at h
  exact h.1.2

theorem plain_indent {s : Str} (h : ∀ c ∈ s, c = ' ') : Plain s := by
  intro c hc; rw [h c hc]; decide

/-- The titles of the model, indented. -/
theorem title_eq (o : Options) (e : EnumDecl) (h : WellFormed o e) (annot : Str) (ha : annotation o (scopeStr e true) = some annot) :
    ∃ t1 t2, titleLines o e annot = [t1, t2] ∧ '\n' ∉ t1 ∧ '\n' ∉ t2 ∧ [rstrip t1, Indent.indentLine o.indent true t2] = title o e := by
  have han : annot = ", ".toList ++ (if o.pybind then "py::arithmetic()".toList
      else if o.flag (join "::".toList (e.scope ++ [e.name])) then "nb::is_arithmetic(), nb::is_flag()".toList else "nb::is_arithmetic()".toList) := by
    unfold annotation at ha
    split at ha
    · cases hp : o.pybind with
      | true => rw [hp, if_pos rfl] at ha; rw [if_pos rfl, ← Option.some.inj ha]; decide +kernel
      | false =>
        rw [hp, if_neg (by simp)] at ha
        rw [if_neg (by simp)]
        have hsc : scopeStr e true = join "::".toList (e.scope ++ [e.name]) := rfl
        rw [hsc] at ha
        split at ha
        · rename_i hf; rw [if_pos hf, ← Option.some.inj ha]; decide +kernel
        · rename_i hf; rw [if_neg hf, ← Option.some.inj ha]; decide +kernel
    · exact absurd ha (by simp)
  have hannl : '\n' ∉ annot := by
    rw [han]
    intro hx
    rcases List.mem_append.1 hx with hx | hx
    · revert hx; decide
    · revert hx
      split
      · decide
      · split <;> decide
  have hj : '\n' ∉ join "::".toList (e.scope ++ [e.name]) := by
    have : Plain (join "::".toList (e.scope ++ [e.name])) := by
      apply plain_join
      intro s hs
      rcases List.mem_append.1 hs with hs | hs
      · exact h.scope s hs
      · rw [List.mem_singleton.1 hs]; exact h.name
    exact fun hx => (this _ hx).2.2.2 rfl
  refine ⟨_, _, rfl, ?_, ?_, ?_⟩
  · simp only [List.mem_append, not_or]
    exact ⟨⟨by decide, h.python⟩, by decide⟩
  · simp only [List.mem_append, not_or]
    refine ⟨⟨⟨⟨⟨⟨⟨⟨⟨⟨⟨⟨?_, by decide⟩, hj⟩, by decide⟩, h.parent⟩, by decide⟩, h.python⟩, by decide⟩, hannl⟩, by decide⟩, literal_nl h.comment⟩, by decide⟩, h.location.1⟩
    split <;> decide
  · unfold title
    have r1 : rstrip ("auto pyEnum".toList ++ Keyword.enumName o.names e.name ++ " = ".toList) =
        "auto pyEnum".toList ++ Keyword.enumName o.names e.name ++ " =".toList := by
      rw [show " = ".toList = " =".toList ++ [' '] from rfl, ← List.append_assoc, rstrip_append_of_all (by decide)]
      apply rstrip_of_last
      rw [List.getLast?_append_of_ne_nil _ (by decide)]
      decide
    rw [r1, indentLine_of_last]
    · rw [han, show scopeStr e true = join "::".toList (e.scope ++ [e.name]) from rfl]
      rw [show "\", ".toList = "\"".toList ++ ", ".toList from rfl]
      simp only [List.append_assoc]
    · intro hx
      have := congrArg List.length hx
      simp only [List.length_append, List.length_nil, show "::enum_<".toList.length = 8 from rfl] at this
      omega
    · by_cases hl : e.location = []
      · rw [hl, List.append_nil, List.getLast?_append_of_ne_nil _ (by decide)]
        decide
      · rw [List.getLast?_append_of_ne_nil _ hl]
        exact h.location.2

/-- C52. The binding of an enumeration, line by line: each member that is not the number of members is bound exactly once, in order, under
its Python name (which is an identifier and no reserved word), to the C++ value of that name; the statement is closed by one semicolon. -/
theorem C52_pydef (o : Options) (e : EnumDecl) (h : WellFormed o e) (ha : o.arithmetic (join "::".toList (e.scope ++ [e.name])) = true) :
    ∃ es : List Entry, List.Forall₂ (Binds o e) (e.members.filter (fun m => ¬ Counts o e m.name)) es ∧
      (∀ en ∈ es, Identifier en.python ∧ ¬ Reserved en.python) ∧
      pydefLines o e = some (title o e ++ ending o es) := by
  have hk : kept o e = e.members.filter (fun m => ¬ Counts o e m.name) := by
    unfold kept
    apply List.filter_congr
    intro m hm
    have := C52_count o e m.name (h.members m hm).1
    by_cases hc : Counts o e m.name
    · rw [this.2 hc]; simp [hc]
    · rw [Bool.eq_false_iff.2 fun hx => hc (this.1 hx)]; simp [hc]
  obtain ⟨es, h1, h2, h3⟩ := entries o e h (kept o e) (fun m hm => (List.mem_filter.1 hm).1)
  refine ⟨es, hk ▸ h1, fun en hen => (h3 en hen).2.2.2, ?_⟩
  have hann : ∃ annot, annotation o (scopeStr e true) = some annot := by
    unfold annotation
    rw [show scopeStr e true = join "::".toList (e.scope ++ [e.name]) from rfl, if_pos ha]
    split
    · exact ⟨_, rfl⟩
    · split <;> exact ⟨_, rfl⟩
  obtain ⟨annot, hann⟩ := hann
  obtain ⟨t1, t2, e1, n1, n2, e2⟩ := title_eq o e h annot hann
  have hi := plain_indent h.indent
  have hinl : '\n' ∉ o.indent := fun hx => (hi _ hx).2.2.2 rfl
  have hnl : ∀ en ∈ es, '\n' ∉ en.line := fun en hen => entry_nl (h3 en hen).1 (h3 en hen).2.1 (h3 en hen).2.2.1
  unfold pydefLines
  rw [hann, h2]
  simp only
  rw [e1]
  rw [← e2]
  have hchildren : Indent.indentCodeLines (es.map Entry.line) 1 false (some o.indent) =
      if es = [] then [[]] else es.map (fun en => o.indent ++ en.line) := by
    by_cases hes : es = []
    · rw [hes, if_pos rfl]; exact indentLines_nil _ hinl
    · rw [if_neg hes, indentLines _ _ hinl (by simpa using hes) (by simpa using hnl), List.map_map]
      apply List.map_congr_left
      intro en _
      exact indent_entry o.indent [] en
  rw [hchildren]
  have hmap : ∀ l : List Entry, (l.map (fun en => o.indent ++ en.line)).map (Indent.indentLine o.indent true) =
      l.map (fun en => o.indent ++ (o.indent ++ en.line)) := by
    intro l
    rw [List.map_map]
    apply List.map_congr_left
    intro en _
    exact indent_entry o.indent o.indent en
  have hnl2 : ∀ l ∈ es.map (fun en => o.indent ++ en.line), '\n' ∉ l := by
    intro l hl
    obtain ⟨en, hen, rfl⟩ := List.mem_map.1 hl
    exact fun hx => (List.mem_append.1 hx).elim hinl (hnl en hen)
  unfold ending
  by_cases hx : o.exportValues = true
  · rw [if_pos hx, if_pos hx]
    have he : ∀ body : List Str, endStatement ([t1, t2] ++ body ++ [".export_values()".toList]) = t1 :: t2 :: (body ++ [".export_values();".toList]) := by
      intro body
      unfold endStatement
      rw [List.getLast?_append_of_ne_nil _ (by simp)]
      simp only [List.getLast?_singleton, List.dropLast_concat]
      rw [show Comment.addItemBeforeCppComment ".export_values()".toList ";".toList = ".export_values();".toList by decide +kernel]
      rfl
    rw [he, indentLines_skip _ _ _ hinl (by simp)]
    · rw [List.map_cons, List.map_append, List.map_singleton]
      have hexp : Indent.indentLine o.indent true ".export_values();".toList = o.indent ++ ".export_values();".toList :=
        indentLine_of_last (by decide) (by decide)
      rw [hexp]
      by_cases hes : es = []
      · rw [if_pos hes, if_pos hes]; rfl
      · rw [if_neg hes, if_neg hes, hmap]; rfl
    · intro l hl
      rcases List.mem_cons.1 hl with rfl | hl
      · exact n1
      · rcases List.mem_cons.1 hl with rfl | hl
        · exact n2
        · rcases List.mem_append.1 hl with hl | hl
          · split at hl
            · rw [List.mem_singleton.1 hl]; simp
            · exact hnl2 l hl
          · rw [List.mem_singleton.1 hl]; decide
  · rw [if_neg hx, if_neg hx, List.append_nil]
    rcases List.eq_nil_or_concat es with rfl | ⟨init, last, rfl⟩
    · rw [if_pos rfl]
      show some (Indent.indentCodeLines (endStatement [t1, t2, []]) 1 true (some o.indent)) = some ([_, _] ++ [o.indent ++ ";".toList])
      rw [show endStatement [t1, t2, []] = [t1, t2, ";".toList] from rfl]
      rw [indentLines_skip _ _ _ hinl (by simp)]
      · rw [List.map_cons, List.map_singleton, indentLine_of_last (l := ";".toList) (by decide) (by decide)]; rfl
      · intro l hl
        simp only [List.mem_cons, List.not_mem_nil, or_false] at hl
        rcases hl with rfl | rfl | rfl
        · exact n1
        · exact n2
        · decide
    · rw [List.concat_eq_append] at *
      rw [if_neg (by simp)]
      simp only [List.getLast?_append, List.getLast?_singleton, Option.some_or, List.dropLast_concat]
      have hlast := h3 last (by simp)
      have he : endStatement ([t1, t2] ++ (init ++ [last]).map (fun en => o.indent ++ en.line)) =
          t1 :: t2 :: (init.map (fun en => o.indent ++ en.line) ++ [o.indent ++ (last.line ++ ";".toList)]) := by
        rw [List.map_append, List.map_singleton, ← List.append_assoc]
        unfold endStatement
        rw [List.getLast?_append_of_ne_nil _ (by simp)]
        simp only [List.getLast?_singleton, List.dropLast_concat]
        rw [add_semicolon (o.indent ++ last.line) (entry_ne _ _) (hnl2 _ (by simp)) (by rw [entry_last]; intro c hc; rw [← Option.some.inj hc]; decide)
          (entry_scan o.indent last.python last.cpp last.comment hi hlast.1 hlast.2.1 hlast.2.2.1)]
        simp only [List.append_assoc]
        rfl
      rw [he, indentLines_skip _ _ _ hinl (by simp)]
      · rw [List.map_cons, List.map_append, List.map_singleton, hmap]
        have : Indent.indentLine o.indent true (o.indent ++ (last.line ++ ";".toList)) = o.indent ++ (o.indent ++ (last.line ++ ";".toList)) := by
          apply indentLine_of_last
          · simp
          · rw [← List.append_assoc, List.getLast?_append_of_ne_nil _ (by decide)]; decide
        rw [this]; rfl
      · intro l hl
        rcases List.mem_cons.1 hl with rfl | hl
        · exact n1
        · rcases List.mem_cons.1 hl with rfl | hl
          · exact n2
          · rcases List.mem_append.1 hl with hl | hl
            · exact hnl2 l (by rw [List.map_append]; exact List.mem_append_left _ hl)
            · rw [List.mem_singleton.1 hl, ← List.append_assoc]
              intro hx
              rcases List.mem_append.1 hx with hx | hx
              · exact hnl2 (o.indent ++ last.line) (by simp) hx
              · revert hx; decide

def color : EnumDecl := ⟨"Color".toList, false, ["A".toList], "pyNsA".toList, "the \\\"colors\\\"".toList, "    // a.h:3".toList,
  [⟨"Color_Red".toList, "see http://x".toList⟩, ⟨"Color_COUNT".toList, []⟩, ⟨"Color_None".toList, "no color // none".toList⟩]⟩

instance (c : Char) : Decidable (Letter c) := inferInstanceAs (Decidable (_ ∨ _))
instance (c : Char) : Decidable (Digit c) := inferInstanceAs (Decidable (_ ∧ _))

theorem identifier_of (c : Char) (r : Str) (h1 : Letter c) (h2 : ∀ x ∈ c :: r, Letter x ∨ Digit x) : Identifier (c :: r) := ⟨⟨c, r, rfl, h1⟩, h2⟩

/-- A concrete enumeration meets the hypotheses. -/
example : WellFormed options color ∧ pydefLines options color = some
    ["auto pyEnumColor =".toList, "    py::enum_<A::Color>(pyNsA, \"Color\", py::arithmetic(), \"the \\\"colors\\\"\")    // a.h:3".toList,
     "        .value(\"red\", A::Color_Red, \"see http://x\")".toList,
     "        .value(\"none\", A::Color_None, \"no color // none\");".toList] := by
  have lit : ∀ s : Str, (∀ c ∈ s, c ≠ '"' ∧ c ≠ '\\' ∧ c ≠ '\n') → Escape.Spec.LiteralBody s := by
    intro s hs
    refine ⟨s.map .ordinary, ?_, ?_⟩
    · intro x hx
      obtain ⟨c, hc, rfl⟩ := List.mem_map.1 hx
      exact hs c hc
    · clear hs
      induction s with
      | nil => rfl
      | cons c s ih => rw [List.map_cons, Escape.Spec.text, List.flatMap_cons]; exact congrArg (c :: ·) ih
  refine ⟨⟨identifier_of _ _ (by decide) (by decide), by decide +kernel, ?_, ?_, ?_, by decide, by decide, ?_, ?_, by decide⟩, by decide +kernel⟩
  · intro s hs
    rw [List.mem_singleton.1 hs]
    exact identifier_of _ _ (by decide) (by decide)
  · intro m hm
    simp only [color, List.mem_cons, List.not_mem_nil, or_false] at hm
    rcases hm with rfl | rfl | rfl
    · exact ⟨identifier_of _ _ (by decide) (by decide), lit _ (by decide)⟩
    · exact ⟨identifier_of _ _ (by decide) (by decide), lit _ (by decide)⟩
    · exact ⟨identifier_of _ _ (by decide) (by decide), lit _ (by decide)⟩
  · exact ⟨"the ".toList.map .ordinary ++ [.escape '"'] ++ "colors".toList.map .ordinary ++ [.escape '"'], by
      intro x hx
      simp only [List.mem_append, List.mem_map, List.mem_singleton] at hx
      rcases hx with ((⟨c, hc, rfl⟩ | rfl) | ⟨c, hc, rfl⟩) | rfl
      · show c ≠ '"' ∧ c ≠ '\\' ∧ c ≠ '\n'
        revert c; decide
      · show '"' ≠ '\n'
        decide
      · show c ≠ '"' ∧ c ≠ '\\' ∧ c ≠ '\n'
        revert c; decide
      · show '"' ≠ '\n'
        decide, by decide +kernel⟩
  · intro s h; rw [show options.names.vars = [] from rfl, apply_nil]; exact h
  · intro s h; rw [show options.names.vars = [] from rfl, apply_nil]; exact h

/-! ### Enumerations that are not arithmetic -/

/-- Every enumeration can be bound. -/
def C52_arithmetic_statement : Prop := ∀ (o : Options) (e : EnumDecl), WellFormed o e → (pydefLines o e).isSome = true

/-- C52. It fails as soon as the option `enum_make_arithmetic__regex` does not match the enumeration: the variable holding the annotations is
read before it is assigned. It holds otherwise (`C52_pydef`). -/
theorem C52_arithmetic_fails : ¬ C52_arithmetic_statement ∧
    ∀ (o : Options) (e : EnumDecl), o.arithmetic (join "::".toList (e.scope ++ [e.name])) = false → pydefLines o e = none := by
  have key : ∀ (o : Options) (e : EnumDecl), o.arithmetic (join "::".toList (e.scope ++ [e.name])) = false → pydefLines o e = none := by
    intro o e h
    unfold pydefLines annotation
    rw [show scopeStr e true = join "::".toList (e.scope ++ [e.name]) from rfl, h]
    rfl
  refine ⟨?_, key⟩
  intro h
  have := h { options with arithmetic := fun _ => false } ⟨"E".toList, true, [], "m".toList, [], [], []⟩
    ⟨identifier_of _ _ (by decide) (by decide), by decide +kernel, by simp, by simp, ⟨[], by simp, rfl⟩, by decide, by decide,
      fun s h => (apply_nil names.sub s).symm ▸ h, fun s h => (apply_nil names.sub s).symm ▸ h, by decide⟩
  rw [key _ _ rfl] at this
  exact absurd this (by decide)

/-! ### The stub -/

/-- C52. The base class of the Python enumeration in the stub, for the four combinations of options. -/
theorem C52_stub_base (o : Options) (e : EnumDecl) :
    stubTitle o e = "class ".toList ++ Keyword.enumName o.names e.name ++
      (match o.arithmetic (join "::".toList (e.scope ++ [e.name])), o.flag (join "::".toList (e.scope ++ [e.name])) with
        | true, true => "(enum.IntFlag):".toList
        | true, false => "(enum.IntEnum):".toList
        | false, true => "(enum.Flag):".toList
        | false, false => "(enum.Enum):".toList) := by
  unfold stubTitle
  simp only
  rw [show scopeStr e true = join "::".toList (e.scope ++ [e.name]) from rfl]
  generalize o.arithmetic (join "::".toList (e.scope ++ [e.name])) = a
  generalize o.flag (join "::".toList (e.scope ++ [e.name])) = f
  have r : ∀ (n a b c : Str), a ++ b ++ c = "(".toList ++ n ++ "):".toList → "class ".toList ++ Keyword.enumName o.names e.name ++ "(".toList ++ n ++ "):".toList =
      "class ".toList ++ Keyword.enumName o.names e.name ++ (a ++ b ++ c) := by
    intro n a b c h; rw [h]; simp only [List.append_assoc]
  cases a <;> cases f
  · exact r "enum.Enum".toList [] [] "(enum.Enum):".toList (by decide +kernel)
  · exact r "enum.Flag".toList [] [] "(enum.Flag):".toList (by decide +kernel)
  · exact r "enum.IntEnum".toList [] [] "(enum.IntEnum):".toList (by decide +kernel)
  · exact r "enum.IntFlag".toList [] [] "(enum.IntFlag):".toList (by decide +kernel)

/-- C52. The stub declares the values that the binding code binds, under the same names and in the same order, whatever the library and
the options of the binding. -/
theorem C52_stub_values (o : Options) (e : EnumDecl) (h : WellFormed o e) (ha : o.arithmetic (join "::".toList (e.scope ++ [e.name])) = true)
    (value : Member → Str) :
    ∃ es : List Entry, pydefLines o e = some (title o e ++ ending o es) ∧
      ∃ ds, stubDecls o e value = some ds ∧
        List.Forall₂ (fun (en : Entry) d => ∃ v, d = en.python ++ " = enum.auto() # (= ".toList ++ v ++ ")".toList) es ds := by
  obtain ⟨es, h1, h2, h3⟩ := C52_pydef o e h ha
  clear h2
  refine ⟨es, h3, ?_⟩
  have hk : kept o e = e.members.filter (fun m => ¬ Counts o e m.name) := by
    unfold kept
    apply List.filter_congr
    intro m hm
    have := C52_count o e m.name (h.members m hm).1
    by_cases hc : Counts o e m.name
    · rw [this.2 hc]; simp [hc]
    · rw [Bool.eq_false_iff.2 fun hx => hc (this.1 hx)]; simp [hc]
  unfold stubDecls
  rw [hk]
  generalize e.members.filter (fun m => ¬ Counts o e m.name) = ms at h1
  clear h3 hk
  induction h1 with
  | nil => exact ⟨[], rfl, .nil⟩
  | @cons m en ms es hb _ ih =>
    obtain ⟨ds, e1, e2⟩ := ih
    refine ⟨(en.python ++ " = enum.auto() # (= ".toList ++ value m ++ ")".toList) :: ds, ?_, .cons ⟨value m, rfl⟩ e2⟩
    rw [List.mapM_cons, hb.1, Option.map_some]
    show Option.bind (List.mapM _ ms) _ = _
    rw [e1]
    rfl

/-! ### Distinct names -/

/-- Distinct members have distinct Python names. -/
def C52_distinct_statement : Prop := ∀ (o : Options) (e : EnumDecl) (a b : Member) (n : Str), WellFormed o e → a ∈ e.members → b ∈ e.members →
  Keyword.memberName o.names e.isClass e.name a.name = some n → Keyword.memberName o.names e.isClass e.name b.name = some n → a.name = b.name

/-- C52. It fails in several ways: with and without the prefix (`Foo_A` and `A` in `Foo`), digits (`Foo_1` and `Foo__1`), reserved words
(`Foo_None` and `Foo_None_`) and, with the option `python_convert_to_snake_case`, letter case (`Ab` and `ab`, also in an `enum class`). -/
theorem C52_distinct_fails : ¬ C52_distinct_statement ∧
    Keyword.memberName names false "Foo".toList "Foo_A".toList = Keyword.memberName names false "Foo".toList "A".toList ∧
    Keyword.memberName { names with snake := false } false "Foo".toList "Foo_1".toList =
      Keyword.memberName { names with snake := false } false "Foo".toList "Foo__1".toList ∧
    Keyword.memberName { names with snake := false } false "Foo".toList "Foo_None".toList =
      Keyword.memberName { names with snake := false } false "Foo".toList "Foo_None_".toList ∧
    Keyword.memberName names true "Foo".toList "Ab".toList = Keyword.memberName names true "Foo".toList "ab".toList := by
  refine ⟨?_, by decide +kernel, by decide +kernel, by decide +kernel, by decide +kernel⟩
  intro h
  have := h options ⟨"Foo".toList, false, [], "m".toList, [], [], [⟨"Foo_A".toList, []⟩, ⟨"A".toList, []⟩]⟩ ⟨"Foo_A".toList, []⟩ ⟨"A".toList, []⟩ "a".toList
    ⟨identifier_of _ _ (by decide) (by decide), by decide +kernel, by simp, by
        intro m hm
        simp only [List.mem_cons, List.not_mem_nil, or_false] at hm
        rcases hm with rfl | rfl
        · exact ⟨identifier_of _ _ (by decide) (by decide), [], by simp, rfl⟩
        · exact ⟨identifier_of _ _ (by decide) (by decide), [], by simp, rfl⟩,
      ⟨[], by simp, rfl⟩, by decide, by decide, fun s h => (apply_nil names.sub s).symm ▸ h, fun s h => (apply_nil names.sub s).symm ▸ h, by decide⟩ (by simp) (by simp) (by decide +kernel) (by decide +kernel)
  exact absurd this (by decide +kernel)

/-- C52. Names stay distinct when the replacements change nothing and the members follow one convention: those of a C enumeration all start
with its name and an underscore, what remains does not start with a digit and is not a reserved word followed by an underscore; with the
conversion to snake case, it has no capitals. Missing: the other members (see `C52_distinct_fails`). -/
theorem C52_distinct_partial (o : Options) (e : EnumDecl) (hv : ∀ s, Repl.apply o.names.sub o.names.vars s = s)
    (hp : o.names.groupPrivate = false) (short : Member → Str)
    (hm : ∀ m ∈ e.members, Identifier (short m) ∧ ¬ Escaped (short m) ∧ (o.names.snake = true → ∀ c ∈ short m, ¬ Name.Spec.Upper c) ∧
      m.name = (if o.names.removePrefix = true ∧ e.isClass = false then e.name ++ "_".toList else []) ++ short m)
    (a b : Member) (ha : a ∈ e.members) (hb : b ∈ e.members) (n : Str)
    (h1 : Keyword.memberName o.names e.isClass e.name a.name = some n) (h2 : Keyword.memberName o.names e.isClass e.name b.name = some n) :
    a.name = b.name := by
  have key : ∀ m ∈ e.members, Keyword.memberName o.names e.isClass e.name m.name = some (Keyword.escape (short m)) := by
    intro m hmm
    obtain ⟨i1, i2, i3, i4⟩ := hm m hmm
    have hw : Keyword.withoutPrefix o.names e.isClass e.name m.name = some (short m) := by
      unfold Keyword.withoutPrefix
      by_cases hc : o.names.removePrefix = true ∧ e.isClass = false
      · rw [if_pos hc] at i4
        rw [hc.1, hc.2, if_neg (by simp)]
        obtain ⟨⟨c, r, er, hl⟩, _⟩ := i1
        have hd : Keyword.dropPrefix m.name e.name = short m := by
          unfold Keyword.dropPrefix
          have : startsWith (Keyword.upper m.name) (Keyword.upper e.name ++ ['_']) = true := by
            unfold startsWith
            rw [List.isPrefixOf_iff_prefix]
            refine ⟨Keyword.upper (short m), ?_⟩
            rw [i4]
            unfold Keyword.upper
            rw [List.map_append, List.map_append, show "_".toList.map upC = ['_'] by decide +kernel]
          rw [if_pos this, i4]
          have hlen : e.name.length + 1 = (e.name ++ "_".toList).length := by simp [show "_".toList = ['_'] from rfl]
          rw [hlen, List.drop_left]
        rw [hd]
        unfold Keyword.dropPrivate
        rw [hp, if_neg (by simp)]
        unfold Keyword.repairName
        rw [er]
        have hdig : isDig c = false := by
          refine Bool.eq_false_iff.2 fun hx => ?_
          have hx := (Keyword.digit_iff c).2 hx
          unfold Letter at hl
          unfold Digit at hx
          simp only [Char.le_def, UInt32.le_iff_toNat_le] at hl hx
          have e0 : ('0' : Char).val.toNat = 48 := rfl
          have e1 : ('9' : Char).val.toNat = 57 := rfl
          have e2 : ('a' : Char).val.toNat = 97 := rfl
          have e4 : ('A' : Char).val.toNat = 65 := rfl
          rw [e0, e1] at hx
          rw [e2, e4] at hl
          rcases hl with h | h | h
          · omega
          · omega
          · rw [h] at hx; exact absurd hx (by decide)
        simp only [List.length_cons, Nat.add_eq_zero_iff, Nat.one_ne_zero, and_false, if_false, hdig, Bool.false_eq_true]
      · rw [if_neg hc, List.nil_append] at i4
        have : (!o.names.removePrefix || e.isClass) = true := by
          cases h1 : o.names.removePrefix <;> cases h2 : e.isClass <;> simp_all
        rw [if_pos this, i4]
    unfold Keyword.memberName
    rw [hw, Option.map_some]
    unfold Keyword.varName
    rw [hv, hv]
    unfold Keyword.convert
    split
    · rename_i hs
      rw [Name.C07_snake_unchanged _ (i3 hs)]
    · rfl
  rw [key a ha] at h1
  rw [key b hb] at h2
  have := Keyword.Props.C39_injective _ _ (hm a ha).2.1 (hm b hb).2.1 (Option.some.inj (h1.trans h2.symm))
  rw [(hm a ha).2.2.2, (hm b hb).2.2.2, this]

example : ∀ m ∈ [(⟨"Foo_red".toList, []⟩ : Member), ⟨"Foo_blue".toList, []⟩], ∃ short, Identifier short ∧ ¬ Escaped short ∧
    m.name = "Foo".toList ++ "_".toList ++ short := by
  have esc : ∀ s : Str, s.getLast? ≠ some '_' → ¬ Escaped s := by
    rintro s hs ⟨w, _, e⟩
    apply hs; rw [e]; simp
  intro m hm
  simp only [List.mem_cons, List.not_mem_nil, or_false] at hm
  rcases hm with rfl | rfl
  · exact ⟨"red".toList, identifier_of _ _ (by decide) (by decide), esc _ (by decide), rfl⟩
  · exact ⟨"blue".toList, identifier_of _ _ (by decide) (by decide), esc _ (by decide), rfl⟩

end Verif.Enums.Props
