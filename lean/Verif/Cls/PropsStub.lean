import Verif.Cls.PropsCopy
import Verif.Comment.Props
import Verif.Indent.Props

/-! C70 (bases in the stub) and C72: the layout of the stub of a class. -/

namespace Verif.Cls.Props
open Verif.Py Verif.Cls Verif.Adapt

/-! ### The layout -/

/-- The lines after the first one, before they are indented. -/
def afterTitle (o : Options) (comment : Str) (body : List Str) : List Str :=
  let b := Comment.alignPythonCommentsInBlockLines (if body.length = 0 then ["pass".toList] else body)
  let doc := Fn.docstringLines (Fn.applyCommentReplacements o.toOptions comment)
  doc ++ (if doc.length > 0 ∧ o.reproduceLayout = false ∧ b ≠ ["pass".toList] then [[]] else []) ++ b

theorem lines_unlines_flat {ls : List Str} (h : ls ≠ []) : lines (unlines ls) = ls.flatMap lines := by
  induction ls with
  | nil => exact absurd rfl h
  | cons l ls ih =>
    cases ls with
    | nil => simp [unlines, join]
    | cons m ms =>
      have ih := ih (by simp)
      have e : unlines (l :: m :: ms) = l ++ '\n' :: unlines (m :: ms) := by
        show l ++ ['\n'] ++ join ['\n'] (m :: ms) = _
        rw [List.append_assoc]; rfl
      rw [e, Template.lines_append_nl, ih, List.flatMap_cons (x := l)]

theorem layout_eq (o : Options) (loc : Option (Str × Str)) (comment title : Str) (body : List Str)
    (ht : '\n' ∉ title ++ locationText o loc "#".toList) (hi : '\n' ∉ o.pyIndent) :
    layoutLines o loc comment title body = rstrip (title ++ locationText o loc "#".toList) ::
      ((afterTitle o comment body).flatMap lines).map (Indent.indentLine o.pyIndent true) := by
  have hne : afterTitle o comment body ≠ [] := by
    unfold afterTitle
    exact List.append_ne_nil_of_right_ne_nil _ (lines_ne_nil _)
  have e : layoutLines o loc comment title body = Indent.indentCodeLines ((title ++ locationText o loc "#".toList) :: afterTitle o comment body) 1 true
      (some o.pyIndent) := by
    unfold layoutLines afterTitle
    dsimp only
    refine congrArg (fun x => Indent.indentCodeLines x 1 true (some o.pyIndent)) ?_
    simp only [List.append_assoc, List.cons_append, List.nil_append]
  rw [e]
  generalize afterTitle o comment body = rest at *
  generalize title ++ locationText o loc "#".toList = t at *
  unfold Indent.indentCodeLines
  have hl : lines (unlines (t :: rest)) = t :: lines (unlines rest) := by
    rw [lines_unlines_flat (by simp), lines_unlines_flat hne, List.flatMap_cons]
    have : lines t = [t] := splitOn_of_not_mem ht
    rw [this, List.singleton_append]
  have hk := (Indent.C04_indent_skip_first (unlines (t :: rest)) 1 (some o.pyIndent) hi).2 t (lines (unlines rest)) hl (lines_ne_nil _)
  rw [hk, lines_unlines_flat hne]
  refine congrArg (rstrip t :: ·) ?_
  have e2 : Indent.indentCode (unlines (rest.flatMap lines)) 1 false (some o.pyIndent) =
    Indent.indentAll (unlines (rest.flatMap lines)) 1 (some o.pyIndent) true := rfl
  rw [e2, Indent.lines_indentAll (unlines (rest.flatMap lines)) 1 (some o.pyIndent) true hi]
  have : rest.flatMap lines = lines (unlines rest) := (lines_unlines_flat hne).symm
  rw [this, unlines_lines]
  rfl

theorem stub_eq {o : Options} {c c' : Class} {ls : List Str} (h : stubLines o c = some (ls, c')) :
    c' = { c with previous := stubComment o c } ∧ ∃ parents, parentsPython c = some parents ∧
      ls = layoutLines o c.location (fullComment (stubComment o c) c.eol) ("class ".toList ++ c.pyName ++ parents ++ ":".toList) (bodyLines o c) := by
  unfold stubLines at h
  obtain ⟨parents, hp, h⟩ := Option.map_eq_some_iff.1 h
  cases h
  exact ⟨rfl, parents, hp, rfl⟩

/-- The names in the first line of the stub have no line break. -/
structure OneLine (o : Options) (c : Class) : Prop where
  indent : '\n' ∉ o.pyIndent
  name : '\n' ∉ c.pyName
  bases : ∀ b ∈ c.bases, '\n' ∉ b.pyName
  custom : ∀ b ∈ c.customStub, '\n' ∉ b
  location : '\n' ∉ locationText o c.location "#".toList

theorem notin_append {a b : Str} {x : Char} (ha : x ∉ a) (hb : x ∉ b) : x ∉ a ++ b := by
  rw [List.mem_append, not_or]; exact ⟨ha, hb⟩

theorem notin_join {sep : Str} {a : Char} (hs : a ∉ sep) (l : List Str) (h : ∀ x ∈ l, a ∉ x) : a ∉ join sep l := by
  induction l with
  | nil => simp
  | cons x l ih =>
    cases l with
    | nil => exact h x (by simp)
    | cons y l => exact notin_append (notin_append (h x (by simp)) hs) (ih (fun z hz => h z (List.mem_cons_of_mem _ hz)))

theorem allSome_mem {α β : Type} {f : α → Option β} {l : List α} {r : List β} (h : Fn.allSome (l.map f) = some r) : ∀ y ∈ r, ∃ x ∈ l, f x = some y := by
  induction l generalizing r with
  | nil => cases h; simp
  | cons x l ih =>
    rw [List.map_cons] at h
    cases hx : f x with
    | none => rw [hx] at h; cases h
    | some y =>
      rw [hx, Fn.allSome] at h
      obtain ⟨r', hr, rfl⟩ := Option.map_eq_some_iff.1 h
      intro z hz
      rcases List.mem_cons.1 hz with rfl | hz
      · exact ⟨x, by simp, hx⟩
      · obtain ⟨w, hw, e⟩ := ih hr z hz
        exact ⟨w, by simp [hw], e⟩

theorem parents_line {o : Options} {c : Class} (h : OneLine o c) {parents : Str} (hp : parentsPython c = some parents) : '\n' ∉ parents := by
  unfold parentsPython at hp
  split at hp
  · cases hp; simp
  · dsimp only at hp
    obtain ⟨ps, hps, rfl⟩ := Option.map_eq_some_iff.1 hp
    have hall : ∀ x ∈ ps, '\n' ∉ x := by
      split at hps
      · cases hps; exact h.custom
      · intro x hx
        obtain ⟨b, hb, e⟩ := allSome_mem hps x hx
        obtain ⟨_, _, rfl⟩ := Option.map_eq_some_iff.1 e
        exact h.bases b hb
    split
    · simp
    · exact notin_append (notin_append (by decide) (notin_join (by decide) _ hall)) (by decide)

theorem stub_lines {o : Options} {c c' : Class} {ls : List Str} (h1 : OneLine o c) (h : stubLines o c = some (ls, c')) :
    ∃ parents, parentsPython c = some parents ∧
      ls = rstrip ("class ".toList ++ c.pyName ++ parents ++ ":".toList ++ locationText o c.location "#".toList) ::
        ((afterTitle o (fullComment (stubComment o c) c.eol) (bodyLines o c)).flatMap lines).map (Indent.indentLine o.pyIndent true) := by
  obtain ⟨_, parents, hp, e⟩ := stub_eq h
  refine ⟨parents, hp, ?_⟩
  rw [e, layout_eq _ _ _ _ _ _ h1.indent]
  exact notin_append (notin_append (notin_append (notin_append (by decide) h1.name) (parents_line h1 hp)) (by decide)) h1.location

/-! ### C70: the bases in the stub -/

/-- The first line of the stub. -/
def C70_stub_statement : Prop := ∀ (o : Options) (c : Class), OneLine o c → (c.hasBases = false → c.bases = []) →
  ∃ rest c', stubLines o c = some (rstrip (Spec.stubTitle c.pyName (if c.customStub ≠ [] then c.customStub else (Spec.publicBases c).map (·.pyName)) ++
    locationText o c.location "#".toList) :: rest, c')

theorem oneLine_demo : OneLine demoO demoClass := by
  constructor <;> decide +kernel

/-- C70. It fails: the stub lists private bases, and the private base of a `class` without specifier. -/
theorem C70_stub_fails : ¬ C70_stub_statement ∧
    (stubLines demoO { demoClass with bases := [⟨"private".toList, "N::Base".toList, "Base".toList⟩] }).map (·.1.map String.ofList) =
      some ["class Foo(Base):    # lib.h:3", "    \"\"\" a class\"\"\"", "    def __init__(self) -> None:", "        pass"] ∧
    (creationCode demoO { demoClass with bases := [⟨"private".toList, "N::Base".toList, "Base".toList⟩] }).map String.ofList =
      some "auto pyNsN_ClassFoo =\n    py::class_<N::Foo>    // lib.h:3\n        (pyNsN, \"Foo\", \"a class\")" := by
  refine ⟨fun h => ?_, by decide +kernel, by decide +kernel⟩
  obtain ⟨rest, c', h⟩ := h demoO { demoClass with bases := [⟨"virtual".toList, "N::Base".toList, "Base".toList⟩] }
    { oneLine_demo with bases := by decide +kernel } (by decide +kernel)
  have e : parentsPython { demoClass with bases := [⟨"virtual".toList, "N::Base".toList, "Base".toList⟩] } = none := by decide +kernel
  unfold stubLines at h
  rw [e] at h
  cases h

/-- All bases of the class are public, and C++ and the generator agree on it. -/
def PublicBases (c : Class) : Prop := ∀ b ∈ c.bases, b.specifier = "public".toList ∨ (b.specifier = [] ∧ c.isClass = false)

theorem parents_public {c : Class} (hb : c.hasBases = false → c.bases = []) (h : c.customStub ≠ [] ∨ PublicBases c) :
    parentsPython c = some (if (if c.customStub ≠ [] then c.customStub else (Spec.publicBases c).map (·.pyName)) = [] then [] else
      "(".toList ++ join ", ".toList (if c.customStub ≠ [] then c.customStub else (Spec.publicBases c).map (·.pyName)) ++ ")".toList) := by
  unfold parentsPython
  by_cases hc : c.customStub = []
  · have hif : (if c.customStub ≠ [] then c.customStub else (Spec.publicBases c).map (·.pyName)) = (Spec.publicBases c).map (·.pyName) :=
      if_neg (not_not.2 hc)
    rw [hif]
    have h : PublicBases c := h.resolve_left (not_not.2 hc)
    have hall : Fn.allSome (c.bases.map (fun b => (accessFromName b.specifier).map (fun _ => b.pyName))) = some (c.bases.map (·.pyName)) := by
      unfold PublicBases at h
      generalize c.bases = bs at h
      induction bs with
      | nil => rfl
      | cons b bs ih =>
        have ih := ih (fun x hx => h x (List.mem_cons_of_mem _ hx))
        have hs : accessFromName b.specifier = some .public_ := by
          rcases h b (by simp) with e | ⟨e, _⟩ <;> rw [e] <;> rfl
        rw [List.map_cons, hs, Option.map_some, Fn.allSome, ih, Option.map_some, List.map_cons]
    have hpub : Spec.publicBases c = c.bases := by
      unfold Spec.publicBases
      rw [List.filter_eq_self]
      intro b hb
      rw [decide_eq_true_iff]
      rcases h b hb with e | ⟨e, e'⟩
      · rw [e]; rfl
      · rw [e, e']; rfl
    rw [hpub, hall]
    by_cases hbases : c.hasBases = false
    · rw [if_pos ⟨hc, hbases⟩, hb hbases]
      rfl
    · rw [if_neg (fun h => hbases h.2)]
      dsimp only
      rw [if_neg (not_not.2 hc), Option.map_some]
      simp only [List.length_eq_zero_iff]
  · rw [if_pos hc, if_neg (fun h => hc h.1)]
    dsimp only
    rw [if_pos hc, Option.map_some]
    simp only [List.length_eq_zero_iff]

/-- C70. For every class whose bases are all public: the stub declares it with the same bases as the binding. Missing: see `C70_stub_fails`. -/
theorem C70_stub_partial (o : Options) (c : Class) (h1 : OneLine o c) (hb : c.hasBases = false → c.bases = [])
    (h : c.customStub ≠ [] ∨ PublicBases c) :
    ∃ rest c', stubLines o c = some (rstrip (Spec.stubTitle c.pyName (if c.customStub ≠ [] then c.customStub else (Spec.publicBases c).map (·.pyName)) ++
      locationText o c.location "#".toList) :: rest, c') := by
  have hp := parents_public hb h
  generalize hbs : (if c.customStub ≠ [] then c.customStub else (Spec.publicBases c).map (·.pyName)) = bs at *
  cases hs : stubLines o c with
  | none => unfold stubLines at hs; rw [hp] at hs; cases hs
  | some x =>
    obtain ⟨ls, c'⟩ := x
    obtain ⟨parents, hp', e⟩ := stub_lines h1 hs
    rw [hp, Option.some.injEq] at hp'
    rw [e, ← hp']
    exact ⟨_, c', rfl⟩

example : OneLine demoO demoClass ∧ PublicBases demoClass ∧ (stubLines demoO demoClass).map (·.1.map String.ofList) =
    some ["class Foo(Base):    # lib.h:3", "    \"\"\" a class\"\"\"", "    def __init__(self) -> None:", "        pass"] :=
  ⟨oneLine_demo, by unfold PublicBases; decide +kernel, by decide +kernel⟩

/-! ### C72: the block of the class -/

/-- C72. For every class: after its first line, the stub has at least one line, and every line is empty or has the indentation of Python. -/
theorem C72_layout (o : Options) (c c' : Class) (ls : List Str) (h1 : OneLine o c) (h : stubLines o c = some (ls, c')) :
    ∃ title rest, ls = title :: rest ∧ rest ≠ [] ∧ ∀ l ∈ rest, Spec.Inside o.pyIndent l := by
  obtain ⟨parents, hp, e⟩ := stub_lines h1 h
  refine ⟨_, _, e, ?_, ?_⟩
  · intro h
    rw [List.map_eq_nil_iff, List.flatMap_eq_nil_iff] at h
    have : afterTitle o (fullComment (stubComment o c) c.eol) (bodyLines o c) ≠ [] := by
      unfold afterTitle
      exact List.append_ne_nil_of_right_ne_nil _ (lines_ne_nil _)
    obtain ⟨x, hx⟩ := List.exists_mem_of_ne_nil _ this
    exact lines_ne_nil _ (h x hx)
  · intro l hl
    obtain ⟨x, _, rfl⟩ := List.mem_map.1 hl
    unfold Indent.indentLine
    split
    · exact .inl rfl
    · exact .inr ⟨rstrip x, rfl⟩

example : OneLine demoO demoClass ∧ (stubLines demoO demoClass).isSome = true := ⟨oneLine_demo, by decide +kernel⟩

/-- The stub of a class is a block with a statement. -/
def C72_block_statement : Prop := ∀ (o : Options) (c c' : Class) (ls : List Str), OneLine o c → (∀ x ∈ o.pyIndent, x = ' ') →
  stubLines o c = some (ls, c') → ∃ l ∈ ls.tail, Spec.Statement l

/-- `struct Foo { // Nothing⏎ private: Foo(); };` -/
def demoEmpty : Class :=
  { demoClass with
    specials := [⟨true, [], [], .private_⟩], bases := [], hasBases := false, eol := [],
    children := [⟨.comment, [], ⟨none, ["# Nothing".toList]⟩⟩] }

theorem oneLine_empty : OneLine demoO demoEmpty := by
  constructor <;> decide +kernel

theorem not_statement_comment (t : Str) : ¬ Spec.Statement ("    #".toList ++ t) := by
  rintro ⟨w, c, r, e, hw, hc, hh⟩
  have e4 : "    #".toList ++ t = ' ' :: ' ' :: ' ' :: ' ' :: '#' :: t := rfl
  rw [e4] at e
  match w, hw, e with
  | [], _, e => cases e; exact absurd hc (by decide)
  | [_], _, e => cases e; exact absurd hc (by decide)
  | [_, _], _, e => cases e; exact absurd hc (by decide)
  | [_, _, _], _, e => cases e; exact absurd hc (by decide)
  | [_, _, _, _], _, e => cases e; exact hh rfl
  | _ :: _ :: _ :: _ :: x :: w, hw, e =>
    have : x = '#' := by
      simp only [List.cons_append, List.cons.injEq] at e
      exact e.2.2.2.2.1.symm
    subst this
    exact absurd (hw '#' (by simp)) (by decide)

/-- C72. It fails: a class without docstring whose public part has only comments (or empty lines), and with a private constructor, gets a block
without statement, which Python does not accept. -/
theorem C72_block_fails : ¬ C72_block_statement ∧
    (stubLines demoO demoEmpty).map (·.1.map String.ofList) = some ["class Foo:    # lib.h:3", "    # Nothing"] := by
  refine ⟨fun h => ?_, by decide +kernel⟩
  cases hs : stubLines demoO demoEmpty with
  | none => exact absurd hs (by unfold stubLines; rw [show parentsPython demoEmpty = some [] by decide +kernel]; simp)
  | some x =>
    obtain ⟨ls, c'⟩ := x
    obtain ⟨l, hl, hst⟩ := h demoO demoEmpty c' ls oneLine_empty (by decide +kernel) hs
    have e : (stubLines demoO demoEmpty).map (·.1) = some ["class Foo:    # lib.h:3".toList, "    # Nothing".toList] := by decide +kernel
    rw [hs, Option.map_some, Option.some.injEq] at e
    dsimp only at e
    rw [e, List.tail_cons, List.mem_singleton] at hl
    rw [hl] at hst
    exact not_statement_comment " Nothing".toList hst

theorem statement_indent {o : Options} (hi : ∀ x ∈ o.pyIndent, x = ' ') {l : Str} (h : Spec.Statement l) :
    Spec.Statement (Indent.indentLine o.pyIndent true l) := by
  obtain ⟨w, c, r, rfl, hw, hc, hh⟩ := h
  unfold Indent.indentLine
  rw [if_neg (by simp), if_pos rfl]
  obtain ⟨b, e, hb⟩ := rstrip_decomp (w ++ c :: r)
  -- the blanks at the end do not reach `c`
  have hlen : w.length + 1 ≤ (rstrip (w ++ c :: r)).length := by
    by_contra hlt
    have hcb : c ∈ b := by
      have e2 := congrArg (List.drop w.length) e
      rw [List.drop_left, List.drop_append] at e2
      have : (rstrip (w ++ c :: r)).drop w.length = [] := List.drop_eq_nil_of_le (by omega)
      rw [this, List.nil_append] at e2
      have : c ∈ b.drop (w.length - (rstrip (w ++ c :: r)).length) := by rw [← e2]; simp
      exact List.mem_of_mem_drop this
    rw [hb c hcb] at hc
    cases hc
  have hpre : w ++ [c] <+: rstrip (w ++ c :: r) := by
    have h1 : w ++ [c] <+: w ++ c :: r := ⟨r, by simp⟩
    have h2 : rstrip (w ++ c :: r) <+: w ++ c :: r := ⟨b, e.symm⟩
    exact List.prefix_of_prefix_length_le h1 h2 (by simpa using hlen)
  obtain ⟨t, ht⟩ := hpre
  refine ⟨o.pyIndent ++ w, c, t, ?_, ?_, hc, hh⟩
  · rw [← ht]; simp
  · intro x hx
    rcases List.mem_append.1 hx with hx | hx
    · rw [hi x hx]; decide
    · exact hw x hx

theorem statement_align {ls : List Str} {l : Str} (hl : l ∈ ls) (hn : '\n' ∉ l) (h : Spec.Statement l) :
    ∃ x ∈ Comment.alignPythonCommentsInBlockLines ls, Spec.Statement x := by
  have hm : l ∈ lines (unlines ls) := by
    rw [lines_unlines_flat (List.ne_nil_of_mem hl), List.mem_flatMap]
    exact ⟨l, hl, by rw [show lines l = [l] from splitOn_of_not_mem hn]; simp⟩
  unfold Comment.alignPythonCommentsInBlockLines
  rcases Comment.C06_align (unlines ls) with ⟨_, e⟩ | ⟨col, hf, _⟩
  · rw [e]; exact ⟨l, hm, h⟩
  · obtain ⟨i, hi, e⟩ := List.getElem_of_mem hm
    have hlen := hf.length_eq
    have hi' : i < (lines (Comment.alignPythonCommentsInBlock (unlines ls))).length := hlen ▸ hi
    have hal := List.Forall₂.get hf hi hi'
    simp only [List.get_eq_getElem] at hal
    rw [e] at hal
    refine ⟨_, List.getElem_mem hi', ?_⟩
    rcases hal with ⟨_, e2⟩ | ⟨a, b, k, e1, he, _, e2⟩
    · rw [e2]; exact h
    · rw [e2]
      obtain ⟨w, c, r, e3, hw, hc, hh⟩ := h
      obtain ⟨⟨_, ⟨y, hy, hys⟩, _⟩, _⟩ := he
      have ha : y ∈ a := by rw [e1, List.take_left] at hy; exact hy
      -- `c` is in `a`
      have hlt : w.length < a.length := by
        by_contra hge
        have hpre : a <+: w := by
          have h1 : a <+: l := ⟨'#' :: b, e1.symm⟩
          have h2 : w <+: l := ⟨c :: r, e3.symm⟩
          exact List.prefix_of_prefix_length_le h1 h2 (by omega)
        have := hw y (hpre.subset ha)
        rw [this] at hys
        cases hys
      have hpre : w ++ [c] <+: a := by
        have h1 : a <+: l := ⟨'#' :: b, e1.symm⟩
        have h2 : w ++ [c] <+: l := ⟨r, by rw [e3]; simp⟩
        exact List.prefix_of_prefix_length_le h2 h1 (by rw [List.length_append]; exact hlt)
      obtain ⟨t, rfl⟩ := hpre
      exact ⟨w, c, t ++ spaces k ++ '#' :: b, by simp, hw, hc, hh⟩

theorem docstring_first (d : Str) (h : Fn.docstringLines d ≠ []) : ∃ l r, Fn.docstringLines d = ('"' :: l) :: r ∧ '\n' ∉ l := by
  unfold Fn.docstringLines at h ⊢
  dsimp only at h ⊢
  generalize (if endsWith (if startsWith d ['"'] then [' '] ++ d else d) ['"'] = true then (if startsWith d ['"'] then [' '] ++ d else d) ++ [' ']
    else if startsWith d ['"'] then [' '] ++ d else d) = e at h ⊢
  split
  · rename_i h0; rw [if_pos h0] at h; exact absurd rfl h
  · cases hl : lines e with
    | nil => exact absurd hl (lines_ne_nil _)
    | cons l r =>
      have hn : '\n' ∉ l := not_mem_of_mem_lines (s := e) (by rw [hl]; simp)
      cases r with
      | nil => exact ⟨['"', '"'] ++ l ++ ['"', '"', '"'], [], rfl, by simp [hn]⟩
      | cons m ms => exact ⟨['"', '"'] ++ l, _, rfl, by simp [hn]⟩

/-- C72. For every class with a docstring, or with nothing at all in its block, or with a line in its block that is a statement: the stub has a
statement in the block. Missing: see `C72_block_fails`. -/
theorem C72_block_partial (o : Options) (c c' : Class) (ls : List Str) (h1 : OneLine o c) (hi : ∀ x ∈ o.pyIndent, x = ' ')
    (h : stubLines o c = some (ls, c'))
    (hb : Fn.docstringLines (Fn.applyCommentReplacements o.toOptions (fullComment (stubComment o c) c.eol)) ≠ [] ∨ bodyLines o c = [] ∨
      ∃ l ∈ bodyLines o c, '\n' ∉ l ∧ Spec.Statement l) :
    ∃ l ∈ ls.tail, Spec.Statement l := by
  obtain ⟨parents, hp, e⟩ := stub_lines h1 h
  rw [e, List.tail_cons]
  suffices ∃ l ∈ (afterTitle o (fullComment (stubComment o c) c.eol) (bodyLines o c)).flatMap lines, Spec.Statement l by
    obtain ⟨l, hl, hs⟩ := this
    exact ⟨_, List.mem_map_of_mem hl, statement_indent hi hs⟩
  have hbody : ∀ ls : List Str, (∃ l ∈ ls, '\n' ∉ l ∧ Spec.Statement l) → bodyLines o c = ls ∨ (bodyLines o c = [] ∧ ls = ["pass".toList]) →
      ∃ l ∈ (afterTitle o (fullComment (stubComment o c) c.eol) (bodyLines o c)).flatMap lines, Spec.Statement l := by
    rintro ls ⟨l, hl, hn, hs⟩ he
    have hb : (if (bodyLines o c).length = 0 then ["pass".toList] else bodyLines o c) = ls := by
      rcases he with he | ⟨he, he'⟩
      · rw [he, if_neg (by rw [List.length_eq_zero_iff]; exact List.ne_nil_of_mem hl)]
      · rw [he, he']; rfl
    obtain ⟨x, hx, hsx⟩ := statement_align hl hn hs
    refine ⟨x, ?_, hsx⟩
    unfold afterTitle
    dsimp only
    rw [hb, List.mem_flatMap]
    refine ⟨x, List.mem_append_right _ hx, ?_⟩
    have : '\n' ∉ x := not_mem_of_mem_lines hx
    rw [show lines x = [x] from splitOn_of_not_mem this]
    simp
  rcases hb with hd | hb | hb
  · obtain ⟨l, r, hl, hn⟩ := docstring_first _ hd
    refine ⟨'"' :: l, ?_, [], '"', l, rfl, by simp, by decide, by decide⟩
    unfold afterTitle
    dsimp only
    rw [hl, List.mem_flatMap]
    refine ⟨'"' :: l, by simp, ?_⟩
    rw [show lines ('"' :: l) = ['"' :: l] from splitOn_of_not_mem (by simp [hn])]
    simp
  · exact hbody ["pass".toList] ⟨_, List.mem_singleton_self _, by decide, [], 'p', "ass".toList, rfl, by simp, by decide, by decide⟩ (.inr ⟨hb, rfl⟩)
  · exact hbody _ hb (.inl rfl)

example : OneLine demoO demoClass ∧ (∀ x ∈ demoO.pyIndent, x = ' ') ∧ (stubLines demoO demoClass).isSome = true ∧
    "def __init__(self) -> None:".toList ∈ bodyLines demoO demoClass ∧ '\n' ∉ "def __init__(self) -> None:".toList ∧
    Spec.Statement "def __init__(self) -> None:".toList :=
  ⟨oneLine_demo, by decide +kernel, by decide +kernel, by decide +kernel, by decide, [], 'd', _, rfl, by simp, by decide, by decide⟩

/-- Making the stub of a class does not change the class: a second stub is the same, and so is the binding. -/
def C72_again_statement : Prop := ∀ (o : Options) (c c' : Class) (ls : List Str), stubLines o c = some (ls, c') →
  (stubLines o c').map (·.1) = some ls ∧ creationCode o c' = creationCode o c

/-- C72. It fails: every call adds `(final class)` to the comment of the class; the generator makes the stub before the binding, so the
docstring of the binding has it too. -/
theorem C72_again_fails : ¬ C72_again_statement ∧
    ((stubLines demoO { demoClass with isFinal := true }).bind (fun x => stubLines demoO x.2)).map (·.1.map String.ofList) =
      some ["class Foo(Base):    # lib.h:3", "    \"\"\"(final class)", "    (final class)", "", "     a class", "    \"\"\"",
        "    def __init__(self) -> None:", "        pass"] ∧
    ((stubLines demoO { demoClass with isFinal := true }).bind (fun x => creationCode demoO x.2)).map String.ofList =
      some ("auto pyNsN_ClassFoo =\n    py::class_<N::Foo, N::Base>    // lib.h:3\n" ++
        "        (pyNsN, \"Foo\", py::is_final(), \"(final class)\\n\\n a class\")") := by
  refine ⟨fun h => ?_, by decide +kernel, by decide +kernel⟩
  cases hs : stubLines demoO { demoClass with isFinal := true } with
  | none => exact absurd hs (by unfold stubLines; rw [show parentsPython { demoClass with isFinal := true } = some "(Base)".toList by decide +kernel]; simp)
  | some x =>
    obtain ⟨ls, c'⟩ := x
    have h := (h demoO _ c' ls hs).2
    obtain ⟨e, _⟩ := stub_eq hs
    rw [e] at h
    exact absurd h (by decide +kernel)

/-- C72. For every class that is not final and gets no remark on copies: making its stub does not change it. Missing: see `C72_again_fails`. -/
theorem C72_again_partial (o : Options) (c c' : Class) (ls : List Str) (hf : c.isFinal = false) (hc : copyComment o c = [])
    (h : stubLines o c = some (ls, c')) : c' = c := by
  obtain ⟨e, _⟩ := stub_eq h
  have hs : stubComment o c = c.previous := by
    unfold stubComment
    rw [hf, hc, if_neg (by simp), if_neg (by simp), List.append_nil, List.append_nil]
  rw [e, hs]

example : demoClass.isFinal = false ∧ copyComment demoO demoClass = [] ∧ (stubLines demoO demoClass).isSome = true := by decide +kernel

end Verif.Cls.Props
