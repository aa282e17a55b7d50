import Verif.Cls.Closed
import Verif.Cls.PropsNamed

/-! C71: the binding of a class is closed C++ code that ends its statement. -/

namespace Verif.Cls.Props
open Verif.Py Verif.Cls Verif.Adapt
open Fn.Spec (Mode readCode readAll Closed closed_append closed_join closed_nil closed_blank readAll_append)

theorem readAll_literal {es : List Escape.Spec.Elem} (h : ∀ e ∈ es, e.WF) (st : List Char) :
    readAll (.str, st) (Escape.Spec.text es) = some (.str, st) := by
  induction es with
  | nil => rfl
  | cons e es ih =>
    have ih := ih (fun x hx => h x (by simp [hx]))
    unfold Escape.Spec.text at *
    rw [List.flatMap_cons, readAll_append]
    have : readAll (.str, st) e.text = some (.str, st) := by
      have he := h e (by simp)
      cases e with
      | ordinary c =>
        obtain ⟨h1, h2, h3⟩ := he
        simp [Escape.Spec.Elem.text, readAll, Fn.Spec.read, h1, h2, h3]
      | escape c => simp [Escape.Spec.Elem.text, readAll, Fn.Spec.read]
    rw [this, Option.bind_some, ih]

/-- A literal between quotes is closed. -/
theorem closed_quoted {s : Str} (h : Escape.Spec.LiteralBody s) : Closed (Spec.quoted s) := by
  obtain ⟨es, he, rfl⟩ := h
  unfold Closed Spec.quoted
  rw [readAll_append, readAll_append]
  have e : readAll (.code, []) "\"".toList = some (.str, []) := by decide
  have e' : readAll (.str, []) "\"".toList = some (.code, []) := by decide
  rw [e, Option.bind_some, readAll_literal he, Option.bind_some, e']

/-- The texts of a class are pieces of C++: names and types with closed brackets, names and comments that fit between quotes, comments of one
line; the code of its elements is closed. -/
structure ClosedTexts (o : Options) (c : Class) : Prop where
  indent : ∀ x ∈ o.indent, x = ' '
  var : Closed c.var
  cls : Closed (Spec.className c)
  trampoline : Closed (Spec.inScope c.scope (c.name ++ "_trampoline".toList))
  bases : ∀ b ∈ c.bases, Closed b.cppName
  custom : ∀ b ∈ c.customPydef, Closed b
  location : ∀ p, c.location = some p → '\n' ∉ p.1 ∧ '\n' ∉ p.2
  pyName : Escape.Spec.LiteralBody c.pyName
  parentVar : Closed c.parentVar
  doc : Escape.Spec.LiteralBody (docOneLine o (fullComment c.previous c.eol))
  children : ∀ ch ∈ c.children, Closed (strPydef ch.pydef)
  methods : ∀ m ∈ c.protectedMethods, Closed (strPydef m.2)
  code : ∀ x, c.pydefCustom = some x → Closed x

/-- The texts of a constructor with named arguments. -/
structure ClosedNamed (c : Class) : Prop where
  names : ∀ p ∈ c.named.params, Closed p.name ∧ Closed p.default
  params : ∀ p ∈ c.named.adapted, Closed (Fn.signatureOf p)
  pyargs : ∀ a ∈ c.named.pyargs, Closed a

theorem indent_blank {o : Options} (h : ∀ x ∈ o.indent, x = ' ') : ∀ c ∈ o.indent, isSpace c = true ∧ c ≠ '\n' := by
  intro c hc
  rw [h c hc]
  decide

theorem closed_of_indent {o : Options} (h : ∀ x ∈ o.indent, x = ' ') : Closed o.indent :=
  closed_blank (fun c hc => (indent_blank h c hc).1)

theorem location_line {o : Options} {l : Option (Str × Str)} (hi : Closed o.indent) (h : ∀ p, l = some p → '\n' ∉ p.1 ∧ '\n' ∉ p.2) (st : List Char) :
    readAll (.code, st) (locationText o l "//".toList ++ ['\n']) = some (.code, st) := by
  unfold locationText
  cases hl : l with
  | none => rfl
  | some p =>
    obtain ⟨h1, h2⟩ := h p hl
    have := Fn.Spec.readAll_comment (c := " ".toList ++ p.1 ++ ":".toList ++ p.2) hi
      (nl_append (nl_append (nl_append (by decide) h1) (by decide)) h2) st
    simpa using this

/-- The head of the class. -/
theorem closed_head {lib ind var loc : Str} {args call : List Str} (hl : Closed lib) (hi : Closed ind) (hv : Closed var) (ha : ∀ x ∈ args, Closed x)
    (hloc : ∀ st, readAll (.code, st) (loc ++ ['\n']) = some (.code, st)) (hc : ∀ x ∈ call, Closed x) :
    Closed (unlines (Spec.classHead lib ind var args loc call)) := by
  have e : unlines (Spec.classHead lib ind var args loc call) = "auto ".toList ++ var ++ " =\n".toList ++ ind ++ lib ++ "::class_<".toList ++
      join ", ".toList args ++ ">".toList ++ (loc ++ ['\n']) ++ (ind ++ ind) ++ ("(".toList ++ join ", ".toList call ++ ")".toList) := by
    have e1 : " =\n".toList = " =".toList ++ ['\n'] := rfl
    simp only [Spec.classHead, unlines, join, List.append_assoc, e1]
  rw [e]
  refine closed_append (closed_append (closed_append (closed_append (closed_append (closed_append (closed_append (closed_append (closed_append
    (closed_append (by decide) hv) (by decide)) hi) hl) (by decide)) (closed_join (by decide) _ ha)) (by decide)) (hloc [])) (closed_append hi hi)) ?_
  exact Fn.Spec.closed_wrap (st := ['(']) (by decide) (closed_join (by decide) _ hc) (by decide)

theorem bases_all {P : Str → Prop} {c : Class} (hc : ∀ b ∈ c.customPydef, P b) (hall : ∀ b ∈ c.bases, P b.cppName) {bs : List Str}
    (hb : pydefBases c = some bs) : ∀ b ∈ bs, P b := by
  unfold pydefBases at hb
  split at hb
  · cases hb; exact hc
  · split at hb
    · generalize c.bases = bases at *
      cases hs : Fn.allSome (bases.map (fun b => (accessFromName b.specifier).map (fun a => (a, b.cppName)))) with
      | none => rw [hs] at hb; cases hb
      | some l =>
        rw [hs, Option.map_some, Option.some.injEq] at hb
        subst hb
        have : ∀ x ∈ l, P x.2 := by
          induction bases generalizing l with
          | nil => cases hs; simp
          | cons b bases ih =>
            rw [List.map_cons] at hs
            cases ha : accessFromName b.specifier with
            | none => rw [ha] at hs; cases hs
            | some a =>
              rw [ha, Option.map_some, Fn.allSome] at hs
              cases hs' : Fn.allSome (bases.map (fun b => (accessFromName b.specifier).map (fun a => (a, b.cppName)))) with
              | none => rw [hs'] at hs; cases hs
              | some l' =>
                rw [hs', Option.map_some, Option.some.injEq] at hs
                subst hs
                intro x hx
                rcases List.mem_cons.1 hx with rfl | hx
                · exact hall b (by simp)
                · exact ih (fun y hy => hall y (by simp [hy])) _ hs' x hx
        intro b hb
        obtain ⟨x, hx, rfl⟩ := List.mem_map.1 hb
        exact this x (List.mem_of_mem_filter hx)
    · cases hb; simp

theorem otherParams_all {P : Str → Prop} {o : Options} {c : Class} (hc : ∀ b ∈ c.customPydef, P b) (hall : ∀ b ∈ c.bases, P b.cppName)
    (hd : P ("std::unique_ptr<".toList ++ Spec.className c ++ ", py::nodelete>".toList))
    (ht : P (Spec.inScope c.scope (c.name ++ "_trampoline".toList))) {l : List Str} (h : otherParams o c = some l) : ∀ x ∈ l, P x := by
  unfold otherParams at h
  cases hb : pydefBases c with
  | none => rw [hb] at h; cases h
  | some bs =>
    rw [hb, Option.map_some, Option.some.injEq] at h
    subst h
    intro x hx
    rw [List.mem_append, List.mem_append] at hx
    rcases hx with (hx | hx) | hx
    · exact bases_all hc hall hb x hx
    · split at hx
      · rw [List.mem_singleton, qualified_eq] at hx
        exact hx ▸ hd
      · simp at hx
    · split at hx
      · rw [List.mem_singleton] at hx
        have e : (if c.scope.length > 0 then c.scope ++ "::".toList else []) ++ c.name ++ "_trampoline".toList =
            Spec.inScope c.scope (c.name ++ "_trampoline".toList) := by
          unfold Spec.inScope
          by_cases hs : c.scope = []
          · rw [if_pos hs, if_neg (by simp [hs])]; rfl
          · rw [if_neg hs, if_pos (List.length_pos_iff.2 hs), List.append_assoc]
        rw [e] at hx
        exact hx ▸ ht
      · simp at hx

theorem closed_lib (o : Fn.Options) : Closed (Fn.lib o) := by
  unfold Fn.lib; split <;> decide

theorem closed_creation {o : Options} {c : Class} (ht : Texts o c) (h : ClosedTexts o c) {s : Str} (hs : creationCode o c = some s) : Closed s := by
  unfold creationCode at hs
  cases hp : otherParams o c with
  | none => rw [hp] at hs; cases hs
  | some other =>
    rw [hp, Option.map_some, Option.some.injEq] at hs
    have hq := open_className ht
    have ho : ∀ x ∈ other, '{' ∉ x := by
      refine otherParams_all ht.custom ht.bases (open_append (open_append (by decide) hq) (by decide)) ?_ hp
      unfold Spec.inScope
      split
      · exact open_append ht.name (by decide)
      · exact open_append (open_append ht.scope (by decide)) (open_append ht.name (by decide))
    have hcl : ∀ x ∈ other, Closed x :=
      otherParams_all h.custom h.bases (closed_append (closed_append (by decide) h.cls) (by decide)) h.trampoline hp
    rw [creation_text o c ht other ho] at hs
    rw [← hs]
    refine closed_head (closed_lib _) (closed_of_indent h.indent) h.var ?_ (location_line (closed_of_indent h.indent) h.location) ?_
    · intro x hx
      rcases List.mem_cons.1 hx with rfl | hx
      · exact h.cls
      · rcases List.mem_append.1 hx with hx | hx
        · exact hcl x hx
        · split at hx
          · rw [List.mem_singleton] at hx
            subst hx
            exact closed_append (closed_append (by decide) h.cls) (by decide)
          · simp at hx
    · intro x hx
      unfold Spec.classCall at hx
      simp only [List.mem_append, List.mem_cons, List.not_mem_nil, or_false] at hx
      rcases hx with ((hx | hx) | hx) | hx
      · rcases hx with rfl | rfl
        · exact h.parentVar
        · exact closed_quoted h.pyName
      · split at hx
        · rw [List.mem_singleton] at hx; subst hx; exact closed_append (closed_lib _) (by decide)
        · simp at hx
      · split at hx
        · rw [List.mem_singleton] at hx; subst hx; exact closed_append (closed_lib _) (by decide)
        · simp at hx
      · subst hx
        exact closed_quoted h.doc

theorem closed_flatMap {α : Type} (l : List α) (f : α → Str) (h : ∀ x ∈ l, Closed (f x)) : Closed (l.flatMap f) := by
  induction l with
  | nil => exact closed_nil
  | cons x l ih =>
    rw [List.flatMap_cons]
    exact closed_append (h x (by simp)) (ih (fun y hy => h y (by simp [hy])))

theorem closed_indented {o : Options} (hi : ∀ x ∈ o.indent, x = ' ') {ls : List Str} (h : Closed (strPydef ls)) : Closed (indented o ls) := by
  unfold indented Indent.indentCode Indent.indentAll
  rw [if_neg (by simp)]
  refine closed_indent (indent_blank hi) h ?_
  unfold strPydef
  split
  · intro x hx
    have e : lines [] = [[]] := rfl
    rw [e] at hx
    cases hx
    rfl
  · exact endsWell_nl _

theorem literal_nl {s : Str} (h : Escape.Spec.LiteralBody s) : '\n' ∉ s := by
  obtain ⟨es, he, rfl⟩ := h
  unfold Escape.Spec.text
  rw [List.mem_flatMap]
  rintro ⟨e, hm, hx⟩
  have := he e hm
  cases e with
  | ordinary c =>
    rw [Escape.Spec.Elem.text, List.mem_singleton] at hx
    exact this.2.2 hx.symm
  | escape c =>
    rw [Escape.Spec.Elem.text, List.mem_cons, List.mem_singleton] at hx
    rcases hx with hx | hx
    · exact absurd hx (by decide)
    · exact this hx.symm

theorem closed_inner {o : Options} {c : Class} (h : ClosedTexts o c) : Closed (innerCode o c ++ "\n".toList) := by
  have hn := literal_nl h.pyName
  unfold innerCode
  dsimp only
  split
  · have hb : Closed ((c.children.filter isInner).flatMap (fun ch => indented o ch.pydef)) :=
      closed_flatMap _ _ (fun ch hch => closed_indented h.indent (h.children ch (List.mem_of_mem_filter hch)))
    generalize (c.children.filter isInner).flatMap (fun ch => indented o ch.pydef) = b at *
    have e1 : "\n{ // inner classes & enums of ".toList = "\n{ ".toList ++ ('/' :: '/' :: " inner classes & enums of ".toList) := rfl
    have e2 : "} // end of inner classes & enums of ".toList = "} ".toList ++ ('/' :: '/' :: " end of inner classes & enums of ".toList) := rfl
    have e3 : "\n".toList = ['\n'] := rfl
    have r1 : readAll (.code, []) "\n{ ".toList = some (.code, ['{']) := by decide
    have r2 : readAll (.code, ['{']) "} ".toList = some (.code, []) := by decide
    have r3 : ∀ st, readAll (.code, st) ('/' :: '/' :: " inner classes & enums of ".toList ++ c.pyName ++ ['\n']) = some (.code, st) := by
      intro st
      have := Fn.Spec.readAll_comment (ind := []) (c := " inner classes & enums of ".toList ++ c.pyName) closed_nil
        (nl_append (by decide) hn) st
      simpa using this
    have r4 : ∀ st, readAll (.code, st) ('/' :: '/' :: " end of inner classes & enums of ".toList ++ c.pyName ++ ['\n']) = some (.code, st) := by
      intro st
      have := Fn.Spec.readAll_comment (ind := []) (c := " end of inner classes & enums of ".toList ++ c.pyName) closed_nil
        (nl_append (by decide) hn) st
      simpa using this
    rw [e1, e2, e3]
    have e4 : "\n{ ".toList ++ ('/' :: '/' :: " inner classes & enums of ".toList) ++ c.pyName ++ ['\n'] ++ b ++
        ("} ".toList ++ ('/' :: '/' :: " end of inner classes & enums of ".toList)) ++ c.pyName ++ ['\n'] =
        "\n{ ".toList ++ (('/' :: '/' :: " inner classes & enums of ".toList ++ c.pyName ++ ['\n']) ++ (b ++ ("} ".toList ++
          ('/' :: '/' :: " end of inner classes & enums of ".toList ++ c.pyName ++ ['\n'])))) := by
      simp only [List.append_assoc]
    rw [e4]
    unfold Closed
    rw [readAll_append, r1, Option.bind_some, readAll_append, r3, Option.bind_some, readAll_append, hb.read, Option.bind_some, readAll_append,
      r2, Option.bind_some, r4]
  · decide

/-- A text that is code from its beginning to its end, and what it does to the open brackets. -/
def Reads (a : Str) (st st' : List Char) : Prop := readAll (.code, st) a = some (.code, st')

instance (a : Str) (st st' : List Char) : Decidable (Reads a st st') := inferInstanceAs (Decidable (_ = _))

theorem Reads.append {a b : Str} {s t u : List Char} (ha : Reads a s t) (hb : Reads b t u) : Reads (a ++ b) s u := by
  unfold Reads at *
  rw [readAll_append, ha, Option.bind_some, hb]

theorem Reads.closed {a : Str} (h : Closed a) (st : List Char) : Reads a st st := h.read st

theorem reads_flatMap {l : List Str} (st : List Char) (h : ∀ x ∈ l, Reads (x ++ ['\n']) st st) : Reads (l.flatMap (· ++ ['\n'])) st st := by
  induction l with
  | nil => rfl
  | cons x l ih =>
    rw [List.flatMap_cons]
    exact (h x (by simp)).append (ih (fun y hy => h y (by simp [hy])))

theorem unlines_nl {l : List Str} (h : l ≠ []) : unlines l ++ ['\n'] = l.flatMap (· ++ ['\n']) := by
  have := unlines_concat l []
  rw [List.append_nil] at this
  rw [← this]
  unfold unlines
  rw [Verif.Type.join_append h (by simp)]
  simp

theorem closed_sets {o : Options} {c : Class} (hi : Closed o.indent) (h : ClosedNamed c) : ∀ l ∈ setsOf o c.named, Closed l := by
  intro l hl
  obtain ⟨p, hp, hl⟩ := List.mem_flatMap.1 hl
  obtain ⟨h1, h2⟩ := h.names p hp
  unfold Spec.setLines at hl
  split at hl
  · simp only [List.mem_cons, List.not_mem_nil, or_false] at hl
    rcases hl with rfl | rfl | rfl | rfl
    · exact Reads.append (t := ['(']) (Reads.append (t := ['(']) (by decide) (.closed h1 _)) (by decide)
    · exact closed_append (closed_append (closed_append (closed_append (closed_append hi (by decide)) h1) (by decide)) h1) (by decide)
    · decide
    · exact closed_append (closed_append (closed_append (closed_append (closed_append hi (by decide)) h1) (by decide)) h2) (by decide)
  · rw [List.mem_singleton] at hl
    subst hl
    exact closed_append (closed_append (closed_append (closed_append (by decide) h1) (by decide)) h1) (by decide)

theorem closed_namedLines {o : Options} {c : Class} (hi : Closed o.indent) (hq : Closed (Spec.className c)) (h : ClosedNamed c) :
    Closed (unlines ((Spec.namedLines o.nanobind o.indent (Spec.className c) (c.named.adapted.map Fn.signatureOf) (setsOf o c.named)
      c.named.pyargs).map (o.indent ++ ·)) ++ "\n".toList) := by
  have hP : Closed (join ", ".toList (c.named.adapted.map Fn.signatureOf)) := by
    refine closed_join (by decide) _ (fun x hx => ?_)
    obtain ⟨p, hp, rfl⟩ := List.mem_map.1 hx
    exact h.params p hp
  have hA : Closed (join ", ".toList c.named.pyargs) := closed_join (by decide) _ h.pyargs
  have hS := closed_sets hi h
  have hn : Closed ['\n'] := by decide
  have e : "\n".toList = ['\n'] := rfl
  have hsets : ∀ st, Reads ((((setsOf o c.named).map (o.indent ++ ·)).map (o.indent ++ ·)).flatMap (· ++ ['\n'])) st st := by
    intro st
    refine reads_flatMap st (fun x hx => ?_)
    obtain ⟨y, hy, rfl⟩ := List.mem_map.1 hx
    obtain ⟨z, hz, rfl⟩ := List.mem_map.1 hy
    exact .closed (closed_append (closed_append hi (closed_append hi (hS z hz))) hn) st
  have line : ∀ {l : Str} {s t : List Char}, Reads l s t → Reads (o.indent ++ l ++ ['\n']) s t := fun hl =>
    Reads.append (Reads.append (.closed hi _) hl) (.closed hn _)
  rw [e, unlines_nl (by unfold Spec.namedLines; split <;> simp)]
  unfold Spec.namedLines
  generalize setsOf o c.named = S at *
  generalize join ", ".toList (c.named.adapted.map Fn.signatureOf) = P at *
  generalize join ", ".toList c.named.pyargs = A at *
  generalize Spec.className c = q at *
  generalize o.indent = i at *
  split
  · rw [List.map_append, List.map_append, List.flatMap_append, List.flatMap_append]
    simp only [List.map_cons, List.map_nil, List.flatMap_cons, List.flatMap_nil, List.append_nil]
    refine Reads.append (t := ['{', '(']) (Reads.append (t := ['{', '(']) ?_ (hsets _)) ?_
    · refine Reads.append (t := ['(']) (line (Reads.append (t := ['(', '(']) (Reads.append (t := ['(', '(']) (by decide) (.closed hP _)) (by decide)))
        (Reads.append (t := ['{', '(']) (line (by decide)) (Reads.append (t := ['{', '(']) ?_ (line (.append (.closed hi _) (by decide)))))
      have : i ++ (i ++ "new (self) ".toList ++ q ++ "();  // placement new".toList) ++ ['\n'] =
          i ++ (i ++ "new (self) ".toList ++ q) ++ ("();  // placement new".toList ++ ['\n']) := by simp only [List.append_assoc]
      rw [this]
      exact Reads.append (t := ['{', '(']) (.append (.closed hi _) (.append (t := ['{', '(']) (.append (t := ['{', '(']) (.closed hi _) (by decide)) (.closed hq _))) (by decide)
    · exact Reads.append (t := ['(']) (line (by decide)) (Reads.append (t := ['(']) (line (.closed hA _)) (line (by decide)))
  · rw [List.map_append, List.map_append, List.flatMap_append, List.flatMap_append]
    simp only [List.map_cons, List.map_nil, List.flatMap_cons, List.flatMap_nil, List.append_nil]
    refine Reads.append (t := ['{', '(', '(']) (Reads.append (t := ['{', '(', '(']) ?_ (hsets _)) ?_
    · refine Reads.append (t := ['(', '(', '(']) (line (by decide)) (Reads.append (t := ['(', '(']) (line (.append (.closed hP _) (by decide)))
        (Reads.append (t := ['{', '(', '(']) (line (by decide)) (line ?_)))
      exact Reads.append (t := ['{', '(', '(']) (.append (t := ['{', '(', '(']) (.append (.closed hi _) (by decide)) (.closed hq _)) (by decide)
    · exact Reads.append (t := ['{', '(', '(']) (line (.append (.closed hi _) (by decide))) (Reads.append (t := ['(']) (line (by decide))
        (Reads.append (t := ['(']) (line (.append (t := ['(']) (by decide) (.closed hA _))) (line (by decide))))

theorem copyOne_eq (o : Options) (c : Class) (hi : '{' ∉ o.indent) (hq : '{' ∉ Spec.className c) :
    copyOne o c "copy".toList = unlines (Spec.copyLines (Fn.lib o.toOptions) o.indent (Spec.className c) false) ∧
    copyOne o c "deepcopy".toList = unlines (Spec.copyLines (Fn.lib o.toOptions) o.indent (Spec.className c) true) := by
  have hl := open_lib o.toOptions
  constructor
  · unfold copyOne
    dsimp only
    rw [if_pos rfl, if_pos rfl, qualified_eq, copy_fill _ _ _ _ _ (fun x => ?_) hi hq (by decide) (by decide) (by decide)]
    · unfold Spec.copyLines
      rw [if_neg (by simp)]
      have e1 : ".def(\"__copy__\",  [](const ".toList = ".def(\"__".toList ++ "copy".toList ++ "__\",  [](const ".toList := by decide
      have e2 : " &self) {".toList = " &self".toList ++ ") {".toList := by decide
      have e3 : "})".toList = "}".toList ++ ")".toList := by decide
      rw [e1, e2, e3]
      simp only [List.append_assoc, List.nil_append]
    · rw [List.append_assoc, List.append_assoc]
      exact Fn.tidy_after (c := '}') (y := [')']) (by decide) (by decide +kernel)
  · have hne : ¬ "deepcopy".toList = "copy".toList := by decide
    unfold copyOne
    dsimp only
    rw [if_neg hne, if_neg hne, qualified_eq, copy_fill _ _ _ _ _ (fun x => ?_) hi hq (by decide)
      (open_append (open_append (by decide) hl) (by decide)) (open_append (open_append (by decide) hl) (by decide))]
    · unfold Spec.copyLines
      rw [if_pos rfl]
      have e1 : ".def(\"__deepcopy__\",  [](const ".toList = ".def(\"__".toList ++ "deepcopy".toList ++ "__\",  [](const ".toList := by decide
      have e2 : " &self, ".toList = " &self".toList ++ ", ".toList := by decide
      have e3 : "::dict) {".toList = "::dict".toList ++ ") {".toList := by decide
      have e4 : "}, ".toList = "}".toList ++ ", ".toList := by decide
      have e5 : "::arg(\"memo\"))".toList = "::arg(\"memo\")".toList ++ ")".toList := by decide
      rw [e1, e2, e3, e4, e5]
      simp only [List.append_assoc]
    · rw [List.append_assoc, List.append_assoc]
      refine Fn.tidy_after (c := '}') (y := (", ".toList ++ Fn.lib o.toOptions ++ "::arg(\"memo\")".toList) ++ ")".toList) (by decide) ?_
      unfold Fn.lib
      split <;> decide +kernel

/-- The bindings of the copies that the class supports. -/
def copiesOf (o : Options) (c : Class) : List Str :=
  (if shallCopy o c "copy".toList then [unlines (Spec.copyLines (Fn.lib o.toOptions) o.indent (Spec.className c) false)] else []) ++
  (if shallCopy o c "deepcopy".toList then [unlines (Spec.copyLines (Fn.lib o.toOptions) o.indent (Spec.className c) true)] else [])

theorem copyPydef_eq (o : Options) (c : Class) (hi : '{' ∉ o.indent) (hq : '{' ∉ Spec.className c) :
    copyPydef o c = join "\n".toList (copiesOf o c) := by
  obtain ⟨h1, h2⟩ := copyOne_eq o c hi hq
  unfold copyPydef copiesOf
  cases e1 : shallCopy o c "copy".toList <;> cases e2 : shallCopy o c "deepcopy".toList <;>
    simp only [List.filter_cons, List.filter_nil, e1, e2, if_true, if_false, Bool.false_eq_true, List.map_cons, List.map_nil, h1, h2,
      List.nil_append, List.append_nil, List.cons_append]

theorem closed_copyLines {lib ind cls : Str} (hl : Closed lib) (hi : Closed ind) (hc : Closed cls) (deep : Bool) :
    Closed (unlines (Spec.copyLines lib ind cls deep)) := by
  have hn : ∀ st, Reads ['\n'] st st := fun st => .closed (by decide) st
  unfold Spec.copyLines
  split
  · refine Reads.append (t := ['{', '(']) (Reads.append (t := ['{', '(']) ?_ (hn _)) (Reads.append (t := ['{', '(']) (Reads.append (t := ['{', '(']) ?_ (hn _)) ?_)
    · exact Reads.append (t := ['(', '(']) (.append (t := ['(', '(']) (.append (t := ['(', '(']) (.append (t := ['(', '(']) (by decide) (.closed hc _)) (by decide)) (.closed hl _)) (by decide)
    · exact Reads.append (t := ['{', '(']) (.append (t := ['{', '(']) (.append (t := ['{', '(']) (.closed hi _) (by decide)) (.closed hc _)) (by decide)
    · exact Reads.append (t := ['(']) (.append (t := ['(']) (by decide) (.closed hl _)) (by decide)
  · refine Reads.append (t := ['{', '(']) (Reads.append (t := ['{', '(']) ?_ (hn _)) (Reads.append (t := ['{', '(']) (Reads.append (t := ['{', '(']) ?_ (hn _)) ?_)
    · exact Reads.append (t := ['(', '(']) (.append (t := ['(', '(']) (by decide) (.closed hc _)) (by decide)
    · exact Reads.append (t := ['{', '(']) (.append (t := ['{', '(']) (.append (t := ['{', '(']) (.closed hi _) (by decide)) (.closed hc _)) (by decide)
    · decide

theorem copyLines_last (lib ind cls : Str) (deep : Bool) : ∃ x, unlines (Spec.copyLines lib ind cls deep) = x ++ [')'] := by
  unfold Spec.copyLines
  split
  · have e : "::arg(\"memo\"))".toList = "::arg(\"memo\")".toList ++ [')'] := by decide
    rw [e]
    simp only [unlines, join, ← List.append_assoc]
    exact ⟨_, rfl⟩
  · have e : "})".toList = ['}'] ++ [')'] := by decide
    rw [e]
    simp only [unlines, join, ← List.append_assoc]
    exact ⟨_, rfl⟩

theorem closed_copyCode {o : Options} {c : Class} (hi : ∀ x ∈ o.indent, x = ' ') (hq : '{' ∉ Spec.className c) (hc : Closed (Spec.className c)) :
    Closed (copyCode o c) := by
  have hio : '{' ∉ o.indent := fun h => absurd (hi _ h) (by decide)
  have hcl := closed_copyLines (closed_lib o.toOptions) (closed_of_indent hi) hc
  unfold copyCode Indent.indentCode Indent.indentAll
  rw [if_neg (by simp), copyPydef_eq o c hio hq]
  refine closed_indent (indent_blank hi) (closed_join (by decide) _ ?_) ?_
  · intro x hx
    unfold copiesOf at hx
    rcases List.mem_append.1 hx with hx | hx
    · split at hx
      · rw [List.mem_singleton] at hx; exact hx ▸ hcl false
      · simp at hx
    · split at hx
      · rw [List.mem_singleton] at hx; exact hx ▸ hcl true
      · simp at hx
  · obtain ⟨a, ha⟩ := copyLines_last (Fn.lib o.toOptions) o.indent (Spec.className c) false
    obtain ⟨b, hb⟩ := copyLines_last (Fn.lib o.toOptions) o.indent (Spec.className c) true
    unfold copiesOf
    rw [ha, hb]
    split <;> split
    · show EndsWell ((a ++ [')']) ++ "\n".toList ++ (b ++ [')']))
      rw [← List.append_assoc]
      exact endsWell_ink _ ')' (by decide)
    · exact endsWell_ink _ ')' (by decide)
    · exact endsWell_ink _ ')' (by decide)
    · intro x hx
      have e : lines (join "\n".toList ([] ++ [])) = [[]] := rfl
      rw [e] at hx
      cases hx
      rfl

theorem iterableLines_ne (nano : Bool) (q : Str) : Spec.iterableLines nano q ≠ [] :=
  List.append_ne_nil_of_right_ne_nil _ (List.cons_ne_nil _ _)

theorem iterable_fill (nano : Bool) (ind q : Str) (hi : '{' ∉ ind) (hq : '{' ∉ q) :
    Template.processCodeTemplate (Indent.unindentCode (iterableTemplateRaw nano) true ++ "\n".toList)
      [("_i_".toList, ind), ("qualified_struct_name".toList, q)] = unlines (Spec.iterableLines nano q) ++ ['\n'] := by
  cases nano with
  | true =>
    rw [iterNb_fill ind q hi hq, unlines_nl (iterableLines_ne _ _)]
    unfold Spec.iterableLines
    rw [if_pos rfl, List.flatMap_append]
    simp only [unlines, join, List.flatMap_cons, List.flatMap_nil, List.append_nil, List.append_assoc]
  | false =>
    rw [iterPy_fill ind q hi hq, unlines_nl (iterableLines_ne _ _)]
    unfold Spec.iterableLines
    rw [if_neg (by simp), List.flatMap_append]
    simp only [unlines, join, List.flatMap_cons, List.flatMap_nil, List.append_nil, List.append_assoc]

theorem closed_iterableLines {q : Str} (hq : Closed q) (nano : Bool) : Closed (unlines (Spec.iterableLines nano q) ++ ['\n']) := by
  have hn : ∀ st, Reads ['\n'] st st := fun st => .closed (by decide) st
  rw [unlines_nl (iterableLines_ne _ _)]
  unfold Spec.iterableLines
  rw [List.flatMap_append]
  refine Reads.append (t := []) ?_ ?_
  · split
    · simp only [List.flatMap_cons, List.flatMap_nil, List.append_nil]
      refine Reads.append (t := ['{', '(']) (.append (t := ['{', '(']) ?_ (hn _)) (.append (t := ['{', '(']) (.append (t := ['{', '(']) ?_ (hn _)) (by decide))
      · exact Reads.append (t := ['(', '(']) (.append (t := ['(', '(']) (by decide) (.closed hq _)) (by decide)
      · exact Reads.append (t := ['(', '{', '(']) (.append (t := ['(', '{', '(']) (by decide) (.closed hq _)) (by decide)
    · simp only [List.flatMap_cons, List.flatMap_nil, List.append_nil]
      exact Reads.append (t := []) (.append (t := ['(', '(']) (.append (t := ['(', '(']) (by decide) (.closed hq _)) (by decide)) (hn _)
  · simp only [List.flatMap_cons, List.flatMap_nil, List.append_nil]
    exact Reads.append (t := []) (.append (t := ['(', '(']) (.append (t := ['(', '(']) (by decide) (.closed hq _)) (by decide)) (hn _)

theorem closed_iterable {o : Options} {c : Class} (hi : '{' ∉ o.indent) (hq : '{' ∉ Spec.className c) (hc : Closed (Spec.className c)) :
    Closed (iterableCode o c) := by
  unfold iterableCode
  split
  · exact closed_nil
  · rw [qualified_eq, iterable_fill _ _ _ hi hq]
    unfold Indent.indentCode Indent.indentAll
    rw [if_neg (by simp)]
    refine closed_indent ?_ (closed_iterableLines hc _) (endsWell_nl _)
    intro x hx
    rw [Indent.mem_spaces hx]
    decide

theorem wants_of {o : Options} {c : Class} (h : namedFlag o c = true) : WantsNamed o c := by
  unfold namedFlag at h
  split at h
  · cases h
  split at h
  · cases h
  rename_i h1 h2
  refine ⟨h, fun s hs hc => ?_, fun s hs => ?_⟩
  · by_contra hp
    refine h1 (List.any_eq_true.2 ⟨s, hs, ?_⟩)
    rw [hc, Bool.true_and, decide_eq_true_iff]
    exact List.length_pos_iff.2 hp
  · by_contra hp
    rw [not_or, not_not] at hp
    refine h2 (List.any_eq_true.2 ⟨s, hs, ?_⟩)
    rw [Bool.and_eq_true, Bool.not_eq_true', decide_eq_true_iff, ← Bool.not_eq_true]
    exact hp

theorem self_of_sets {o : Options} {c : Class} (hs : SameNames o c) {x : Str} (h : setValues o c.named = some x) :
    o.nanobind = true ∨ (c.named.params.map (·.name)).head? ≠ some "self".toList := by
  by_contra hp
  rw [not_or, not_not, Bool.not_eq_true] at hp
  obtain ⟨h1, h2⟩ := hp
  unfold SameNames at hs
  rw [h1, if_neg (by simp), List.nil_append] at hs
  have hlen := congrArg List.length hs
  rw [List.length_map, List.length_map] at hlen
  rw [← hs] at h2
  unfold setValues at h
  dsimp only at h
  cases ha : c.named.adapted with
  | nil => rw [ha] at h2; cases h2
  | cons p r =>
    rw [ha, List.map_cons, List.head?_cons, Option.some.injEq] at h2
    rw [if_pos] at h
    · cases h
    · rw [ha] at hlen ⊢
      have e : withoutSelf (p :: r) = r := if_pos h2
      rw [e, ← hlen, List.length_cons]
      exact Nat.succ_ne_self _

theorem closed_line {a : Str} (c : Str) (ha : Closed a) (hc : '\n' ∉ c) : Closed (a ++ ("//".toList ++ c ++ ['\n'])) := by
  unfold Closed
  have := Fn.Spec.readAll_comment ha hc []
  have e : a ++ ("//".toList ++ c ++ ['\n']) = a ++ '/' :: '/' :: c ++ ['\n'] := by
    show a ++ (('/' :: '/' :: c) ++ ['\n']) = _
    rw [List.append_assoc]
  rw [e]
  exact this

theorem closed_init {o : Options} (hi : Closed o.indent) (c : Str) (hc : '\n' ∉ c) :
    Closed (o.indent ++ ".def(".toList ++ Fn.lib o.toOptions ++ "::init<>()) ".toList ++ ("//".toList ++ c ++ ['\n'])) := by
  refine closed_line c ?_ hc
  exact Reads.append (t := ['(']) (.append (t := ['(']) (.append (t := []) (.closed hi _) (by decide)) (.closed (closed_lib _) _)) (by decide)

theorem closed_named {o : Options} {c : Class} (hi : ∀ x ∈ o.indent, x = ' ') (hq : Closed (Spec.className c))
    (hn : c.named.params ≠ [] → NamedTexts o c ∧ SameNames o c ∧ ClosedNamed c) {s : Str} (h : namedPydef o c = some s) : Closed s := by
  have hio := closed_of_indent hi
  have e1 : "::init<>()) // implicit default constructor\n".toList = "::init<>()) ".toList ++ ("//".toList ++ " implicit default constructor".toList ++ ['\n']) := by decide
  have e2 : "::init<>()) // implicit default constructor \n".toList = "::init<>()) ".toList ++ ("//".toList ++ " implicit default constructor ".toList ++ ['\n']) := by decide
  have h0 := h
  unfold namedPydef at h
  dsimp only at h
  split at h
  · cases h
    rw [e1, ← List.append_assoc]
    exact closed_init hio _ (by decide)
  · split at h
    · cases h; exact closed_nil
    · rename_i hf
      split at h
      · cases h; exact closed_nil
      · split at h
        · cases h
          rw [e2, ← List.append_assoc]
          exact closed_init hio _ (by decide)
        · rename_i hl
          have hne : c.named.params ≠ [] := fun e => hl (by rw [e]; rfl)
          obtain ⟨ht, hs, hc⟩ := hn hne
          have hw := wants_of (by simpa using hf)
          obtain ⟨x, hx, -⟩ := Option.map_eq_some_iff.1 h
          rw [C74_partial o c ht hs hw hne (self_of_sets hs hx), Option.some.injEq] at h0
          rw [← h0]
          exact closed_namedLines hio hq hc

theorem closed_ctor {o : Options} {c : Class} (hi : ∀ x ∈ o.indent, x = ' ') (hq : Closed (Spec.className c))
    (hn : c.named.params ≠ [] → NamedTexts o c ∧ SameNames o c ∧ ClosedNamed c) {s : Str} (h : defaultCtorCode o c = some s) : Closed s := by
  unfold defaultCtorCode at h
  split at h
  · cases h
    have e : "// (default constructor explicitly deleted)\n".toList = "//".toList ++ " (default constructor explicitly deleted)".toList ++ ['\n'] := by decide
    rw [e]
    exact closed_line _ (closed_of_indent hi) (by decide)
  · split at h
    · exact closed_named hi hq hn h
    · cases h; exact closed_nil

/-- C71. For every class whose names, types and default values are closed pieces of C++ and whose elements have closed bindings: if the binding
of the class is made, it is closed, all brackets, literals and comments included, whatever the class contains; and apart from the custom code of
the options it is closed code followed by the semicolon that ends the statement. -/
theorem C71_closed (o : Options) (c : Class) (ht : Texts o c) (h : ClosedTexts o c)
    (hn : c.named.params ≠ [] → NamedTexts o c ∧ SameNames o c ∧ ClosedNamed c) (code : Str) (hcode : pydefCode o c = some code) :
    Closed code ∧ ∃ body, Closed body ∧
      code = body ++ ";".toList ++ (match c.pydefCustom with | none => [] | some x => "\n".toList ++ x ++ "\n".toList) := by
  unfold pydefCode at hcode
  obtain ⟨head, hh, hcode⟩ := Option.bind_eq_some_iff.1 hcode
  obtain ⟨body, hb, rfl⟩ := Option.map_eq_some_iff.1 hcode
  unfold childrenCode at hb
  obtain ⟨d, hd, rfl⟩ := Option.map_eq_some_iff.1 hb
  have hio := closed_of_indent h.indent
  have hnl : Closed "\n".toList := by decide
  have hbody : Closed (d ++ publicCode o c ++ protectedCode o c ++ copyCode o c ++ iterableCode o c) :=
    closed_append (closed_append (closed_append (closed_append (closed_ctor h.indent h.cls hn hd)
      (closed_flatMap _ _ (fun ch hch => closed_indented h.indent (h.children ch (List.mem_of_mem_filter hch)))))
      (closed_flatMap _ _ (fun m hm => closed_indented h.indent (h.methods m hm))))
      (closed_copyCode h.indent (open_className ht) h.cls)) (closed_iterable ht.indent (open_className ht) h.cls)
  generalize d ++ publicCode o c ++ protectedCode o c ++ copyCode o c ++ iterableCode o c = b at *
  have hhead := closed_creation ht h hh
  have hinner := closed_inner h
  dsimp only
  have hx : Closed ((if (innerCode o c).length > 0 then head ++ ";\n".toList ++ innerCode o c ++ "\n\n".toList ++ c.var ++ "\n".toList ++ b
     else head ++ "\n".toList ++ b) ++ o.indent) := by
    refine closed_append ?_ hio
    split
    · have e : "\n\n".toList = "\n".toList ++ "\n".toList := by decide
      rw [e]
      have : Closed (head ++ ";\n".toList ++ (innerCode o c ++ "\n".toList) ++ "\n".toList ++ c.var ++ "\n".toList ++ b) :=
        closed_append (closed_append (closed_append (closed_append (closed_append (closed_append hhead (by decide)) hinner) hnl) h.var) hnl) hbody
      simp only [List.append_assoc] at this ⊢
      exact this
    · exact closed_append (closed_append hhead hnl) hbody
  refine ⟨?_, _, hx, rfl⟩
  refine closed_append (closed_append hx (by decide)) ?_
  cases hp : c.pydefCustom with
  | none => exact closed_nil
  | some x => exact closed_append (closed_append hnl (h.code x hp)) hnl

theorem literal_plain {s : Str} (h : ∀ c ∈ s, c ≠ '"' ∧ c ≠ '\\' ∧ c ≠ '\n') : Escape.Spec.LiteralBody s := by
  refine ⟨s.map .ordinary, ?_, ?_⟩
  · intro e he
    obtain ⟨c, hc, rfl⟩ := List.mem_map.1 he
    exact h c hc
  · induction s with
    | nil => rfl
    | cons c s ih =>
      have ih := ih (fun x hx => h x (by simp [hx]))
      unfold Escape.Spec.text at *
      rw [List.map_cons, List.flatMap_cons, ← ih]
      rfl

theorem closedTexts_demo : ClosedTexts demoO demoNamed := by
  constructor
  case pyName => exact literal_plain (by decide +kernel)
  case doc => exact literal_plain (by decide +kernel)
  case location =>
    intro p hp
    have e : demoNamed.location = some ("lib.h".toList, "3".toList) := rfl
    rw [e, Option.some.injEq] at hp
    subst hp
    decide
  case code => intro x hx; cases hx
  all_goals decide +kernel

example : Texts demoO demoNamed ∧ ClosedTexts demoO demoNamed ∧ NamedTexts demoO demoNamed ∧ SameNames demoO demoNamed ∧ ClosedNamed demoNamed ∧
    (pydefCode demoO demoNamed).isSome = true := by
  refine ⟨{ texts_demo with }, closedTexts_demo, namedTexts_demo, ?_, ?_, ?_⟩
  · unfold SameNames; decide +kernel
  · constructor <;> decide +kernel
  · decide +kernel

end Verif.Cls.Props
