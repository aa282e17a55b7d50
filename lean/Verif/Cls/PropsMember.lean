import Verif.Cls.Lemmas
import Verif.Cls.Demo
import Verif.Fn.PropsDoc
import Verif.Glue.PropsTramp

/-! Properties of the data members of classes (C68, C69). -/

namespace Verif.Cls.Props
open Verif.Py Verif.Type Verif.Adapt Verif.Cls

/-! ### Remarks at the end of a line -/

theorem strip_append_blank {B w : Str} (h : ∀ c ∈ w, isSpace c = true) : strip (B ++ w) = strip B := by
  unfold strip
  have : lstrip (B ++ w) = lstrip B ++ w ∨ (lstrip (B ++ w) = [] ∧ lstrip B = []) := by
    by_cases hb : ∀ c ∈ B, isSpace c = true
    · right
      refine ⟨(lstrip_eq_nil_iff _).2 ?_, (lstrip_eq_nil_iff _).2 hb⟩
      intro c hc
      rcases List.mem_append.1 hc with hc | hc
      · exact hb c hc
      · exact h c hc
    · left
      induction B with
      | nil => exact absurd (by simp) hb
      | cons x xs ih =>
        by_cases hx : isSpace x = true
        · have hb' : ¬ ∀ c ∈ xs, isSpace c = true := by
            intro hh; apply hb; intro c hc
            rcases List.mem_cons.1 hc with rfl | hc
            · exact hx
            · exact hh c hc
          have e1 := ih hb'
          unfold lstrip at *
          rw [List.cons_append, List.dropWhile_cons, if_pos hx, List.dropWhile_cons, if_pos hx, e1]
        · unfold lstrip
          rw [List.cons_append, List.dropWhile_cons, if_neg hx, List.dropWhile_cons, if_neg hx]
          rfl
  rcases this with e | ⟨e1, e2⟩
  · rw [e, rstrip_append_of_all h]
  · rw [e1, e2]

/-- Remarks: what stands before the `#` and what stands after it. -/
def remarksText (L : List (Str × Str)) : Str := L.flatMap (fun p => p.1 ++ '#' :: p.2)

theorem split_remarks (L : List (Str × Str)) (hL : ∀ p ∈ L, (∀ c ∈ p.1, isSpace c = true) ∧ '#' ∉ p.2) (B : Str) (hB : '#' ∉ B) :
    (splitOn '#' (B ++ remarksText L)).map strip = strip B :: L.map (fun p => strip p.2) := by
  induction L generalizing B with
  | nil =>
    rw [show remarksText [] = [] from rfl, List.append_nil, splitOn_of_not_mem hB]
    rfl
  | cons p L ih =>
    have h1 := hL p (by simp)
    have hp : '#' ∉ p.1 := by
      intro hm
      have := h1.1 _ hm
      revert this; decide
    have e : B ++ remarksText (p :: L) = (B ++ p.1) ++ '#' :: (p.2 ++ remarksText L) := by
      show B ++ ((p.1 ++ '#' :: p.2) ++ remarksText L) = _
      simp
    rw [e, splitOn_append_sep (by simp [hB, hp]), List.map_cons, strip_append_blank h1.1,
      ih (fun q hq => hL q (by simp [hq])) p.2 h1.2]
    rfl

theorem remarks_eq (L : List (Str × Str)) (hL : ∀ p ∈ L, (∀ c ∈ p.1, isSpace c = true) ∧ '#' ∉ p.2) (B : Str) (hB : '#' ∉ B) :
    Spec.remarks (B ++ remarksText L) = L.map (fun p => strip p.2) := by
  unfold Spec.remarks
  rw [List.map_drop, split_remarks L hL B hB]
  rfl

/-! ### C68: binding and stub of a member -/

/-- The binding of a member and its line in the stub say the same. -/
def C68_statement : Prop := ∀ (o : Options) (owner : Str) (m : Member) (l : Str), canPublish o m = true → stubLine o m = some l →
  Spec.readBinding (memberPydef o owner m) = some (Spec.readStub l)

/-- C68. It fails: an array of numbers has no setter (its lambda takes no value), and its stub does not say that it cannot be set; a comment
`(const)` in the C++ code is read as a remark on the stub. -/
theorem C68_fails : ¬ C68_statement ∧
    (∀ o, o = demoO ∨ o = { demoO with nanobind := true } →
      canPublish o demoArray = true ∧ (stubLine o demoArray).map Spec.readStub = some ⟨"x".toList, false, true⟩ ∧
      Spec.readBinding (memberPydef o "Foo".toList demoArray) = some ⟨"x".toList, false, false⟩) ∧
    (stubLine demoO { demoMember with eol := " (const)".toList }).map Spec.readStub = some ⟨"x".toList, false, false⟩ ∧
      Spec.readBinding (memberPydef demoO "Foo".toList { demoMember with eol := " (const)".toList }) = some ⟨"x".toList, false, true⟩ := by
  have key : ∀ o, o = demoO ∨ o = { demoO with nanobind := true } →
      canPublish o demoArray = true ∧ (stubLine o demoArray).map Spec.readStub = some ⟨"x".toList, false, true⟩ ∧
      Spec.readBinding (memberPydef o "Foo".toList demoArray) = some ⟨"x".toList, false, false⟩ := by
    rintro o (rfl | rfl) <;> decide +kernel
  refine ⟨?_, key, by decide +kernel, by decide +kernel⟩
  intro h
  obtain ⟨h1, h2, h3⟩ := key demoO (.inl rfl)
  cases e : stubLine demoO demoArray with
  | none => rw [e] at h2; cases h2
  | some l =>
    have := h demoO "Foo".toList demoArray l h1 e
    rw [h3] at this
    rw [e] at h2
    rw [Option.map_some, Option.some.injEq] at h2
    rw [h2] at this
    revert this
    decide

/-- A member whose texts are not mistaken for a remark of the stub, and whose Python name is a name. -/
structure Plain (o : Options) (m : Member) : Prop where
  name : ':' ∉ o.varName m.name ∧ '"' ∉ o.varName m.name ∧ '#' ∉ o.varName m.name
  type : '#' ∉ typePython o m
  value : ∀ v, valuePython o m = some v → '#' ∉ v
  comment : '#' ∉ Fn.applyCommentReplacements o.toOptions m.eol ∧ strip (Fn.applyCommentReplacements o.toOptions m.eol) ∉ Spec.tags
  location : ∀ p, m.location = some p → '#' ∉ p.1 ∧ '#' ∉ p.2 ∧ strip (" ".toList ++ p.1 ++ ":".toList ++ p.2) ∉ Spec.tags
  indent : ∀ c ∈ o.indent, isSpace c = true

/-- The method that binds a member. -/
def modeText (s w nanobind : Bool) : Str :=
  (if (!w) = true then (if (!nanobind) = true then "def_readonly".toList else "def_ro".toList)
   else (if (!nanobind) = true then "def_readwrite".toList else "def_rw".toList)) ++ (if s = true then "_static".toList else [])

theorem modeText_read : ∀ s w nanobind : Bool, '(' ∉ modeText s w nanobind ∧ modeText s w nanobind ≠ "def_property".toList ∧
    Spec.modes.find? (fun x => decide (x.1 = modeText s w nanobind)) = some (modeText s w nanobind, s, w) := by decide +kernel

theorem readBinding_field (o : Options) (owner : Str) (m : Member) (h : '"' ∉ o.varName m.name) :
    Spec.readBinding (fieldLines o owner m) = some (Spec.attr o m) := by
  have hread : ∀ (mode : Str) (rest : Str), '(' ∉ mode → mode ≠ "def_property".toList →
      Spec.readBinding [".".toList ++ mode ++ "(\"".toList ++ o.varName m.name ++ "\", &".toList ++ rest] =
        (Spec.modes.find? (fun x => decide (x.1 = mode))).map (fun x => ⟨o.varName m.name, x.2.1, x.2.2⟩) := by
    intro mode rest hm hp
    have e : ".".toList ++ mode ++ "(\"".toList ++ o.varName m.name ++ "\", &".toList ++ rest =
        '.' :: (mode ++ '(' :: '"' :: (o.varName m.name ++ '"' :: (", &".toList ++ rest))) := by simp
    have h1 : (mode ++ '(' :: '"' :: (o.varName m.name ++ '"' :: (", &".toList ++ rest))).takeWhile (· ≠ '(') = mode := by
      rw [List.takeWhile_append_of_pos (by intro c hc; simp; rintro rfl; exact hm hc), List.takeWhile_cons_of_neg (by simp), List.append_nil]
    have h2 : (mode ++ '(' :: '"' :: (o.varName m.name ++ '"' :: (", &".toList ++ rest))).dropWhile (· ≠ '(') =
        '(' :: '"' :: (o.varName m.name ++ '"' :: (", &".toList ++ rest)) := by
      rw [List.dropWhile_append_of_pos (by intro c hc; simp; rintro rfl; exact hm hc), List.dropWhile_cons_of_neg (by simp)]
    have h3 : (o.varName m.name ++ '"' :: (", &".toList ++ rest)).takeWhile (· ≠ '"') = o.varName m.name := by
      rw [List.takeWhile_append_of_pos (by intro c hc; simp; rintro rfl; exact h hc), List.takeWhile_cons_of_neg (by simp), List.append_nil]
    rw [e]
    show (if (mode ++ '(' :: '"' :: (o.varName m.name ++ '"' :: (", &".toList ++ rest))).takeWhile (· ≠ '(') = "def_property".toList then
      some (⟨(((mode ++ '(' :: '"' :: (o.varName m.name ++ '"' :: (", &".toList ++ rest))).dropWhile (· ≠ '(')).drop 2).takeWhile (· ≠ '"'),
        false, [].any Spec.isSetter⟩ : Spec.Attr)
      else (Spec.modes.find? (fun x => decide (x.1 = (mode ++ '(' :: '"' :: (o.varName m.name ++ '"' :: (", &".toList ++ rest))).takeWhile
        (· ≠ '(')))).map (fun x => (⟨(((mode ++ '(' :: '"' :: (o.varName m.name ++ '"' :: (", &".toList ++ rest))).dropWhile (· ≠ '(')).drop
          2).takeWhile (· ≠ '"'), x.2.1, x.2.2⟩ : Spec.Attr))) = _
    rw [h1, h2, if_neg hp, List.drop_succ_cons, List.drop_succ_cons, List.drop_zero, h3]
  have ef : fieldLines o owner m = [".".toList ++ definitionMode o m ++ "(\"".toList ++ o.varName m.name ++ "\", &".toList ++
      (owner ++ "::".toList ++ m.name ++ ", \"".toList ++
   docOneLine o (fullComment m.previous m.eol) ++ "\")".toList ++ locationText o m.location "//".toList)] := by
    unfold fieldLines
    simp only [List.append_assoc]
  have hr : isReadonly o m = !(Spec.attr o m).writable := by
    unfold isReadonly isConst Spec.attr
    simp
  have hs : isStatic m.type = (Spec.attr o m).static := rfl
  have hn : (Spec.attr o m).name = o.varName m.name := rfl
  rw [ef]
  unfold definitionMode
  rw [hr, hs]
  generalize Spec.attr o m = a at *
  obtain ⟨n, s, w⟩ := a
  dsimp only at *
  subst hn
  obtain ⟨h1, h2, h3⟩ := modeText_read s w o.nanobind
  refine (hread (modeText s w o.nanobind) _ h1 h2).trans ?_
  rw [h3]
  rfl

/-- The remarks in the line of a member. -/
def memberRemarks (o : Options) (m : Member) : List (Str × Str) :=
  (if commentAtEnd o m.previous m.eol ∧ (Fn.applyCommentReplacements o.toOptions m.eol).length > 0 then
    [("  ".toList, Fn.applyCommentReplacements o.toOptions m.eol)] else []) ++
  (if isStatic m.type then [(" ".toList, " (C++ static member)".toList)] else []) ++
  (if isConst m.type then [(" ".toList, " (const)".toList)] else []) ++
  (if isReadonly o m && !isConst m.type then [(" ".toList, " (read-only)".toList)] else []) ++
  (match m.location with
    | none => []
    | some p => [(o.indent, " ".toList ++ p.1 ++ ":".toList ++ p.2)])

theorem remarksText_append (a b : List (Str × Str)) : remarksText (a ++ b) = remarksText a ++ remarksText b := List.flatMap_append ..

theorem remarksText_one (a b : Str) : remarksText [(a, b)] = a ++ '#' :: b := by simp [remarksText]

theorem stubLine_eq (o : Options) (m : Member) (ha : isNumericArray o m = false) (l : Str) (h : stubLine o m = some l) :
    ∃ t v, l = o.varName m.name ++ ": ".toList ++ t ++ (if v.length > 0 then " = ".toList ++ v else []) ++ remarksText (memberRemarks o m) ∧
      (t = typePython o m ∨ t = "Optional[".toList ++ typePython o m ++ "]".toList) ∧ (valuePython o m = some v ∨ v = "None".toList) := by
  unfold stubLine at h
  cases hv : valuePython o m with
  | none => rw [hv] at h; cases h
  | some v =>
    have hac : arrayComment o m = some [] := by unfold arrayComment; rw [ha]; rfl
    rw [hv, hac] at h
    rw [Option.bind_some, Option.map_some, Option.some.injEq] at h
    refine ⟨if isNullPointer m then "Optional[".toList ++ typePython o m ++ "]".toList else typePython o m,
      if isNullPointer m then "None".toList else v, ?_, ?_, ?_⟩
    · rw [← h]
      unfold memberRemarks
      rw [remarksText_append, remarksText_append, remarksText_append, remarksText_append]
      have e1 : remarksText (if commentAtEnd o m.previous m.eol ∧ (Fn.applyCommentReplacements o.toOptions m.eol).length > 0 then
          [("  ".toList, Fn.applyCommentReplacements o.toOptions m.eol)] else []) =
          (if commentAtEnd o m.previous m.eol = true then endComment o m.eol else []) := by
        unfold endComment
        dsimp only
        by_cases hc : commentAtEnd o m.previous m.eol = true
        · by_cases hl : (Fn.applyCommentReplacements o.toOptions m.eol).length > 0
          · rw [if_pos ⟨hc, hl⟩, if_pos hc, if_pos hl, remarksText_one]; rfl
          · rw [if_neg (fun x => hl x.2), if_pos hc, if_neg hl]; rfl
        · rw [if_neg (fun x => hc x.1), if_neg hc]; rfl
      have e2 : remarksText (if isStatic m.type = true then [(" ".toList, " (C++ static member)".toList)] else []) =
          (if isStatic m.type = true then " # (C++ static member)".toList else []) := by
        split
        · rfl
        · rfl
      have e3 : remarksText (if isConst m.type = true then [(" ".toList, " (const)".toList)] else []) =
          (if isConst m.type = true then " # (const)".toList else []) := by
        split
        · rfl
        · rfl
      have e4 : remarksText (if (isReadonly o m && !isConst m.type) = true then [(" ".toList, " (read-only)".toList)] else []) =
          (if (isReadonly o m && !isConst m.type) = true then " # (read-only)".toList else []) := by
        split
        · rfl
        · rfl
      have e5 : remarksText (match m.location with
          | none => []
          | some p => [(o.indent, " ".toList ++ p.1 ++ ":".toList ++ p.2)]) = locationText o m.location "#".toList := by
        unfold locationText
        cases m.location with
        | none => rfl
        | some p =>
          dsimp only
          rw [remarksText_one]
          simp
      rw [e1, e2, e3, e4, e5]
      simp only [List.append_assoc, List.nil_append]
    · by_cases hn : isNullPointer m = true
      · rw [if_pos hn]; exact .inr rfl
      · rw [if_neg hn]; exact .inl rfl
    · by_cases hn : isNullPointer m = true
      · rw [if_pos hn]; exact .inr rfl
      · rw [if_neg hn]; exact .inl rfl

/-- C68. For every member that is not an array of numbers, whose texts are not mistaken for a remark: the binding and the stub give it the same
name, both make it static exactly if it is `static` in C++, and both let it be set exactly if it is neither `const` nor `constexpr` and the
options do not make it read-only. Missing: see `C68_fails`. -/
theorem C68_partial (o : Options) (owner : Str) (m : Member) (l : Str) (ha : isNumericArray o m = false) (hp : Plain o m)
    (h : stubLine o m = some l) :
    Spec.readBinding (memberPydef o owner m) = some (Spec.attr o m) ∧ Spec.readStub l = Spec.attr o m := by
  refine ⟨?_, ?_⟩
  · unfold memberPydef
    rw [ha, if_neg (by simp)]
    exact readBinding_field o owner m hp.name.2.1
  · obtain ⟨t, v, el, ht, hv⟩ := stubLine_eq o m ha l h
    have ht' : '#' ∉ t := by
      rcases ht with rfl | rfl
      · exact hp.type
      · intro hm
        rw [List.mem_append, List.mem_append] at hm
        rcases hm with (hm | hm) | hm
        · revert hm; decide
        · exact hp.type hm
        · revert hm; decide
    have hv' : '#' ∉ v := by
      rcases hv with hv | rfl
      · exact hp.value v hv
      · decide
    have hB : '#' ∉ o.varName m.name ++ ": ".toList ++ t ++ (if v.length > 0 then " = ".toList ++ v else []) := by
      intro hm
      rw [List.mem_append, List.mem_append, List.mem_append] at hm
      rcases hm with ((hm | hm) | hm) | hm
      · exact hp.name.2.2 hm
      · revert hm; decide
      · exact ht' hm
      · split at hm
        · rw [List.mem_append] at hm
          rcases hm with hm | hm
          · revert hm; decide
          · exact hv' hm
        · cases hm
    have hL : ∀ p ∈ memberRemarks o m, (∀ c ∈ p.1, isSpace c = true) ∧ '#' ∉ p.2 := by
      intro p hm
      unfold memberRemarks at hm
      rw [List.mem_append, List.mem_append, List.mem_append, List.mem_append] at hm
      rcases hm with (((hm | hm) | hm) | hm) | hm
      · split at hm
        · rw [List.mem_singleton] at hm; subst hm; exact ⟨show ∀ c ∈ "  ".toList, isSpace c = true by decide, hp.comment.1⟩
        · cases hm
      · split at hm
        · rw [List.mem_singleton] at hm; subst hm; exact ⟨by decide, by decide⟩
        · cases hm
      · split at hm
        · rw [List.mem_singleton] at hm; subst hm; exact ⟨by decide, by decide⟩
        · cases hm
      · split at hm
        · rw [List.mem_singleton] at hm; subst hm; exact ⟨by decide, by decide⟩
        · cases hm
      · cases hloc : m.location with
        | none => rw [hloc] at hm; cases hm
        | some q =>
          rw [hloc] at hm
          dsimp only at hm
          rw [List.mem_singleton] at hm
          subst hm
          have := hp.location q hloc
          refine ⟨hp.indent, ?_⟩
          dsimp only
          intro hm
          rw [List.mem_append, List.mem_append, List.mem_append] at hm
          rcases hm with ((hm | hm) | hm) | hm
          · revert hm; decide
          · exact this.1 hm
          · revert hm; decide
          · exact this.2.1 hm
    have hr := remarks_eq (memberRemarks o m) hL _ hB
    rw [← el] at hr
    have hname : l.takeWhile (· ≠ ':') = o.varName m.name := by
      rw [el]
      have : o.varName m.name ++ ": ".toList ++ t ++ (if v.length > 0 then " = ".toList ++ v else []) ++ remarksText (memberRemarks o m) =
          o.varName m.name ++ ':' :: (" ".toList ++ t ++ (if v.length > 0 then " = ".toList ++ v else []) ++ remarksText (memberRemarks o m)) := by
        simp
      rw [this, List.takeWhile_append_of_pos (by intro c hc; simp; rintro rfl; exact hp.name.1 hc), List.takeWhile_cons_of_neg (by simp),
        List.append_nil]
    have hmem : ∀ tag ∈ Spec.tags, (tag ∈ Spec.remarks l ↔
        (tag = "(C++ static member)".toList ∧ isStatic m.type = true) ∨ (tag = "(const)".toList ∧ isConst m.type = true) ∨
        (tag = "(read-only)".toList ∧ (isReadonly o m && !isConst m.type) = true)) := by
      intro tag htag
      rw [hr]
      unfold memberRemarks
      rw [List.map_append, List.map_append, List.map_append, List.map_append, List.mem_append, List.mem_append, List.mem_append, List.mem_append]
      have f1 : tag ∉ List.map (fun p : Str × Str => strip p.2)
          (if commentAtEnd o m.previous m.eol = true ∧ (Fn.applyCommentReplacements o.toOptions m.eol).length > 0 then
          [("  ".toList, Fn.applyCommentReplacements o.toOptions m.eol)] else []) := by
        split
        · rw [List.map_singleton, List.mem_singleton]; rintro rfl; exact hp.comment.2 htag
        · simp
      have f5 : tag ∉ List.map (fun p : Str × Str => strip p.2) (match m.location with
          | none => []
          | some p => [(o.indent, " ".toList ++ p.1 ++ ":".toList ++ p.2)]) := by
        cases hloc : m.location with
        | none => simp
        | some q => dsimp only; rw [List.map_singleton, List.mem_singleton]; rintro rfl; exact (hp.location q hloc).2.2 htag
      have g : ∀ (b : Bool) (x y : Str), tag ∈ List.map (fun p : Str × Str => strip p.2) (if b = true then [(x, y)] else []) ↔
          tag = strip y ∧ b = true := by
        intro b x y
        cases b <;> simp
      rw [g, g, g]
      have s1 : strip " (C++ static member)".toList = "(C++ static member)".toList := by decide +kernel
      have s2 : strip " (const)".toList = "(const)".toList := by decide +kernel
      have s3 : strip " (read-only)".toList = "(read-only)".toList := by decide +kernel
      rw [s1, s2, s3]
      constructor
      · rintro ((((h | h) | h) | h) | h)
        · exact absurd h f1
        · exact .inl h
        · exact .inr (.inl h)
        · exact .inr (.inr h)
        · exact absurd h f5
      · rintro (h | h | h)
        · exact .inl (.inl (.inl (.inr h)))
        · exact .inl (.inl (.inr h))
        · exact .inl (.inr h)
    have h1 : "(C++ static member)".toList ∈ Spec.remarks l ↔ isStatic m.type = true := by
      rw [hmem _ (by decide)]
      have n1 : "(C++ static member)".toList ≠ "(const)".toList := by decide
      have n2 : "(C++ static member)".toList ≠ "(read-only)".toList := by decide
      constructor
      · rintro (⟨_, h⟩ | ⟨h, _⟩ | ⟨h, _⟩)
        · exact h
        · exact absurd h n1
        · exact absurd h n2
      · exact fun h => .inl ⟨rfl, h⟩
    have h2 : "(const)".toList ∈ Spec.remarks l ↔ isConst m.type = true := by
      rw [hmem _ (by decide)]
      have n1 : "(const)".toList ≠ "(C++ static member)".toList := by decide
      have n2 : "(const)".toList ≠ "(read-only)".toList := by decide
      constructor
      · rintro (⟨h, _⟩ | ⟨_, h⟩ | ⟨h, _⟩)
        · exact absurd h n1
        · exact h
        · exact absurd h n2
      · exact fun h => .inr (.inl ⟨rfl, h⟩)
    have h3 : "(read-only)".toList ∈ Spec.remarks l ↔ (isReadonly o m && !isConst m.type) = true := by
      rw [hmem _ (by decide)]
      have n1 : "(read-only)".toList ≠ "(C++ static member)".toList := by decide
      have n2 : "(read-only)".toList ≠ "(const)".toList := by decide
      constructor
      · rintro (⟨h, _⟩ | ⟨h, _⟩ | ⟨_, h⟩)
        · exact absurd h n1
        · exact absurd h n2
        · exact h
      · exact fun h => .inr (.inr ⟨rfl, h⟩)
    unfold Spec.readStub
    rw [hname]
    have d1 : decide ("(C++ static member)".toList ∈ Spec.remarks l) = isStatic m.type := by rw [Bool.eq_iff_iff, decide_eq_true_iff, h1]
    have d2 : decide ("(const)".toList ∈ Spec.remarks l) = isConst m.type := by rw [Bool.eq_iff_iff, decide_eq_true_iff, h2]
    have d3 : decide ("(read-only)".toList ∈ Spec.remarks l) = (isReadonly o m && !isConst m.type) := by
      rw [Bool.eq_iff_iff, decide_eq_true_iff, h3]
    rw [d1, d2, d3]
    unfold Spec.attr isStatic isReadonly isConst
    congr 1
    cases decide ("const".toList ∈ m.type.specifiers) <;> cases decide ("constexpr".toList ∈ m.type.specifiers) <;>
      cases o.readonlyType (print m.type) <;> cases o.readonlyName m.name <;> rfl

example : isNumericArray demoO demoStatic = false ∧ Plain demoO demoStatic ∧
    (stubLine demoO demoStatic).map String.ofList =
      some "x: static constexpr int = 2  # a number # (C++ static member) # (const)    # lib.h:12" ∧
    (memberPydef demoO "Foo".toList demoStatic).map String.ofList =
      [".def_readonly_static(\"x\", &Foo::x, \"a number\")    // lib.h:12"] := by
  refine ⟨by decide +kernel, ⟨by decide +kernel, by decide +kernel, ?_, by decide +kernel, ?_, by decide +kernel⟩, by decide +kernel,
    by decide +kernel⟩
  · intro v hv
    have : valuePython demoO demoStatic = some "2".toList := by decide +kernel
    rw [this, Option.some.injEq] at hv
    subst hv
    decide
  · intro p hp
    have : demoStatic.location = some ("lib.h".toList, "12".toList) := rfl
    rw [this, Option.some.injEq] at hp
    subst hp
    decide +kernel

/-! ### C68: the text of the binding of a member -/

theorem docOneLine_eq (o : Options) (previous eol : Str) :
    docOneLine o (fullComment previous eol) = Fn.docOneLine o.toOptions { Fn.demoF with previous := previous, eol := eol } := rfl

/-- The docstring of an element, for a comment without a backslash and options that do not change comments. -/
theorem docOneLine_denotes (o : Options) (previous eol : Str) (hid : ∀ s, o.commentReplacements s = s) (hb : '\\' ∉ previous ++ eol) :
    ∃ v, Escape.Spec.Denotes (docOneLine o (fullComment previous eol)) v ∧ Fn.Spec.ink v = Fn.Spec.ink (previous ++ eol) := by
  rw [docOneLine_eq]
  refine Fn.Props.C62_docstring_partial o.toOptions { Fn.demoF with previous := previous, eol := eol } hid ?_
  show '\\' ∉ fullComment previous eol
  unfold fullComment
  rw [List.mem_append, not_or] at hb
  split
  · intro hm
    rw [List.mem_append, List.mem_append] at hm
    rcases hm with (hm | hm) | hm
    · exact hb.1 hm
    · revert hm; decide
    · exact hb.2 hm
  · intro hm
    rw [List.mem_append] at hm
    exact hm.elim hb.1 hb.2

/-- C68. For every member that is not an array of numbers, with a comment without a backslash and options that do not change comments: the
binding is one line that gives a method of the library the Python name, the pointer to the member of this class, and a string whose value is
the comment, up to white space. -/
theorem C68_binding_partial (o : Options) (owner : Str) (m : Member) (ha : isNumericArray o m = false)
    (hid : ∀ s, o.commentReplacements s = s) (hb : '\\' ∉ m.previous ++ m.eol) :
    ∃ mode doc v, mode ∈ Spec.modes ∧ mode.2 = ((Spec.attr o m).static, (Spec.attr o m).writable) ∧
      memberPydef o owner m = [".".toList ++ mode.1 ++ "(\"".toList ++ o.varName m.name ++ "\", &".toList ++ owner ++ "::".toList ++ m.name ++
        ", \"".toList ++ doc ++ "\")".toList ++ locationText o m.location "//".toList] ∧
      Escape.Spec.Denotes doc v ∧ Fn.Spec.ink v = Fn.Spec.ink (m.previous ++ m.eol) := by
  obtain ⟨v, h1, h2⟩ := docOneLine_denotes o m.previous m.eol hid hb
  obtain ⟨_, _, h3⟩ := modeText_read (Spec.attr o m).static (Spec.attr o m).writable o.nanobind
  refine ⟨_, docOneLine o (fullComment m.previous m.eol), v, List.mem_of_find?_eq_some h3, rfl, ?_, h1, h2⟩
  unfold memberPydef
  rw [ha, if_neg (by simp)]
  have hr : isReadonly o m = !(Spec.attr o m).writable := by
    unfold isReadonly isConst Spec.attr
    simp
  unfold fieldLines definitionMode
  rw [hr]
  rfl

example : (∀ s, demoO.commentReplacements s = s) ∧ '\\' ∉ demoMember.previous ++ demoMember.eol ∧
    (memberPydef demoO "Foo".toList demoMember).map String.ofList = [".def_readwrite(\"x\", &Foo::x, \"a number\")    // lib.h:12"] :=
  ⟨fun _ => rfl, by decide +kernel, by decide +kernel⟩

/-! ### C68: arrays of numbers -/

/-- The place of a declaration, shown in a comment. -/
structure GoodLocation (o : Options) (l : Option (Str × Str)) : Prop where
  indent : '\n' ∉ o.indent
  file : ∀ p, l = some p → '\n' ∉ p.1
  line : ∀ p, l = some p → Inked p.2

theorem locationText_cases {o : Options} {l : Option (Str × Str)} (h : GoodLocation o l) (token : Str) (ht : '\n' ∉ token) :
    locationText o l token = [] ∨ Inked (locationText o l token) := by
  unfold locationText
  cases hl : l with
  | none => exact .inl rfl
  | some p =>
    right
    refine inked_append _ ?_ (h.line p hl)
    have h1 := h.indent
    have h2 := h.file p hl
    repeat' apply nl_append
    all_goals first | assumption | decide

/-- C68. The binding of every array of numbers. -/
theorem C68_array (o : Options) (owner : Str) (m : Member) (n : Nat) (ha : isNumericArray o m = true) (hn : m.arraySize = some n)
    (hloc : GoodLocation o m.location) (h1 : '\n' ∉ owner) (h2 : '\n' ∉ o.varName m.name) (h3 : '\n' ∉ m.name) (h4 : '\n' ∉ print m.type)
    (h5 : '\n' ∉ docOneLine o (fullComment m.previous m.eol)) :
    memberPydef o owner m = Spec.arrayBinding o.nanobind (o.varName m.name) (locationText o m.location "//".toList) owner (print m.type)
      (toString n).toList m.name (docOneLine o (fullComment m.previous m.eol)) := by
  unfold memberPydef
  rw [ha, if_pos rfl]
  unfold arrayLines
  dsimp only
  rw [hn, Option.getD_some]
  have hd := nl_toString n
  have hl := locationText_cases hloc "//".toList (by decide)
  generalize docOneLine o (fullComment m.previous m.eol) = doc at *
  generalize locationText o m.location "//".toList = loc at *
  generalize print m.type = t at *
  generalize (toString n).toList = d at *
  generalize o.varName m.name = py at *
  generalize m.name = name at *
  have hin : ∀ l ∈ Spec.arrayBinding o.nanobind py loc owner t d name doc, Inked l := by
    have first : ∀ x : Str, '\n' ∉ x → Inked (x ++ py ++ "\",".toList ++ loc) := by
      intro x hx
      rcases hl with rfl | hl
      · rw [List.append_nil]
        exact inked_append _ (nl_append hx h2) (inked_literal _ (by decide) (by decide))
      · exact inked_append _ (nl_append (nl_append hx h2) (by decide)) hl
    intro l hm
    unfold Spec.arrayBinding at hm
    split at hm
    · simp only [List.mem_cons, List.not_mem_nil, or_false] at hm
      rcases hm with rfl | rfl | rfl | rfl | rfl | rfl
      · exact first _ (by decide)
      · refine inked_append _ ?_ (inked_literal _ (by decide) (by decide))
        repeat' apply nl_append
        all_goals first | assumption | decide
      · exact inked_literal _ (by decide) (by decide)
      · refine inked_append _ ?_ (inked_literal _ (by decide) (by decide))
        repeat' apply nl_append
        all_goals first | assumption | decide
      · exact inked_literal _ (by decide) (by decide)
      · refine inked_append _ ?_ (inked_literal _ (by decide) (by decide))
        repeat' apply nl_append
        all_goals first | assumption | decide
    · simp only [List.mem_cons, List.not_mem_nil, or_false] at hm
      rcases hm with rfl | rfl | rfl | rfl | rfl | rfl | rfl | rfl
      · exact first _ (by decide)
      · refine inked_append _ ?_ (inked_literal _ (by decide) (by decide))
        repeat' apply nl_append
        all_goals first | assumption | decide
      · exact inked_literal _ (by decide) (by decide)
      all_goals
        refine inked_append _ ?_ (inked_literal _ (by decide) (by decide))
        repeat' apply nl_append
        all_goals first | assumption | decide
  have hlines := lines_unlines (ls := Spec.arrayBinding o.nanobind py loc owner t d name doc) (by unfold Spec.arrayBinding; split <;> simp)
    (fun l hl => (hin l hl).1)
  rw [← hlines]
  refine congrArg lines ?_
  have s20 : spaces 20 = spaces 16 ++ spaces 4 := rfl
  have s24 : spaces 24 = spaces 16 ++ spaces 8 := rfl
  unfold Spec.arrayBinding at hin ⊢
  cases hb : o.nanobind with
  | false =>
    rw [hb, if_neg (by simp)] at hin
    rw [if_pos (show (!false) = true from rfl), if_neg (show ¬ false = true by simp), ← unindent_block 16 16 _ _ (by simp) hin]
    refine congrArg (fun x => Indent.unindentCode (unlines ([[]] ++ x ++ [spaces 16])) true) ?_
    simp only [s20, s24, List.map_cons, List.map_nil, List.append_assoc]
  | true =>
    rw [hb, if_pos rfl] at hin
    rw [if_neg (show ¬ (!true) = true by simp), if_pos (show true = true from rfl), ← unindent_block 16 16 _ _ (by simp) hin]
    refine congrArg (fun x => Indent.unindentCode (unlines ([[]] ++ x ++ [spaces 16])) true) ?_
    simp only [s20, s24, List.map_cons, List.map_nil, List.append_assoc]

example : isNumericArray demoO demoArray = true ∧ GoodLocation demoO demoArray.location ∧
    (memberPydef demoO "Ns::Foo".toList demoArray).map String.ofList =
      [".def_property(\"x\",    // lib.h:12", "    [](Ns::Foo &self) -> pybind11::array", "    {",
       "        auto dtype = pybind11::dtype(pybind11::format_descriptor<int>::format());",
       "        auto base = pybind11::array(dtype, {3}, {sizeof(int)});",
       "        return pybind11::array(dtype, {3}, {sizeof(int)}, self.x, base);", "    }, [](Ns::Foo& self) {},", "    \"\")"] := by
  have e : demoArray.location = some ("lib.h".toList, "12".toList) := rfl
  refine ⟨by decide +kernel, ⟨by decide, ?_, ?_⟩, by decide +kernel⟩
  · rw [e]; rintro p ⟨⟩; decide
  · rw [e]; rintro p ⟨⟩; exact inked_literal _ (by decide) (by decide)

theorem not_setter_of_head (k : Nat) (c : Char) (rest : Str) (hc : isSpace c = false) (hb : c ≠ '}') :
    Spec.isSetter (spaces k ++ c :: rest) = false := by
  unfold Spec.isSetter
  have e : lstrip (spaces k ++ c :: rest) = c :: rest := by
    rw [lstrip_append_of_all (fun x hx => by rw [Indent.mem_spaces hx]; decide), lstrip_cons_of_not hc]
  have : startsWith (strip (spaces k ++ c :: rest)) "}, [](".toList = false := by
    rw [Bool.eq_false_iff]
    intro h
    unfold startsWith at h
    rw [List.isPrefixOf_iff_prefix] at h
    obtain ⟨t, ht⟩ := h
    unfold strip at ht
    rw [e] at ht
    obtain ⟨w, hw, _⟩ := rstrip_decomp (c :: rest)
    rw [← ht] at hw
    apply hb
    have hw' : c :: rest = '}' :: (", [](".toList ++ t ++ w) := hw
    injection hw'
  rw [this]
  rfl

/-- C68. No array of numbers can be set from Python. -/
theorem C68_array_readonly (o : Options) (owner : Str) (m : Member) (n : Nat) (ha : isNumericArray o m = true) (hn : m.arraySize = some n)
    (hloc : GoodLocation o m.location) (h1 : '\n' ∉ owner ∧ ',' ∉ owner) (h2 : '\n' ∉ o.varName m.name ∧ '"' ∉ o.varName m.name)
    (h3 : '\n' ∉ m.name) (h4 : '\n' ∉ print m.type) (h5 : '\n' ∉ docOneLine o (fullComment m.previous m.eol)) :
    Spec.readBinding (memberPydef o owner m) = some ⟨o.varName m.name, false, false⟩ := by
  rw [C68_array o owner m n ha hn hloc h1.1 h2.1 h3 h4 h5]
  generalize docOneLine o (fullComment m.previous m.eol) = doc
  generalize locationText o m.location "//".toList = loc
  generalize print m.type = t
  generalize (toString n).toList = d
  generalize o.varName m.name = py at *
  have hname : ∀ rest : Str, (py ++ '"' :: rest).takeWhile (· ≠ '"') = py := by
    intro rest
    rw [List.takeWhile_append_of_pos (by intro c hc; simp; rintro rfl; exact h2.2 hc), List.takeWhile_cons_of_neg (by simp), List.append_nil]
  unfold Spec.arrayBinding
  cases o.nanobind with
  | true =>
    rw [if_pos rfl]
    have e : ".def_prop_ro(\"".toList ++ py ++ "\",".toList ++ loc = '.' :: ("def_prop_ro(\"".toList ++ (py ++ '"' :: (",".toList ++ loc))) := by
      simp
    rw [e]
    show some (Spec.Attr.mk ((py ++ '"' :: (",".toList ++ loc)).takeWhile (· ≠ '"')) false false) = _
    rw [hname]
  | false =>
    rw [if_neg (by simp)]
    have e : ".def_property(\"".toList ++ py ++ "\",".toList ++ loc = '.' :: ("def_property(\"".toList ++ (py ++ '"' :: (",".toList ++ loc))) := by
      simp
    rw [e]
    have hs : Spec.isSetter (spaces 4 ++ "}, [](".toList ++ owner ++ "& self) {},".toList) = false := by
      unfold Spec.isSetter
      have e : strip (spaces 4 ++ "}, [](".toList ++ owner ++ "& self) {},".toList) = "}, [](".toList ++ (owner ++ "& self) {},".toList) := by
        unfold strip
        have e1 : spaces 4 ++ "}, [](".toList ++ owner ++ "& self) {},".toList = spaces 4 ++ '}' :: (", [](".toList ++ owner ++ "& self) {},".toList) := by
          simp
        rw [e1, lstrip_append_of_all (fun x hx => by rw [Indent.mem_spaces hx]; decide), lstrip_cons_of_not (by decide)]
        have e2 : '}' :: (", [](".toList ++ owner ++ "& self) {},".toList) = ("}, [](".toList ++ owner ++ "& self) {}".toList) ++ [','] := by simp
        rw [e2, rstrip_append_of_not (by decide)]
        simp
      rw [e]
      have e3 : ("}, [](".toList ++ (owner ++ "& self) {},".toList)).drop 6 = owner ++ "& self) {},".toList := rfl
      rw [e3]
      have : ',' ∉ (owner ++ "& self) {},".toList).takeWhile (· ≠ ')') := by
        have e4 : owner ++ "& self) {},".toList = (owner ++ "& self".toList) ++ ')' :: " {},".toList := by simp
        rw [e4]
        intro hm
        have hsub : ∀ A B : Str, ∀ c ∈ (A ++ ')' :: B).takeWhile (· ≠ ')'), c ∈ A := by
          intro A B c hc
          induction A with
          | nil => simp at hc
          | cons x A ih =>
            rw [List.cons_append, List.takeWhile_cons] at hc
            split at hc
            · rcases List.mem_cons.1 hc with rfl | hc
              · simp
              · exact List.mem_cons_of_mem _ (ih hc)
            · cases hc
        have := hsub _ _ _ hm
        rw [List.mem_append] at this
        rcases this with h | h
        · exact h1.2 h
        · revert h; decide
      rw [decide_eq_false this, Bool.and_false]
    have nl : ∀ (k : Nat) (c : Char) (x y : Str), isSpace c = false → c ≠ '}' → x = spaces k ++ c :: y → Spec.isSetter x = false :=
      fun k c x y h1 h2 e => by rw [e]; exact not_setter_of_head k c y h1 h2
    show some (Spec.Attr.mk ((py ++ '"' :: (",".toList ++ loc)).takeWhile (· ≠ '"')) false (List.any _ Spec.isSetter)) = _
    rw [hname]
    simp only [List.any_cons, List.any_nil, hs, Bool.false_or, Bool.or_false]
    rw [nl 4 '[' _ ("](".toList ++ owner ++ " &self) -> pybind11::array".toList) (by decide) (by decide) (by simp),
      nl 4 '{' (spaces 4 ++ "{".toList) [] (by decide) (by decide) rfl,
      nl 8 'a' _ ("uto dtype = pybind11::dtype(pybind11::format_descriptor<".toList ++ t ++ ">::format());".toList) (by decide) (by decide) (by simp),
      nl 8 'a' _ ("uto base = pybind11::array(dtype, {".toList ++ d ++ "}, {sizeof(".toList ++ t ++ ")});".toList) (by decide) (by decide) (by simp),
      nl 8 'r' _ ("eturn pybind11::array(dtype, {".toList ++ d ++ "}, {sizeof(".toList ++ t ++ ")}, self.".toList ++ m.name ++ ", base);".toList)
        (by decide) (by decide) (by simp),
      nl 4 '"' _ (doc ++ "\")".toList) (by decide) (by decide) (by simp)]
    rfl

/-! ### C68: pointers without object -/

/-- A member that is null by default is optional in the stub. -/
def C68_none_statement : Prop := ∀ (o : Options) (m : Member) (l : Str), isNumericArray o m = false → o.valuePy "nullptr".toList = "None".toList →
  strip m.init = "nullptr".toList ∨ strip m.init = "{nullptr}".toList → stubLine o m = some l →
  startsWith l (o.varName m.name ++ ": Optional[".toList) = true

/-- Options that translate `nullptr`. -/
def noneO : Options := { demoO with valuePy := fun s => replace s "nullptr".toList "None".toList }

/-- `std::shared_ptr<Bar> p = nullptr;` and `Bar* p{nullptr};` -/
def demoShared : Member := { demoMember with type := { Fn.demoInt with typenames := ["std::shared_ptr<Bar>".toList] }, init := "nullptr".toList }
def demoBraces : Member :=
  { demoMember with type := { Fn.demoInt with typenames := ["Bar".toList], modifiers := ["*".toList] }, init := "{nullptr}".toList }

/-- C68. It fails for smart pointers, and for a pointer with an initializer in braces, whose default value becomes the call of a type. -/
theorem C68_none_fails : ¬ C68_none_statement ∧
    (stubLine noneO demoShared).map String.ofList = some "x: std::shared_ptr<Bar> = None  # a number    # lib.h:12" ∧
    (stubLine noneO demoBraces).map String.ofList = some "x: Bar * = Bar(None)  # a number    # lib.h:12" := by
  refine ⟨fun h => ?_, by decide +kernel, by decide +kernel⟩
  have := h noneO demoShared "x: std::shared_ptr<Bar> = None  # a number    # lib.h:12".toList (by decide +kernel) (by decide +kernel)
    (.inl (by decide +kernel)) (by decide +kernel)
  revert this
  decide +kernel

/-- C68. For a raw pointer with `= nullptr` or `= NULL`, the stub has an optional type and the value `None`. Missing: see `C68_none_fails`. -/
theorem C68_none_partial (o : Options) (m : Member) (l : Str) (ha : isNumericArray o m = false) (hp : "*".toList ∈ m.type.modifiers)
    (hv : strip m.init = "nullptr".toList ∨ strip m.init = "NULL".toList) (h : stubLine o m = some l) :
    ∃ rest, l = o.varName m.name ++ ": Optional[".toList ++ typePython o m ++ "] = None".toList ++ rest := by
  unfold stubLine at h
  have hn : isNullPointer m = true := by
    unfold isNullPointer
    rw [decide_eq_true hp, Bool.true_and, Bool.or_eq_true, decide_eq_true_iff, decide_eq_true_iff]
    exact hv
  have hac : arrayComment o m = some [] := by unfold arrayComment; rw [ha]; rfl
  cases hval : valuePython o m with
  | none => rw [hval] at h; cases h
  | some v =>
    rw [hval, hac, Option.bind_some, Option.map_some, Option.some.injEq] at h
    dsimp only at h
    rw [if_pos hn, if_pos hn, if_pos (show "None".toList.length > 0 by decide)] at h
    refine ⟨(if commentAtEnd o m.previous m.eol = true then endComment o m.eol else []) ++
      (if isStatic m.type = true then " # (C++ static member)".toList else []) ++ (if isConst m.type = true then " # (const)".toList else []) ++
      (if (isReadonly o m && !isConst m.type) = true then " # (read-only)".toList else []) ++ locationText o m.location "#".toList, ?_⟩
    have e1 : ": Optional[".toList = ": ".toList ++ "Optional[".toList := rfl
    have e2 : "] = None".toList = "]".toList ++ (" = ".toList ++ "None".toList) := rfl
    rw [← h, e1, e2]
    simp only [List.append_assoc, List.nil_append]

example : (stubLine noneO { demoBraces with init := "nullptr".toList }).map String.ofList =
    some "x: Optional[Bar *] = None  # a number    # lib.h:12" := by decide +kernel

/-! ### C69: the published members -/

/-- The members that are published are those that can be bound and that the options do not exclude. -/
def C69_statement : Prop := ∀ (o : Options) (cls : Str) (ms : List Member),
  published o cls ms = ms.filter (fun m => !Spec.excluded o cls m && Spec.bindable o m)

/-- `int& x;` and `int x[];` -/
def demoReference : Member := { demoMember with type := { Fn.demoInt with modifiers := ["&".toList] } }
def demoOpenArray : Member := { demoMember with arrayCode := "[]".toList }

/-- C69. It fails: a reference is published though there is no pointer to it, an array without size is bound as if it was a number. -/
theorem C69_fails : ¬ C69_statement ∧
    (published demoO "Foo".toList [demoReference, demoOpenArray]).flatMap (memberPydef demoO "Foo".toList) =
      [".def_readwrite(\"x\", &Foo::x, \"a number\")    // lib.h:12".toList, ".def_readwrite(\"x\", &Foo::x, \"a number\")    // lib.h:12".toList] ∧
    [demoReference, demoOpenArray].map (Spec.bindable demoO) = [false, false] := by
  refine ⟨fun h => ?_, by decide +kernel, by decide +kernel⟩
  have := h demoO "Foo".toList [demoReference]
  revert this
  decide +kernel

/-- C69. When no member is a reference and the size of every array is written: the published members are exactly those that can be bound and
that the options do not exclude, in order. Missing: see `C69_fails`. -/
theorem C69_partial (o : Options) (cls : Str) (ms : List Member)
    (href : ∀ m ∈ ms, "&".toList ∉ m.type.modifiers ∧ "&&".toList ∉ m.type.modifiers)
    (hsize : ∀ m ∈ ms, m.arrayCode ≠ [] → strip (arraySizeStr m) ≠ []) (hwf : ∀ m ∈ ms, m.arrayCode = [] → m.arraySize = none) :
    published o cls ms = ms.filter (fun m => !Spec.excluded o cls m && Spec.bindable o m) := by
  unfold published
  apply List.filter_congr
  intro m hm
  have h1 : decide ("&".toList ∉ m.type.modifiers) = true := decide_eq_true (href m hm).1
  have h2 : decide ("&&".toList ∉ m.type.modifiers) = true := decide_eq_true (href m hm).2
  unfold Spec.excluded Spec.bindable canPublish
  rw [h1, h2]
  by_cases hb : m.bitfield = []
  · rw [if_neg (by rw [hb]; simp), decide_eq_true hb]
    by_cases ha : m.arrayCode = []
    · have hu : sizeUnparsable m = false := by unfold sizeUnparsable; rw [if_pos ha]
      rw [hu, if_neg (by simp), hwf m hm ha, if_neg (by simp), decide_eq_true ha]
      cases o.excludeNameClass cls m.name <;> cases o.excludeName m.name <;> cases o.excludeType (print m.type) <;>
        cases o.excludeTpl m.type <;> rfl
    · rw [decide_eq_false ha]
      have hlen : (strip (arraySizeStr m)).length > 0 := List.length_pos_iff.2 (hsize m hm ha)
      cases hs : m.arraySize with
      | none =>
        have hu : sizeUnparsable m = true := by unfold sizeUnparsable; rw [if_neg ha, hs, decide_eq_true hlen]; rfl
        rw [hu, if_pos rfl]
        simp
      | some n =>
        have hu : sizeUnparsable m = false := by unfold sizeUnparsable; rw [if_neg ha, hs, decide_eq_true hlen]; rfl
        rw [hu, if_neg (by simp), if_pos (by rfl)]
        unfold canAddArray
        rw [hs]
        by_cases ht : print m.type ∈ o.numericTypes
        · rw [if_neg (by simpa using ht), decide_eq_true ht]
          cases o.excludeNameClass cls m.name <;> cases o.excludeName m.name <;> cases o.excludeType (print m.type) <;>
            cases o.replaceArray m.name <;> rfl
        · rw [if_pos ht, decide_eq_false ht]
          simp
  · rw [if_pos (List.length_pos_iff.2 hb), decide_eq_false hb]
    simp

example : (∀ m ∈ [demoMember, demoStatic, demoArray], ("&".toList ∉ m.type.modifiers ∧ "&&".toList ∉ m.type.modifiers) ∧
      (m.arrayCode ≠ [] → strip (arraySizeStr m) ≠ []) ∧ (m.arrayCode = [] → m.arraySize = none)) ∧
    published demoO "Foo".toList [demoMember, { demoMember with bitfield := "2".toList }, demoArray] = [demoMember, demoArray] := by
  decide +kernel

/-- A member, as the named constructor sees it. -/
def toGlue (o : Options) (cls : Str) (m : Member) : Glue.Member where
  typ := print m.type
  modifiers := m.type.modifiers
  specifiers := m.type.specifiers
  name := m.name
  init := m.init
  bitfield := m.bitfield
  cArray := m.arrayCode
  excludedTpl := o.excludeTpl m.type
  excluded := o.excludeType (print m.type) || o.excludeName m.name || o.excludeNameClass cls m.name

theorem join_ne_nil {sep x : Str} {xs : List Str} (hx : x ∈ xs) (hne : x ≠ []) : join sep xs ≠ [] := by
  induction xs with
  | nil => cases hx
  | cons y ys ih =>
    cases ys with
    | nil =>
      rw [List.mem_singleton] at hx
      subst hx
      exact hne
    | cons z zs =>
      rw [join_cons_cons]
      rcases List.mem_cons.1 hx with rfl | hx
      · simp [hne]
      · have := ih hx
        simp [this]

/-- A type with a name and a modifier is printed with a space. -/
theorem space_of_modifier {t : CppType} {x : Str} (hc : const_ ∉ t.specifiers) (hn : join blank t.typenames ≠ []) (hx : x ∈ t.modifiers)
    (hne : x ≠ []) : ' ' ∈ print t := by
  have hcount : t.specifiers.count const_ = 0 := List.count_eq_zero.2 hc
  unfold print strCode
  rw [if_neg (by omega), Option.getD_some]
  apply List.mem_append_left
  have hM : joinRemoveEmpty blank t.modifiers ≠ [] := by
    unfold joinRemoveEmpty
    refine join_ne_nil (x := x) ?_ hne
    rw [List.mem_filter]
    exact ⟨hx, by simpa using List.length_pos_iff.2 hne⟩
  generalize joinRemoveEmpty blank t.modifiers = M at *
  generalize joinRemoveEmpty blank (printedSpecifiers t.specifiers) = S at *
  generalize join blank t.typenames = T at *
  unfold joinRemoveEmpty
  have h1 : decide (T.length > 0) = true := by simpa using List.length_pos_iff.2 hn
  have h2 : decide (M.length > 0) = true := by simpa using List.length_pos_iff.2 hM
  rw [List.filter_cons, List.filter_cons, List.filter_cons, h1, h2]
  split
  · simp [join, blank]
  · simp [join, blank]

/-- C69. The parameters of the named constructor are published members, in order, that can be bound and are not constant. -/
theorem C69_named (o : Options) (cls : Str) (ms : List Member) (hwf : ∀ m ∈ ms, m.arrayCode = [] → m.arraySize = none)
    (hname : ∀ m ∈ ms, join blank m.type.typenames ≠ []) :
    ∃ ns : List Member, Glue.compatibleMembers true (ms.map (toGlue o cls)) = ns.map (toGlue o cls) ∧
      List.Sublist ns (published o cls ms) ∧
      ∀ m ∈ ns, Spec.bindable o m = true ∧ "const".toList ∉ m.type.specifiers ∧ "constexpr".toList ∉ m.type.specifiers := by
  have hp : ∀ m, (!(toGlue o cls m).excludedTpl && Glue.canBeSet (toGlue o cls m)) = true →
      Glue.canBeSet (toGlue o cls m) = true ∧ o.excludeTpl m.type = false := by
    intro m h
    rw [Bool.and_eq_true] at h
    exact ⟨h.2, by simpa [toGlue] using h.1⟩
  have e : Glue.compatibleMembers true (ms.map (toGlue o cls)) =
      (ms.filter (fun m => !(toGlue o cls m).excludedTpl && Glue.canBeSet (toGlue o cls m))).map (toGlue o cls) := by
    unfold Glue.compatibleMembers
    rw [if_neg (by simp), List.filter_filter, List.filter_map]
    refine congrArg (List.map (toGlue o cls)) (List.filter_congr ?_)
    intro m _
    show (Glue.canBeSet (toGlue o cls m) && !(toGlue o cls m).excludedTpl) = _
    rw [Bool.and_comm]
  have hmem : ∀ m ∈ ms, (!(toGlue o cls m).excludedTpl && Glue.canBeSet (toGlue o cls m)) = true →
      (Spec.bindable o m = true ∧ "const".toList ∉ m.type.specifiers ∧ "constexpr".toList ∉ m.type.specifiers) ∧
      (!o.excludeNameClass cls m.name && !o.excludeName m.name && !o.excludeType (print m.type) && canPublish o m) = true := by
    intro m hm h
    have hx : toGlue o cls m ∈ Glue.compatibleMembers true [toGlue o cls m] := by
      unfold Glue.compatibleMembers
      rw [if_neg (by simp), List.filter_filter, List.mem_filter]
      refine ⟨by simp, ?_⟩
      rw [Bool.and_comm]
      exact h
    obtain ⟨_, h1, h2, h3, h4, _, _, h7, h8, h9, h10⟩ := ((Glue.Props.C50_named_members [toGlue o cls m]).1 _).1 hx
    change o.excludeTpl m.type = false at h1
    change (o.excludeType (print m.type) || o.excludeName m.name || o.excludeNameClass cls m.name) = false at h2
    change "&".toList ∉ m.type.modifiers at h7
    change m.bitfield = [] at h8
    change m.arrayCode = [] at h9
    change ' ' ∉ print m.type at h10
    rw [Bool.or_eq_false_iff, Bool.or_eq_false_iff] at h2
    have hamp : "&&".toList ∉ m.type.modifiers := fun hx => h10 (space_of_modifier h3 (hname m hm) hx (by decide))
    refine ⟨⟨?_, h3, h4⟩, ?_⟩
    · unfold Spec.bindable
      rw [decide_eq_true h8, decide_eq_true h7, decide_eq_true hamp, decide_eq_true h9]
      rfl
    · rw [h2.1.1, h2.1.2, h2.2]
      unfold canPublish sizeUnparsable
      rw [if_neg (by rw [h8]; simp), if_pos h9, if_neg (by simp), hwf m hm h9, if_neg (by simp), h1, if_neg (by simp)]
      rfl
  refine ⟨_, e, ?_, ?_⟩
  · unfold published
    have e2 : ms.filter (fun m => !(toGlue o cls m).excludedTpl && Glue.canBeSet (toGlue o cls m)) =
        (ms.filter (fun m => !o.excludeNameClass cls m.name && !o.excludeName m.name && !o.excludeType (print m.type) && canPublish o m)).filter
          (fun m => !(toGlue o cls m).excludedTpl && Glue.canBeSet (toGlue o cls m)) := by
      rw [List.filter_filter]
      apply List.filter_congr
      intro m hm
      rw [Bool.eq_iff_iff]
      constructor
      · intro h; rw [Bool.and_eq_true]; exact ⟨h, (hmem m hm h).2⟩
      · intro h; rw [Bool.and_eq_true] at h; exact h.1
    rw [e2]
    exact List.filter_sublist
  · intro m hm
    rw [List.mem_filter] at hm
    exact (hmem m hm.1 hm.2).1

example : (Glue.compatibleMembers true ([demoMember, demoStatic, demoArray].map (toGlue demoO "Foo".toList))).map (·.name) = ["x".toList] ∧
    (∀ m ∈ [demoMember, demoStatic, demoArray], (m.arrayCode = [] → m.arraySize = none) ∧ join blank m.type.typenames ≠ []) := by
  decide +kernel

end Verif.Cls.Props
