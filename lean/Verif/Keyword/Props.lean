import Verif.Keyword.Lemmas

/-! C39: Python names are never reserved words. -/

namespace Verif.Keyword.Props
open Verif.Py Verif.Name Verif.Repl Spec

/-- C39: escaping gives a name that is not reserved, adds an underscore to reserved words and changes nothing else. -/
theorem C39_escape (name : Str) : ¬ Reserved (escape name) ∧ (Reserved name → escape name = name ++ ['_']) ∧
    (¬ Reserved name → escape name = name) := by
  refine ⟨fun h => escape_not_mem name ((mem_kwlist _).2 h), fun h => ?_, fun h => ?_⟩
  · exact if_pos ((mem_kwlist _).2 h)
  · exact if_neg (fun h' => h ((mem_kwlist _).1 h'))

/-- C39: escaping is injective on the names that are not already escaped reserved words. -/
theorem C39_injective (a b : Str) (ha : ¬ Escaped a) (hb : ¬ Escaped b) (h : escape a = escape b) : a = b := by
  by_cases h1 : Reserved a <;> by_cases h2 : Reserved b
  · rw [(C39_escape a).2.1 h1, (C39_escape b).2.1 h2] at h
    exact List.append_cancel_right h
  · rw [(C39_escape a).2.1 h1, (C39_escape b).2.2 h2] at h
    exact absurd ⟨a, h1, h.symm⟩ hb
  · rw [(C39_escape a).2.2 h1, (C39_escape b).2.1 h2] at h
    exact absurd ⟨b, h2, h⟩ ha
  · rwa [(C39_escape a).2.2 h1, (C39_escape b).2.2 h2] at h

example : ¬ Escaped "lambda".toList ∧ ¬ Escaped "x_".toList ∧ escape "lambda".toList = "lambda_".toList := by
  refine ⟨?_, ?_, by decide +kernel⟩
  · rintro ⟨w, _, h⟩
    have := congrArg List.getLast? h
    simp at this
  · rintro ⟨w, hw, h⟩
    have : w = "x".toList := List.append_cancel_right (h.symm.trans (by rfl : "x_".toList = "x".toList ++ ['_']))
    subst this
    revert hw; decide +kernel

/-- C39: the Python names of classes and enums are never reserved words. -/
theorem C39_types (o : Options) (name : Str) : ¬ Reserved (className o name) ∧ ¬ Reserved (enumName o name) :=
  ⟨(C39_escape _).1, (C39_escape _).1⟩

/-- C39, full statement for functions, variables and namespaces. -/
def C39_statement : Prop := ∀ (o : Options) (name : Str),
  ¬ Reserved (functionName o name) ∧ ¬ Reserved (varName o name) ∧ ¬ Reserved (namespaceName o name)

/-- Options whose replacements change whole names. -/
def whole (rs : List (String × String)) : Options :=
  { sub := fun what by_ s => if s = what then by_ else s
    types := [], functions := rs.map (fun r => ⟨r.1.toList, r.2.toList⟩), vars := [], namespaces := []
    snake := true, removePrefix := true, groupPrivate := true }

/-- C39 fails: the replacements are applied again after the escaping, so they may give a reserved word. -/
theorem C39_fails : ¬ C39_statement := by
  intro h
  exact absurd (h (whole [("lambda_", "lambda")]) "Lambda".toList).1 (by decide +kernel)

/-- C39, proved part: the names of functions, variables and namespaces are not reserved words as soon as the last
replacements do not turn a name that is not reserved into a reserved one.
Missing: nothing escapes a reserved word made by the last replacements. -/
theorem C39_partial (o : Options) (name : Str)
    (hf : ∀ s, ¬ Reserved s → ¬ Reserved (apply o.sub o.functions s))
    (hv : ∀ s, ¬ Reserved s → ¬ Reserved (apply o.sub o.vars s)) :
    ¬ Reserved (functionName o name) ∧ ¬ Reserved (varName o name) ∧ ¬ Reserved (namespaceName o name) := by
  have h : ∀ s, ¬ Reserved (convert o s) := fun s hs => convert_not_mem o s ((mem_kwlist _).2 hs)
  exact ⟨hf _ (h _), hv _ (h _), hv _ (h _)⟩

/-- The hypotheses hold without replacements. -/
example : (∀ s, ¬ Reserved s → ¬ Reserved (apply (whole []).sub (whole []).functions s)) ∧
    functionName (whole []) "Import".toList = "import_".toList := by
  refine ⟨fun s h => ?_, by decide +kernel⟩
  have : apply (whole []).sub (whole []).functions s = s := by simp [whole, apply, applyLoop, pass]
  rwa [this]

/-- C39: a C++ identifier gives a Python identifier which is not reserved, if the replacements keep identifiers and do not
make reserved words. -/
theorem C39_identifier (o : Options) (name : Str) (h : Identifier name)
    (hi : ∀ rs ∈ [o.functions, o.vars, o.namespaces], ∀ s, Identifier s → Identifier (apply o.sub rs s)) :
    Identifier (functionName o name) ∧ Identifier (varName o name) ∧ Identifier (namespaceName o name) := by
  have hf := hi o.functions (by simp)
  have hv := hi o.vars (by simp)
  have hn := hi o.namespaces (by simp)
  exact ⟨hf _ (convert_identifier o (hf _ h)), hv _ (convert_identifier o (hv _ h)), hv _ (convert_identifier o (hn _ h))⟩

example : Identifier "SetHTTPMode2".toList ∧ functionName (whole []) "SetHTTPMode2".toList = "set_http_mode2".toList := by
  refine ⟨⟨⟨'S', "etHTTPMode2".toList, rfl, .inr (.inl (by decide))⟩, ?_⟩, by decide +kernel⟩
  intro c hc
  have : ∀ c ∈ "SetHTTPMode2".toList, (('a' ≤ c ∧ c ≤ 'z') ∨ ('A' ≤ c ∧ c ≤ 'Z') ∨ c = '_') ∨ ('0' ≤ c ∧ c ≤ '9') := by decide +kernel
  exact this c hc

/-- C39: an enum member always has a Python name, which is an identifier and not a reserved word. -/
theorem C39_member (o : Options) (isClass : Bool) (enum value : Str) (h : Identifier value)
    (hi : ∀ s, Identifier s → Identifier (apply o.sub o.vars s))
    (hv : ∀ s, ¬ Reserved s → ¬ Reserved (apply o.sub o.vars s)) :
    ∃ r, memberName o isClass enum value = some r ∧ Identifier r ∧ ¬ Reserved r := by
  have key : ∃ s, withoutPrefix o isClass enum value = some s ∧ Identifier s := by
    unfold withoutPrefix
    split
    · exact ⟨value, rfl, h⟩
    · obtain ⟨k, hk⟩ := dropPrefix_suffix value enum
      obtain ⟨j, hj⟩ := dropPrivate_suffix o enum (dropPrefix value enum)
      apply repair_identifier h
      intro c hc
      rw [hj, hk] at hc
      exact List.mem_of_mem_drop (List.mem_of_mem_drop hc)
  obtain ⟨s, hs, hid⟩ := key
  refine ⟨varName o s, by simp [memberName, hs], hi _ (convert_identifier o (hi _ hid)), ?_⟩
  exact hv _ (fun hr => convert_not_mem o _ ((mem_kwlist _).2 hr))

example : memberName (whole []) false "Axis".toList "Axis_3D".toList = some "_3_d".toList ∧
    memberName (whole []) false "Axis".toList "AxisNone".toList = some "none".toList ∧
    memberName (whole []) false "Axis".toList "AXIS_IN".toList = some "in_".toList ∧
    memberName (whole []) false "Axis".toList "Axis_".toList = some "axis_".toList := by decide +kernel

/-- C39: which part of the name of an enum member is kept, for an enum without "Private" variant: the name without the
name of the enum, an underscore in front of a digit, the whole name if nothing would remain. Members of `enum class` and
members without that prefix keep their name. -/
theorem C39_member_short (o : Options) (enum value : Str) (hp : o.groupPrivate = false) :
    withoutPrefix o true enum value = some value ∧
    (o.removePrefix = false → withoutPrefix o false enum value = some value) ∧
    (o.removePrefix = true → Identifier value →
      (∀ c r, WithoutPrefix enum value (c :: r) → ¬ Digit c → withoutPrefix o false enum value = some (c :: r)) ∧
      (∀ c r, WithoutPrefix enum value (c :: r) → Digit c → withoutPrefix o false enum value = some ('_' :: c :: r)) ∧
      (WithoutPrefix enum value [] → withoutPrefix o false enum value = some value) ∧
      ((¬ ∃ short, WithoutPrefix enum value short) → withoutPrefix o false enum value = some value)) := by
  have hpr : ∀ s, dropPrivate o enum s = s := by intro s; simp [dropPrivate, hp]
  refine ⟨by simp [withoutPrefix], fun h => by simp [withoutPrefix, h], fun h hid => ?_⟩
  have hw : withoutPrefix o false enum value = repairName value (dropPrefix value enum) := by
    simp [withoutPrefix, h, hpr]
  have hval : repairName value value = some value := by
    obtain ⟨⟨c, r, rfl, hc⟩, _⟩ := hid
    have : isDig c = false := by
      refine Bool.eq_false_iff.2 fun hd => ?_
      have hd := (digit_iff c).2 hd
      have h9 := hd.2
      have h0 := hd.1
      simp only [Char.le_def, UInt32.le_iff_toNat_le] at h9 h0
      change c.toNat ≤ 57 at h9
      rcases hc with hc | hc | hc
      · have := hc.1
        simp only [Char.le_def, UInt32.le_iff_toNat_le] at this
        change 97 ≤ c.toNat at this
        omega
      · have := hc.1
        simp only [Char.le_def, UInt32.le_iff_toNat_le] at this
        change 65 ≤ c.toNat at this
        omega
      · subst hc; revert h9; decide
    simp [repairName, this]
  rw [hw]
  refine ⟨fun c r hs hd => ?_, fun c r hs hd => ?_, fun hs => ?_, fun hs => ?_⟩
  · rw [dropPrefix_some hs]
    rw [digit_iff] at hd
    simp [repairName, hd]
  · rw [dropPrefix_some hs]
    rw [digit_iff] at hd
    simp [repairName, hd]
  · rw [dropPrefix_some hs]
    rw [← hval]
    simp [repairName]
  · rw [dropPrefix_none hs, hval]

example : WithoutPrefix "Axis".toList "AXIS_3D".toList "3D".toList ∧
    withoutPrefix { whole [] with groupPrivate := false } false "Axis".toList "AXIS_3D".toList = some "_3D".toList := by
  refine ⟨⟨"AXIS".toList, (upper_iff _ _).1 (by decide +kernel), .inl rfl⟩, by decide +kernel⟩

/-- C39: members of an enum `XxxPrivate` or `XxxPrivate_` may carry the prefix of the public enum `Xxx` instead of the
prefix of their own enum. -/
theorem C39_member_private (o : Options) (base suffix value : Str) (c : Char) (r : Str)
    (hs : suffix = "Private_".toList ∨ suffix = "Private".toList) (hp : o.groupPrivate = true) (hr : o.removePrefix = true)
    (hno : ¬ ∃ short, WithoutPrefix (base ++ suffix) value short) (h : WithoutPrefix base value (c :: r)) (hd : ¬ Digit c) :
    withoutPrefix o false (base ++ suffix) value = some (c :: r) := by
  have hdrop : dropPrivate o (base ++ suffix) value = c :: r := by
    unfold dropPrivate
    rw [if_pos hp]
    rcases hs with rfl | rfl
    · have h1 : endsWith (base ++ "Private_".toList) "Private_".toList = true := by
        unfold endsWith; rw [List.isSuffixOf_iff_suffix]; exact ⟨base, rfl⟩
      have h2 : (base ++ "Private_".toList).take ((base ++ "Private_".toList).length - 8) = base := by
        rw [List.length_append]
        have : "Private_".toList.length = 8 := rfl
        rw [this, Nat.add_sub_cancel]
        exact List.take_left' rfl
      rw [if_pos h1, h2, dropPrefix_some h]
    · have h0 : endsWith (base ++ "Private".toList) "Private_".toList = false := by
        refine Bool.eq_false_iff.2 fun hc => ?_
        unfold endsWith at hc
        rw [List.isSuffixOf_iff_suffix] at hc
        obtain ⟨t, ht⟩ := hc
        have := congrArg List.getLast? ht
        simp at this
      have h1 : endsWith (base ++ "Private".toList) "Private".toList = true := by
        unfold endsWith; rw [List.isSuffixOf_iff_suffix]; exact ⟨base, rfl⟩
      have h2 : (base ++ "Private".toList).take ((base ++ "Private".toList).length - 7) = base := by
        rw [List.length_append]
        have : "Private".toList.length = 7 := rfl
        rw [this, Nat.add_sub_cancel]
        exact List.take_left' rfl
      rw [if_neg (by rw [h0]; simp), if_pos h1, h2, dropPrefix_some h]
  rw [digit_iff] at hd
  simp [withoutPrefix, hr, dropPrefix_none hno, hdrop, repairName, hd]

example : withoutPrefix (whole []) false "FlagsPrivate_".toList "Flags_Hidden".toList = some "Hidden".toList ∧
    withoutPrefix (whole []) false "FlagsPrivate".toList "Flags_Hidden".toList = some "Hidden".toList := by decide +kernel

end Verif.Keyword.Props
