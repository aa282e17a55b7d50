import Verif.Dispatch.Lemmas
import Verif.Py.StrLemmas

/-! C122: a function template with buffers is called for each element type. -/

namespace Verif.Dispatch.Props
open Verif.Py Verif.Template Verif.Template.Spec Verif.Dispatch.Spec

theorem loop_fill (indent els buffer code ret call args : Str) (p1 : Plain indent) (p2 : Plain els) (p3 : Plain buffer) (p4 : Plain code)
    (p5 : Plain ret) (p6 : Plain call) (p7 : Plain args) :
    replaceInString (Indent.unindentCode loopRaw true ++ [Char.ofNat 10]) [(kIndent, indent), (kElse, els), (kBuffer, buffer), (kChar, code),
      (kReturn, ret), (kCall, call), (kArgs, args)] = els ++ ("if (".toList ++ (buffer ++ ("_type == '".toList ++ (code ++ ("')\n".toList ++
        (indent ++
      (ret ++ (call ++ ("(".toList ++ (args ++ ");\n".toList)))))))))) := by
  generalize hitems : ([(kIndent, indent), (kElse, els), (kBuffer, buffer), (kChar, code), (kReturn, ret), (kCall, call), (kArgs, args)] : List
    (Str × Str)) = items
  have hI : lookup items kIndent = some indent := by rw [← hitems, look_here]
  have hE : lookup items kElse = some els := by rw [← hitems, look_next (by decide +kernel), look_here]
  have hB : lookup items kBuffer = some buffer := by rw [← hitems, look_next (by decide +kernel), look_next (by decide +kernel), look_here]
  have hC : lookup items kChar = some code := by rw [← hitems, look_next (by decide +kernel), look_next (by decide +kernel), look_next
    (by decide +kernel), look_here]
  have hR : lookup items kReturn = some ret := by rw [← hitems, look_next (by decide +kernel), look_next (by decide +kernel), look_next
    (by decide +kernel), look_next (by decide +kernel), look_here]
  have hF : lookup items kCall = some call := by rw [← hitems, look_next (by decide +kernel), look_next (by decide +kernel), look_next
    (by decide +kernel), look_next (by decide +kernel), look_next (by decide +kernel), look_here]
  have hA : lookup items kArgs = some args := by rw [← hitems, look_next (by decide +kernel), look_next (by decide +kernel), look_next
    (by decide +kernel), look_next (by decide +kernel), look_next (by decide +kernel), look_next (by decide +kernel), look_here]
  have hi : ∀ kv ∈ items, Key nameChar kv.1 ∧ PlainText nameChar kv.2 := by
    rw [← hitems]
    simp only [List.forall_mem_cons]
    exact ⟨⟨key_of _ (by decide +kernel), p1⟩, ⟨key_of _ (by decide +kernel), p2⟩, ⟨key_of _ (by decide +kernel), p3⟩, ⟨key_of _
      (by decide +kernel), p4⟩, ⟨key_of _ (by decide +kernel), p5⟩, ⟨key_of _ (by decide +kernel), p6⟩, ⟨key_of _ (by decide +kernel), p7⟩,
        fun _ h => (by cases h)⟩
  rw [loop_eq, C13_fill_partial nameChar (by decide) (by decide) loopPieces loop_wf items hi]
  unfold loopPieces 
  rw [fill_hole hE, fill_text, fill_hole hB, fill_text, fill_hole hC, fill_text, fill_hole hI, fill_hole hR, fill_hole hF, fill_text,
    fill_hole hA, fill_text, fill_nil, List.append_nil]

theorem outro_fill (indent buffer : Str) (p1 : Plain indent) (p2 : Plain buffer) :
    replaceInString (Indent.unindentCode outroRaw true) [(kIndent, indent), (kBuffer, buffer)] = final indent buffer := by
  generalize hitems : ([(kIndent, indent), (kBuffer, buffer)] : List (Str × Str)) = items
  have hI : lookup items kIndent = some indent := by rw [← hitems, look_here]
  have hB : lookup items kBuffer = some buffer := by rw [← hitems, look_next (by decide +kernel), look_here]
  have hi : ∀ kv ∈ items, Key nameChar kv.1 ∧ PlainText nameChar kv.2 := by
    rw [← hitems]
    simp only [List.forall_mem_cons]
    exact ⟨⟨key_of _ (by decide +kernel), p1⟩, ⟨key_of _ (by decide +kernel), p2⟩, fun _ h => (by cases h)⟩
  rw [outro_eq, C13_fill_partial nameChar (by decide) (by decide) outroPieces outro_wf items hi]
  unfold outroPieces final
  rw [fill_text, fill_hole hI, fill_text, fill_hole hB, fill_text, fill_hole hB, fill_text, fill_nil, List.append_nil]

theorem introPy_fill (buffer : Str) (p2 : Plain buffer) :
    replaceInString (Indent.unindentCode Dispatch.introPybind true) [(kBuffer, buffer)] = Spec.introPybind buffer := by
  generalize hitems : ([(kBuffer, buffer)] : List (Str × Str)) = items
  have hB : lookup items kBuffer = some buffer := by rw [← hitems, look_here]
  have hi : ∀ kv ∈ items, Key nameChar kv.1 ∧ PlainText nameChar kv.2 := by
    rw [← hitems]
    simp only [List.forall_mem_cons]
    exact ⟨⟨key_of _ (by decide +kernel), p2⟩, fun _ h => (by cases h)⟩
  rw [introPy_eq, C13_fill_partial nameChar (by decide) (by decide) introPyPieces introPy_wf items hi]
  unfold introPyPieces Spec.introPybind
  rw [fill_text, fill_text, fill_text, fill_hole hB, fill_text, fill_hole hB, fill_text, fill_nil, List.append_nil]

theorem introNb_fill (buffer : Str) (p2 : Plain buffer) :
    replaceInString (Indent.unindentCode Dispatch.introNanobind true) [(kBuffer, buffer)] = Spec.introNanobind buffer := by
  generalize hitems : ([(kBuffer, buffer)] : List (Str × Str)) = items
  have hB : lookup items kBuffer = some buffer := by rw [← hitems, look_here]
  have hi : ∀ kv ∈ items, Key nameChar kv.1 ∧ PlainText nameChar kv.2 := by
    rw [← hitems]
    simp only [List.forall_mem_cons]
    exact ⟨⟨key_of _ (by decide +kernel), p2⟩, fun _ h => (by cases h)⟩
  rw [introNb_eq, C13_fill_partial nameChar (by decide) (by decide) introNbPieces introNb_wf items hi]
  unfold introNbPieces Spec.introNanobind nanobindHead
  rw [fill_text, fill_text, fill_text, fill_text, fill_text, fill_text, fill_text, fill_text, fill_text, fill_text, fill_text, fill_text,
    fill_hole hB, fill_text, fill_hole hB, fill_text, fill_hole hB, fill_text, fill_hole hB, fill_text, fill_hole hB, fill_text,
    fill_hole hB, fill_text, fill_hole hB, fill_text, fill_nil, List.append_nil]
  simp only [List.append_assoc]

theorem checkPy_fill (indent other buffer name : Str) (p1 : Plain indent) (p2 : Plain other) (p3 : Plain buffer) (p4 : Plain name) :
    replaceInString (Indent.unindentCode Dispatch.checkPybind true ++ [Char.ofNat 10]) [(kIndent, indent), (kOther, other), (kBuffer, buffer),
      (kFunction, name)] = Spec.checkPybind indent buffer name other := by
  generalize hitems : ([(kIndent, indent), (kOther, other), (kBuffer, buffer), (kFunction, name)] : List (Str × Str)) = items
  have hI : lookup items kIndent = some indent := by rw [← hitems, look_here]
  have hO : lookup items kOther = some other := by rw [← hitems, look_next (by decide +kernel), look_here]
  have hB : lookup items kBuffer = some buffer := by rw [← hitems, look_next (by decide +kernel), look_next (by decide +kernel), look_here]
  have hP : lookup items kFunction = some name := by rw [← hitems, look_next (by decide +kernel), look_next (by decide +kernel), look_next
    (by decide +kernel), look_here]
  have hi : ∀ kv ∈ items, Key nameChar kv.1 ∧ PlainText nameChar kv.2 := by
    rw [← hitems]
    simp only [List.forall_mem_cons]
    exact ⟨⟨key_of _ (by decide +kernel), p1⟩, ⟨key_of _ (by decide +kernel), p2⟩, ⟨key_of _ (by decide +kernel), p3⟩, ⟨key_of _
      (by decide +kernel), p4⟩, fun _ h => (by cases h)⟩
  rw [checkPy_eq, C13_fill_partial nameChar (by decide) (by decide) checkPyPieces checkPy_wf items hi]
  unfold checkPyPieces Spec.checkPybind
  rw [fill_text, fill_hole hO, fill_text, fill_hole hB, fill_text, fill_hole hO, fill_text, fill_hole hO, fill_text, fill_hole hO, fill_text,
    fill_hole hB, fill_text, fill_hole hI, fill_text, fill_hole hI, fill_hole hI, fill_text, fill_hole hP, fill_text, fill_hole hI,
    fill_hole hI, fill_text, fill_hole hO, fill_text, fill_hole hO, fill_text, fill_hole hI, fill_hole hI, fill_text, fill_hole hB,
    fill_text, fill_hole hB, fill_text, fill_hole hI, fill_hole hI, fill_text, fill_hole hO, fill_text, fill_hole hO, fill_text,
    fill_hole hB, fill_text, fill_nil, List.append_nil]

theorem checkNb_fill (indent other buffer name : Str) (p1 : Plain indent) (p2 : Plain other) (p3 : Plain buffer) (p4 : Plain name) :
    replaceInString (Indent.unindentCode Dispatch.checkNanobind true ++ [Char.ofNat 10]) [(kIndent, indent), (kOther, other), (kBuffer, buffer),
      (kFunction, name)] = Spec.checkNanobind indent buffer name other := by
  generalize hitems : ([(kIndent, indent), (kOther, other), (kBuffer, buffer), (kFunction, name)] : List (Str × Str)) = items
  have hI : lookup items kIndent = some indent := by rw [← hitems, look_here]
  have hO : lookup items kOther = some other := by rw [← hitems, look_next (by decide +kernel), look_here]
  have hB : lookup items kBuffer = some buffer := by rw [← hitems, look_next (by decide +kernel), look_next (by decide +kernel), look_here]
  have hP : lookup items kFunction = some name := by rw [← hitems, look_next (by decide +kernel), look_next (by decide +kernel), look_next
    (by decide +kernel), look_here]
  have hi : ∀ kv ∈ items, Key nameChar kv.1 ∧ PlainText nameChar kv.2 := by
    rw [← hitems]
    simp only [List.forall_mem_cons]
    exact ⟨⟨key_of _ (by decide +kernel), p1⟩, ⟨key_of _ (by decide +kernel), p2⟩, ⟨key_of _ (by decide +kernel), p3⟩, ⟨key_of _
      (by decide +kernel), p4⟩, fun _ h => (by cases h)⟩
  rw [checkNb_eq, C13_fill_partial nameChar (by decide) (by decide) checkNbPieces checkNb_wf items hi]
  unfold checkNbPieces Spec.checkNanobind
  rw [fill_text, fill_hole hO, fill_text, fill_hole hB, fill_text, fill_hole hO, fill_text, fill_hole hO, fill_text, fill_hole hO, fill_text,
    fill_hole hO, fill_text, fill_hole hB, fill_text, fill_hole hI, fill_text, fill_hole hI, fill_hole hI, fill_text, fill_hole hP,
    fill_text, fill_hole hI, fill_hole hI, fill_text, fill_hole hO, fill_text, fill_hole hO, fill_text, fill_hole hI, fill_hole hI,
    fill_text, fill_hole hB, fill_text, fill_hole hB, fill_text, fill_hole hI, fill_hole hI, fill_text, fill_hole hO, fill_text,
    fill_hole hO, fill_text, fill_hole hB, fill_text, fill_nil, List.append_nil]

theorem plain_append : ∀ (a b : Str), Plain a → Plain b → Plain (a ++ b)
  | [], _, _, hb => hb
  | c :: cs, b, ha, hb => by
    refine ⟨fun e => ?_, plain_append cs b ha.2 hb⟩
    obtain ⟨d, ds, h, hd⟩ := ha.1 e
    exact ⟨d, ds ++ b, by rw [h]; rfl, hd⟩

theorem plain_join (sep : Str) (hs : Plain sep) : ∀ (l : List Str), (∀ x ∈ l, Plain x) → Plain (join sep l)
  | [], _ => trivial
  | [x], h => h x (by simp)
  | x :: y :: r, h => by
    rw [join_cons_cons]
    exact plain_append _ _ (plain_append _ _ (h x (by simp)) hs) (plain_join sep hs (y :: r) (fun z hz => h z (List.mem_cons_of_mem _ hz)))

theorem type_plain : ∀ c t, Arr.Spec.meaning c = some t → Plain t.toList ∧ Plain [c] := by
  intro c t h
  have hm : Arr.toCpp [c] = some t.toList := by rw [Arr.Props.C40_meaning, h]; rfl
  have : ∀ x ∈ Arr.table, plainB x.1 = true ∧ plainB x.2 = true := by decide +kernel
  have h' := this _ (Arr.Props.toCpp_mem hm)
  exact ⟨plain_of _ h'.2, plain_of _ h'.1⟩

theorem toCode_type {c : Char} {t : String} (h : Arr.Spec.meaning c = some t) : Arr.toCode t.toList = some [c] := by
  have hm : Arr.toCpp [c] = some t.toList := by rw [Arr.Props.C40_meaning, h]; rfl
  have hd : ∀ x ∈ Arr.table, Arr.toCode x.2 = some x.1 := by decide +kernel
  generalize t.toList = u at hm ⊢
  exact hd ([c], u) (Arr.Props.toCpp_mem hm)

theorem argument_plain (t : Str) (ht : Plain t) (p : Param) (h : Plain p.name ∧ Plain p.inner) : Plain (argument t p) := by
  unfold argument
  split
  · refine plain_append _ _ (plain_of _ (by decide +kernel)) (plain_append _ _ ?_ (plain_append _ _ ht (plain_append _ _
      (plain_of _ (by decide +kernel)) (plain_append _ _ h.1 (plain_of _ (by decide +kernel))))))
    split
    · exact plain_of _ (by decide +kernel)
    · trivial
  · exact h.2

theorem from_pyarray : "_from_pyarray".toList ++ ")".toList = "_from_pyarray)".toList := by decide +kernel

theorem castArgs_eq {c : Char} {t : String} (h : Arr.Spec.meaning c = some t) (ps : List Param) :
    castArgs ps [c] = some (join ", ".toList (ps.map (argument t.toList))) := by
  have hm : Arr.toCpp [c] = some t.toList := by rw [Arr.Props.C40_meaning, h]; rfl
  unfold castArgs
  rw [hm, Option.map_some]
  refine congrArg some (congrArg (join _) (List.map_congr_left (fun p _ => ?_)))
  unfold argument
  by_cases hp : p.template = true
  · rw [if_pos hp, if_pos hp, ← from_pyarray]
    by_cases hc : p.const = true
    · rw [if_pos hc, if_pos hc]
      simp only [List.append_assoc]
    · rw [if_neg hc, if_neg hc]
      simp only [List.append_assoc, List.nil_append]
  · rw [if_neg hp, if_neg hp]

theorem loopStep_eq (e : Env) (he : Quiet e) (buffer : Str) (hb : Plain buffer) (c : Char) (t : String) (h : Arr.Spec.meaning c = some t) (i : Nat) :
    loopStep e buffer t.toList i =
      some (branch (decide (i = 0)) e.indent buffer [c] e.isVoid e.call (join ", ".toList (e.params.map (argument t.toList)))) := by
  obtain ⟨ht, hc⟩ := type_plain c t h
  unfold loopStep branch
  rw [toCode_type h, Option.bind_some, castArgs_eq h, Option.map_some]
  refine congrArg some ((loop_fill _ _ _ _ _ _ _ he.1 ?_ hb hc ?_ he.2.1 (plain_join _ (plain_of _ (by decide +kernel)) _ ?_)).trans ?_)
  · split
    · trivial
    · exact plain_of _ (by decide +kernel)
  · split
    · trivial
    · exact plain_of _ (by decide +kernel)
  · intro x hx
    obtain ⟨p, hp, rfl⟩ := List.mem_map.1 hx
    exact argument_plain _ ht p (he.2.2.2 p hp)
  · simp only [decide_eq_true_eq]

theorem loopCode_eq (e : Env) (he : Quiet e) (buffer : Str) (hb : Plain buffer) : ∀ (letters : List (Char × String)) (n : Nat),
    (∀ x ∈ letters, Arr.Spec.meaning x.1 = some x.2) →
    loopCode e buffer ((letters.map (fun x => x.2.toList)).zipIdx n) =
      some ((letters.zipIdx n).flatMap (fun x => branch (decide (x.2 = 0)) e.indent buffer [x.1.1] e.isVoid e.call
        (join ", ".toList (e.params.map (argument x.1.2.toList)))))
  | [], _, _ => rfl
  | x :: r, n, h => by
    rw [List.map_cons, List.zipIdx_cons, List.zipIdx_cons, List.flatMap_cons, loopCode,
      loopStep_eq e he buffer hb x.1 x.2 (h x (List.mem_cons_self ..)), Option.bind_some,
      loopCode_eq e he buffer hb r (n + 1) (fun y hy => h y (List.mem_cons_of_mem _ hy)), Option.map_some]

theorem templateBuffers_plain (e : Env) (he : Quiet e) : ∀ n ∈ templateBuffers e.params, Plain n := by
  intro n hn
  unfold templateBuffers at hn
  obtain ⟨p, hp, rfl⟩ := List.mem_map.1 hn
  exact (he.2.2.2 p (List.mem_filter.1 hp).1).1

theorem flatMap_congr_mem {α β : Type} {f g : α → List β} : ∀ {l : List α}, (∀ x ∈ l, f x = g x) → l.flatMap f = l.flatMap g
  | [], _ => rfl
  | x :: r, h => by
    rw [List.flatMap_cons, List.flatMap_cons, h x (List.mem_cons_self ..), flatMap_congr_mem (fun y hy => h y (List.mem_cons_of_mem _ hy))]

theorem checks_eq (e : Env) (he : Quiet e) (buffer : Str) (hb : Plain buffer) :
    checks e buffer = checksText e buffer ((templateBuffers e.params).filter (fun n => decide (n ≠ buffer))) := by
  have hpl : ∀ n ∈ (templateBuffers e.params).filter (fun n => decide (n ≠ buffer)), Plain n :=
    fun n hn => templateBuffers_plain e he n (List.mem_filter.1 hn).1
  unfold checks checksText
  generalize (templateBuffers e.params).filter (fun n => decide (n ≠ buffer)) = others at hpl
  cases others with
  | nil => rfl
  | cons a r =>
    have h1 : (a :: r).length > 0 := Nat.succ_pos _
    have h2 : ¬ (a :: r = []) := List.cons_ne_nil _ _
    simp only [if_pos h1, if_neg h2]
    cases e.nanobind
    · simp only [Bool.false_eq_true, if_false]
      rw [flatMap_congr_mem (fun n hn => checkPy_fill e.indent n buffer e.pythonName he.1 (hpl n hn) hb he.2.2.1)]
      rw [← namesPy_eq]
    · simp only [if_true]
      rw [flatMap_congr_mem (fun n hn => checkNb_fill e.indent n buffer e.pythonName he.1 (hpl n hn) hb he.2.2.1)]
      rw [← namesNb_eq]

/-- C122: the code reads the letter of the last array of the template, checks that the other arrays of the template have the same
letter, then calls the function for each type of the options, in their order: the test of the letter of the type, and a call where
each array of the template is given as a pointer to elements of this type. Other letters give an exception. -/
theorem C122_code (e : Env) (he : Quiet e) (buffer : Str) (hb : (arrays e.params).getLast? = some buffer)
    (letters : List (Char × String)) (hl : ∀ x ∈ letters, Arr.Spec.meaning x.1 = some x.2)
    (ht : e.types = letters.map (fun x => x.2.toList)) :
    fullCode e = some ((if e.nanobind then Spec.introNanobind buffer else Spec.introPybind buffer) ++ ['\n'] ++
      checksText e buffer ((arrays e.params).filter (fun n => decide (n ≠ buffer))) ++
      letters.zipIdx.flatMap (fun x => branch (decide (x.2 = 0)) e.indent buffer [x.1.1] e.isVoid e.call
        (join ", ".toList (e.params.map (argument x.1.2.toList)))) ++
      final e.indent buffer) := by
  rw [show arrays e.params = templateBuffers e.params from rfl] at hb ⊢
  have hp : Plain buffer := templateBuffers_plain e he buffer (List.mem_of_getLast? hb)
  unfold fullCode
  rw [hb, Option.bind_some, ht, loopCode_eq e he buffer hp letters 0 hl, Option.map_some, checks_eq e he buffer hp, outro_fill _ _ he.1 hp]
  refine congrArg some (congrArg (· ++ _) (congrArg (· ++ _) (congrArg (· ++ _) (congrArg (· ++ _) ?_))))
  cases e.nanobind
  · simp only [Bool.false_eq_true, if_false]
    exact introPy_fill buffer hp
  · simp only [if_true]
    exact introNb_fill buffer hp

/-- A function template with two arrays. -/
def sample (nanobind : Bool) (types : List String) : Env :=
  { nanobind, indent := "    ".toList, types := types.map String.toList, call := "ns::add".toList, isVoid := false, pythonName := "add".toList,
    params := [⟨"a".toList, true, true, "a".toList⟩, ⟨"b".toList, true, false, "b".toList⟩, ⟨"n".toList, false, false, "b_count".toList⟩] }

example : Quiet (sample true ["float", "long long"]) ∧ (arrays (sample true ["float", "long long"]).params).getLast? = some "b".toList ∧
    (∀ x ∈ [('f', "float"), ('q', "long long")], Arr.Spec.meaning x.1 = some x.2) := by
  refine ⟨⟨plain_of _ (by decide +kernel), plain_of _ (by decide +kernel), plain_of _ (by decide +kernel), ?_⟩, by decide +kernel, by decide +kernel⟩
  have : ∀ p ∈ (sample true ["float", "long long"]).params, plainB p.name = true ∧ plainB p.inner = true := by decide +kernel
  exact fun p hp => ⟨plain_of _ (this p hp).1, plain_of _ (this p hp).2⟩

/-- C122: with distinct types, no letter is tested twice. -/
theorem C122_letters (letters : List (Char × String)) (hl : ∀ x ∈ letters, Arr.Spec.meaning x.1 = some x.2)
    (hd : (letters.map (·.2)).Nodup) : (letters.map (·.1)).Nodup := by
  rw [List.nodup_iff_pairwise_ne, List.pairwise_map] at hd ⊢
  refine hd.imp_of_mem (fun {x y} hx hy hne e => hne ?_)
  have h1 := hl x hx
  rw [e, hl y hy] at h1
  exact (Option.some.inj h1).symm

example : ([('f', "float"), ('q', "long long")].map (·.2)).Nodup := by decide +kernel

/-- C122: the code tests at least one letter. -/
def C122_tested_statement : Prop := ∀ e code, fullCode e = some code → contains code "if (".toList = true

/-- Without types in the options, the code is an `else` without `if`. -/
theorem C122_tested_fails : ¬ C122_tested_statement := by
  intro h
  have h0 : (fullCode { sample false [] with params := [⟨"a".toList, true, false, "a".toList⟩] }).isSome = true ∧
      (fullCode { sample false [] with params := [⟨"a".toList, true, false, "a".toList⟩] }).all
        (fun c => !contains c "if (".toList) = true := by decide +kernel
  obtain ⟨code, hc⟩ := Option.isSome_iff_exists.1 h0.1
  have h1 := h _ code hc
  have h2 := h0.2
  rw [hc, Option.all_some, h1] at h2
  exact absurd h2 (by decide)

/-- C122: with nanobind, each letter is computed for some array. -/
def C122_reached_statement : Prop := ∀ c t, Arr.Spec.meaning c = some t → contains nanobindHead (", '".toList ++ [c] ++ "'}".toList) = true

/-- The letter of `long long` is never computed. -/
theorem C122_reached_fails : ¬ C122_reached_statement := by
  intro h
  have h0 : contains nanobindHead (", '".toList ++ ['q'] ++ "'}".toList) = false := by
    unfold nanobindHead
    repeat rw [String.toList_ofList]
    decide +kernel
  have h1 := h 'q' "long long" rfl
  rw [h0] at h1
  cases h1

/-- C122 for the other types. Missing: `long long`. -/
theorem C122_reached_partial (c : Char) (t : String) (h : Arr.Spec.meaning c = some t) (hq : c ≠ 'q') :
    contains nanobindHead (", '".toList ++ [c] ++ "'}".toList) = true := by
  have hm : Arr.toCpp [c] = some t.toList := by rw [Arr.Props.C40_meaning, h]; rfl
  have hd : ∀ x ∈ Arr.table, x.1 ≠ ['q'] → contains nanobindHead (", '".toList ++ x.1 ++ "'}".toList) = true := by
    unfold nanobindHead
    rw [String.toList_ofList]
    repeat rw [String.toList_ofList]
    decide +kernel
  generalize t.toList = u at hm
  exact hd ([c], u) (Arr.Props.toCpp_mem hm) (fun e => hq (List.cons.inj e).1)

example : Arr.Spec.meaning 'l' = some "np_int_l" ∧ 'l' ≠ 'q' := by decide +kernel

end Verif.Dispatch.Props
