import Verif.Glue.Props

/-! C50: the class that lets Python override virtual methods. -/

namespace Verif.Glue.Props
open Verif.Py Verif.Glue.Spec Verif.Template.Spec

/-! ### One method -/

def headPieces : List Piece :=
  [.hole "return_type".toList, .text " ".toList, .hole "function_name_cpp".toList, .text "(".toList, .hole "param_list".toList, .text ")".toList,
   .hole "maybe_const".toList, .text " override\n{\n".toList, .hole "_i_".toList, .hole "OVERRIDE_TYPE".toList, .text "(\n".toList]

def midPieces : List Piece :=
  [.hole "_i_".toList, .hole "_i_".toList, .hole "return_type".toList, .text ", // return type\n".toList,
   .hole "_i_".toList, .hole "_i_".toList, .hole "implemented_class".toList, .text ", // parent class\n".toList]

def tailPieces : List Piece :=
  [.hole "_i_".toList, .hole "_i_".toList, .text "\"".toList, .hole "function_name_python".toList, .text "\", // function name (python)\n".toList,
   .hole "_i_".toList, .hole "_i_".toList, .hole "function_name_cpp".toList, .hole "maybe_comma_if_has_params".toList,
   .text " // function name (c++)\n".toList,
   .hole "_i_".toList, .hole "_i_".toList, .hole "param_names".toList, .text " // params\n".toList, .hole "_i_".toList, .text ");\n}".toList]

def overridePieces (pybind : Bool) : List Piece := headPieces ++ (if pybind then midPieces else []) ++ tailPieces

theorem override_template (pybind : Bool) : Indent.unindentCode (overrideTemplate pybind) true = source (overridePieces pybind) := by
  cases pybind <;> decide +kernel

theorem override_wf (pybind : Bool) : ∀ p ∈ overridePieces pybind, p.WF keyChar := by
  cases pybind <;> decide +kernel

theorem fill_append (v : Str → Option Str) (a b : List Piece) :
    Template.Spec.fill v (a ++ b) = Template.Spec.fill v a ++ Template.Spec.fill v b := by
  unfold Template.Spec.fill; rw [List.flatMap_append]

theorem fill_hole' (v : Str → Option Str) (k : Str) (ps : List Piece) :
    Template.Spec.fill v (.hole k :: ps) = (v k).getD ('{' :: k ++ ['}']) ++ Template.Spec.fill v ps := rfl

theorem plain_append (a b : Str) (ha : PlainText keyChar a) (hb : PlainText keyChar b) : PlainText keyChar (a ++ b) := by
  induction a with
  | nil => exact hb
  | cons c a ih =>
    obtain ⟨h1, h2⟩ := ha
    refine ⟨fun e => ?_, ih h2⟩
    obtain ⟨d, ds, hd, hk⟩ := h1 e
    exact ⟨d, ds ++ b, by rw [hd]; rfl, hk⟩

theorem plain_not_hole (s k : Str) (hk : Key keyChar k) (hs : PlainText keyChar s) : contains s ('{' :: k ++ ['}']) = false := by
  rw [Bool.eq_false_iff]
  intro h
  rw [contains_iff] at h
  obtain ⟨a, b, rfl⟩ := h
  have : ∀ a : Str, PlainText keyChar (a ++ ('{' :: k ++ ['}']) ++ b) → False := by
    intro a
    induction a with
    | nil =>
      intro h
      obtain ⟨⟨d, ds, hd, hkd⟩, _⟩ := And.intro (h.1 rfl) trivial
      obtain ⟨h1, h2⟩ := hk
      cases k with
      | nil => exact h1 rfl
      | cons x k =>
        injection hd with e1
        rw [← e1] at hkd
        have := h2 x (by simp)
        rw [hkd] at this
        simp at this
    | cons c a ih => intro h; exact ih h.2
  exact this a hs

/-- The texts of a method: on one line, and no brace that looks like a hole of a template. -/
structure GoodMethod (m : VMethod) : Prop where
  lines : ∀ x ∈ [m.ret, m.name, m.pyName, m.params, m.paramNames], '\n' ∉ x
  plain : ∀ x ∈ [m.ret, m.name, m.pyName, m.params, m.paramNames], PlainText keyChar x

/-- The lines that override a method. -/
def methodLines (pybind : Bool) (i cls : Str) (m : VMethod) : List Str :=
  [m.ret ++ " ".toList ++ m.name ++ "(".toList ++ m.params ++ ")".toList ++ (if m.isConst then " const".toList else []) ++ " override".toList,
   "{".toList,
   i ++ (if pybind then "PYBIND11_OVERRIDE".toList else "NB_OVERRIDE".toList) ++ (if m.isPure then "_PURE".toList else []) ++ "_NAME(".toList] ++
  (if pybind then [i ++ i ++ m.ret ++ ", // return type".toList, i ++ i ++ cls ++ ", // parent class".toList] else []) ++
  [i ++ i ++ "\"".toList ++ m.pyName ++ "\", // function name (python)".toList,
   i ++ i ++ m.name ++ (if m.nbParams > 0 then ",".toList else []) ++ " // function name (c++)".toList] ++
  (if m.nbParams > 0 then [i ++ i ++ m.paramNames ++ " // params".toList] else []) ++
  [i ++ ");".toList, "}".toList]

/-- Lines with their ends. -/
def terminated (ls : List Str) : Str := ls.flatMap (· ++ ['\n'])

theorem lines_terminated (ls : List Str) (x : Str) (h : ∀ l ∈ ls, '\n' ∉ l) : lines (terminated ls ++ x) = ls ++ lines x := by
  induction ls with
  | nil => rfl
  | cons l ls ih =>
    have e : terminated (l :: ls) ++ x = l ++ '\n' :: (terminated ls ++ x) := by
      show (l ++ ['\n']) ++ terminated ls ++ x = _
      simp only [List.append_assoc, List.cons_append, List.nil_append]
    rw [e, lines_split, lines_bare l (h l (by simp)), ih (fun y hy => h y (List.mem_cons_of_mem _ hy))]
    rfl

def items (pybind : Bool) (i cls : Str) (m : VMethod) : List (Str × Str) :=
  [("OVERRIDE_TYPE".toList, overrideMacro pybind m.isPure), ("_i_".toList, i), ("return_type".toList, m.ret),
   ("function_name_cpp".toList, m.name), ("function_name_python".toList, m.pyName),
   ("maybe_const".toList, if m.isConst then " const".toList else []), ("implemented_class".toList, cls),
   ("param_list".toList, m.params), ("maybe_comma_if_has_params".toList, if m.nbParams > 0 then ",".toList else [])]

theorem lookup_items (pybind : Bool) (i cls : Str) (m : VMethod) (rest : List (Str × Str)) :
    lookup (items pybind i cls m ++ rest) "OVERRIDE_TYPE".toList = some (overrideMacro pybind m.isPure) ∧
    lookup (items pybind i cls m ++ rest) "_i_".toList = some i ∧
    lookup (items pybind i cls m ++ rest) "return_type".toList = some m.ret ∧
    lookup (items pybind i cls m ++ rest) "function_name_cpp".toList = some m.name ∧
    lookup (items pybind i cls m ++ rest) "function_name_python".toList = some m.pyName ∧
    lookup (items pybind i cls m ++ rest) "maybe_const".toList = some (if m.isConst then " const".toList else []) ∧
    lookup (items pybind i cls m ++ rest) "implemented_class".toList = some cls ∧
    lookup (items pybind i cls m ++ rest) "param_list".toList = some m.params ∧
    lookup (items pybind i cls m ++ rest) "maybe_comma_if_has_params".toList = some (if m.nbParams > 0 then ",".toList else []) ∧
    lookup (items pybind i cls m ++ rest) "param_names".toList = lookup rest "param_names".toList := by
  unfold items
  simp only [List.cons_append, List.nil_append]
  have t : ∀ (k k' v : Str) (l : List (Str × Str)), decide (k' = k) = false → lookup ((k', v) :: l) k = lookup l k :=
    fun k k' v l h => lookup_tail k k' v l (by simpa using h)
  refine ⟨?_, ?_, ?_, ?_, ?_, ?_, ?_, ?_, ?_, ?_⟩ <;>
    repeat (first | rw [lookup_head] | rw [t _ _ _ _ (by decide +kernel)])

def headLines (pybind : Bool) (i : Str) (m : VMethod) : List Str :=
  [m.ret ++ " ".toList ++ m.name ++ "(".toList ++ m.params ++ ")".toList ++ (if m.isConst then " const".toList else []) ++ " override".toList,
   "{".toList, i ++ overrideMacro pybind m.isPure ++ "(".toList]

def midLines (i cls : Str) (m : VMethod) : List Str :=
  [i ++ i ++ m.ret ++ ", // return type".toList, i ++ i ++ cls ++ ", // parent class".toList]

def tailLines (i : Str) (m : VMethod) : List Str :=
  [i ++ i ++ "\"".toList ++ m.pyName ++ "\", // function name (python)".toList,
   i ++ i ++ m.name ++ (if m.nbParams > 0 then ",".toList else []) ++ " // function name (c++)".toList]

theorem fill_override (pybind : Bool) (i cls : Str) (m : VMethod) (rest : List (Str × Str)) :
    Template.Spec.fill (lookup (items pybind i cls m ++ rest)) (overridePieces pybind) =
      terminated (headLines pybind i m ++ (if pybind then midLines i cls m else []) ++ tailLines i m ++
        [i ++ i ++ (lookup rest "param_names".toList).getD "{param_names}".toList ++ " // params".toList, i ++ ");".toList]) ++ "}".toList := by
  obtain ⟨h1, h2, h3, h4, h5, h6, h7, h8, h9, h10⟩ := lookup_items pybind i cls m rest
  unfold overridePieces
  rw [fill_append, fill_append]
  have hh : Template.Spec.fill (lookup (items pybind i cls m ++ rest)) headPieces = terminated (headLines pybind i m) := by
    unfold headPieces
    simp only [fill_text, fill_hole', fill_nil, h1, h2, h3, h4, h6, h8, Option.getD_some]
    unfold terminated headLines
    simp only [List.flatMap_cons, List.flatMap_nil]
    rw [show " override\n{\n".toList = " override".toList ++ '\n' :: ("{".toList ++ ['\n']) by decide +kernel,
      show "(\n".toList = "(".toList ++ ['\n'] by decide +kernel]
    simp only [List.append_assoc, List.cons_append, List.nil_append, List.append_nil]
  have hm : Template.Spec.fill (lookup (items pybind i cls m ++ rest)) midPieces = terminated (midLines i cls m) := by
    unfold midPieces
    simp only [fill_text, fill_hole', fill_nil, h2, h3, h7, Option.getD_some]
    unfold terminated midLines
    simp only [List.flatMap_cons, List.flatMap_nil]
    rw [show ", // return type\n".toList = ", // return type".toList ++ ['\n'] by decide +kernel,
      show ", // parent class\n".toList = ", // parent class".toList ++ ['\n'] by decide +kernel]
    simp only [List.append_assoc, List.cons_append, List.nil_append, List.append_nil]
  have ht : Template.Spec.fill (lookup (items pybind i cls m ++ rest)) tailPieces = terminated (tailLines i m ++
        [i ++ i ++ (lookup rest "param_names".toList).getD "{param_names}".toList ++ " // params".toList, i ++ ");".toList]) ++ "}".toList := by
    unfold tailPieces
    simp only [fill_text, fill_hole', fill_nil, h2, h4, h5, h9, h10, Option.getD_some]
    unfold terminated tailLines
    simp only [List.flatMap_cons, List.flatMap_nil, List.cons_append, List.nil_append]
    rw [show "\", // function name (python)\n".toList = "\", // function name (python)".toList ++ ['\n'] by decide +kernel,
      show " // function name (c++)\n".toList = " // function name (c++)".toList ++ ['\n'] by decide +kernel,
      show " // params\n".toList = " // params".toList ++ ['\n'] by decide +kernel,
      show ");\n}".toList = ");".toList ++ '\n' :: "}".toList by decide +kernel,
      show ('{' :: ("param_names".toList ++ ['}'])) = "{param_names}".toList by decide +kernel]
    simp only [List.append_assoc, List.cons_append, List.nil_append, List.append_nil]
  have happ : ∀ a b, terminated (a ++ b) = terminated a ++ terminated b := fun a b => by unfold terminated; rw [List.flatMap_append]
  rw [hh, ht, happ, happ, happ, happ]
  cases pybind with
  | true => rw [if_pos rfl, if_pos rfl, hm]; simp only [List.append_assoc]
  | false =>
    rw [if_neg (by simp), if_neg (by simp), fill_nil]
    rw [show terminated [] = [] from rfl]
    simp only [List.append_assoc, List.append_nil, List.nil_append]

theorem unlines_terminated (ls : List Str) (x : Str) : unlines (ls ++ [x]) = terminated ls ++ x := by
  induction ls with
  | nil => rfl
  | cons l ls ih =>
    have : unlines (l :: (ls ++ [x])) = l ++ '\n' :: unlines (ls ++ [x]) := by
      unfold unlines
      cases hx : ls ++ [x] with
      | nil => simp at hx
      | cons y ys => rw [join_cons_cons]; simp
    rw [List.cons_append, this, ih]
    show _ = (l ++ ['\n']) ++ terminated ls ++ x
    simp only [List.append_assoc, List.cons_append, List.nil_append]

theorem plain_terminated (ls : List Str) (x : Str) (h : ∀ l ∈ ls, PlainText keyChar (l ++ ['\n'])) (hx : PlainText keyChar x) :
    PlainText keyChar (terminated ls ++ x) := by
  induction ls with
  | nil => exact hx
  | cons l ls ih =>
    show PlainText keyChar ((l ++ ['\n']) ++ terminated ls ++ x)
    rw [List.append_assoc]
    exact plain_append _ _ (h l (by simp)) (ih (fun y hy => h y (List.mem_cons_of_mem _ hy)))

/-- What is done after the holes are filled does nothing on such a text. -/
theorem finish (ls : List Str) (hne : ls ≠ []) (c : Char) (hc : c ≠ ' ' ∧ c ≠ ')' ∧ c ≠ '{') (h : ∀ l ∈ ls, PlainText keyChar (l ++ ['\n'])) :
    Template.dropFinalComma (replace (terminated ls ++ [c]) (Template.hole Template.maybeComma) [',', ' ']) = terminated ls ++ [c] := by
  rw [replace_of_not_contains]
  · obtain ⟨a, x, rfl⟩ : ∃ a x, ls = a ++ [x] := by
      rcases List.eq_nil_or_concat ls with h | ⟨a, x, h⟩
      · exact absurd h hne
      · exact ⟨a, x, by rw [h, List.concat_eq_append]⟩
    have e : terminated (a ++ [x]) ++ [c] = (terminated a ++ x) ++ ['\n', c] := by
      unfold terminated
      rw [List.flatMap_append]
      simp only [List.flatMap_cons, List.flatMap_nil, List.append_nil, List.append_assoc, List.cons_append, List.nil_append]
    rw [e, dropFinalComma_keep _ '\n' c ⟨hc.1, fun _ => by decide, hc.2.1⟩]
  · exact plain_not_hole _ _ keyChar_comma (plain_terminated ls [c] h (plain_of_no_brace _ (by simpa using Ne.symm hc.2.2)))

theorem contains_mono (l r x : Str) (h : contains l x = true) : contains (l ++ r) x = true := by
  rw [contains_iff] at h ⊢
  obtain ⟨a, b, rfl⟩ := h
  exact ⟨a, b ++ r, by simp⟩

theorem macro_lines (pybind isPure : Bool) : overrideMacro pybind isPure ++ "(".toList =
    (if pybind then "PYBIND11_OVERRIDE".toList else "NB_OVERRIDE".toList) ++ (if isPure then "_PURE".toList else []) ++ "_NAME(".toList := by
  cases pybind <;> cases isPure <;> decide +kernel

theorem macro_chars (pybind isPure : Bool) : '{' ∉ overrideMacro pybind isPure ∧ '\n' ∉ overrideMacro pybind isPure := by
  cases pybind <;> cases isPure <;> decide +kernel

theorem override_lines (pybind : Bool) (n : Nat) (cls : Str) (m : VMethod) (hm : GoodMethod m) (hc : PlainText keyChar cls) (hcl : '\n' ∉ cls) :
    overrideLines pybind (spaces n) cls m = methodLines pybind (spaces n) cls m := by
  have pl : ∀ s : Str, '{' ∉ s → PlainText keyChar s := plain_of_no_brace
  have hi : PlainText keyChar (spaces n) := pl _ (fun h => absurd (Indent.mem_spaces h) (by decide))
  have hin : '\n' ∉ spaces n := Indent.nl_not_mem_spaces n
  have hr := hm.plain m.ret (by simp)
  have hnm := hm.plain m.name (by simp)
  have hpy := hm.plain m.pyName (by simp)
  have hpa := hm.plain m.params (by simp)
  have hpn := hm.plain m.paramNames (by simp)
  have hr' := hm.lines m.ret (by simp)
  have hnm' := hm.lines m.name (by simp)
  have hpy' := hm.lines m.pyName (by simp)
  have hpa' := hm.lines m.params (by simp)
  have hpn' := hm.lines m.paramNames (by simp)
  have hco : PlainText keyChar (if m.isConst then " const".toList else []) ∧ '\n' ∉ (if m.isConst then " const".toList else []) := by
    split
    · exact ⟨pl _ (by decide), by decide⟩
    · exact ⟨trivial, by simp⟩
  have hcm : PlainText keyChar (if m.nbParams > 0 then ",".toList else []) ∧ '\n' ∉ (if m.nbParams > 0 then ",".toList else []) := by
    split
    · exact ⟨pl _ (by decide), by decide⟩
    · exact ⟨trivial, by simp⟩
  have hmac := macro_chars pybind m.isPure
  -- the lines before the names of the parameters
  have hA : ∀ l ∈ headLines pybind (spaces n) m ++ (if pybind then midLines (spaces n) cls m else []) ++ tailLines (spaces n) m,
      PlainText keyChar (l ++ ['\n']) ∧ '\n' ∉ l := by
    intro l hl
    have hnl : PlainText keyChar ['\n'] := pl _ (by decide)
    simp only [List.mem_append] at hl
    rcases hl with (hl | hl) | hl
    · simp only [headLines, List.mem_cons, List.not_mem_nil, or_false] at hl
      rcases hl with rfl | rfl | rfl
      · refine ⟨plain_append _ _ (plain_append _ _ (plain_append _ _ (plain_append _ _ (plain_append _ _ (plain_append _ _ (plain_append _ _
          (plain_append _ _ hr (pl _ (by decide))) hnm) (pl _ (by decide))) hpa) (pl _ (by decide))) hco.1) (pl _ (by decide))) hnl, ?_⟩
        simp only [List.mem_append, not_or]
        exact ⟨⟨⟨⟨⟨⟨⟨hr', by decide⟩, hnm'⟩, by decide⟩, hpa'⟩, by decide⟩, hco.2⟩, by decide⟩
      · exact ⟨by decide, by decide⟩
      · refine ⟨plain_append _ _ (plain_append _ _ (plain_append _ _ hi (pl _ hmac.1)) (pl _ (by decide))) hnl, ?_⟩
        simp only [List.mem_append, not_or]
        exact ⟨⟨hin, hmac.2⟩, by decide⟩
    · cases pybind with
      | false => simp at hl
      | true =>
        rw [if_pos rfl] at hl
        simp only [midLines, List.mem_cons, List.not_mem_nil, or_false] at hl
        rcases hl with rfl | rfl
        · refine ⟨plain_append _ _ (plain_append _ _ (plain_append _ _ (plain_append _ _ hi hi) hr) (pl _ (by decide))) hnl, ?_⟩
          simp only [List.mem_append, not_or]
          exact ⟨⟨⟨hin, hin⟩, hr'⟩, by decide⟩
        · refine ⟨plain_append _ _ (plain_append _ _ (plain_append _ _ (plain_append _ _ hi hi) hc) (pl _ (by decide))) hnl, ?_⟩
          simp only [List.mem_append, not_or]
          exact ⟨⟨⟨hin, hin⟩, hcl⟩, by decide⟩
    · simp only [tailLines, List.mem_cons, List.not_mem_nil, or_false] at hl
      rcases hl with rfl | rfl
      · refine ⟨plain_append _ _ (plain_append _ _ (plain_append _ _ (plain_append _ _ (plain_append _ _ hi hi) (pl _ (by decide))) hpy)
          (pl _ (by decide +kernel))) hnl, ?_⟩
        simp only [List.mem_append, not_or]
        exact ⟨⟨⟨⟨hin, hin⟩, by decide⟩, hpy'⟩, by decide +kernel⟩
      · refine ⟨plain_append _ _ (plain_append _ _ (plain_append _ _ (plain_append _ _ (plain_append _ _ hi hi) hnm) hcm.1)
          (pl _ (by decide +kernel))) hnl, ?_⟩
        simp only [List.mem_append, not_or]
        exact ⟨⟨⟨⟨hin, hin⟩, hnm'⟩, hcm.2⟩, by decide +kernel⟩
  have hB : PlainText keyChar ((spaces n ++ ");".toList) ++ ['\n']) ∧ '\n' ∉ spaces n ++ ");".toList := by
    refine ⟨plain_append _ _ (plain_append _ _ hi (pl _ (by decide))) (pl _ (by decide)), ?_⟩
    simp only [List.mem_append, not_or]
    exact ⟨hin, by decide⟩
  have hN : PlainText keyChar ((spaces n ++ spaces n ++ m.paramNames ++ " // params".toList) ++ ['\n']) ∧
      '\n' ∉ spaces n ++ spaces n ++ m.paramNames ++ " // params".toList := by
    refine ⟨plain_append _ _ (plain_append _ _ (plain_append _ _ (plain_append _ _ hi hi) hpn) (pl _ (by decide))) (pl _ (by decide)), ?_⟩
    simp only [List.mem_append, not_or]
    exact ⟨⟨⟨hin, hin⟩, hpn'⟩, by decide⟩
  have hitems : ∀ kv ∈ items pybind (spaces n) cls m, Key keyChar kv.1 ∧ PlainText keyChar kv.2 := by
    intro kv hkv
    simp only [items, List.mem_cons, List.not_mem_nil, or_false] at hkv
    rcases hkv with rfl | rfl | rfl | rfl | rfl | rfl | rfl | rfl | rfl
    · exact ⟨(by decide : Key keyChar "OVERRIDE_TYPE".toList), pl _ hmac.1⟩
    · exact ⟨(by decide : Key keyChar "_i_".toList), hi⟩
    · exact ⟨(by decide : Key keyChar "return_type".toList), hr⟩
    · exact ⟨(by decide : Key keyChar "function_name_cpp".toList), hnm⟩
    · exact ⟨(by decide : Key keyChar "function_name_python".toList), hpy⟩
    · exact ⟨(by decide : Key keyChar "maybe_const".toList), hco.1⟩
    · exact ⟨(by decide : Key keyChar "implemented_class".toList), hc⟩
    · exact ⟨(by decide : Key keyChar "param_list".toList), hpa⟩
    · exact ⟨(by decide : Key keyChar "maybe_comma_if_has_params".toList), hcm.1⟩
  have hML : methodLines pybind (spaces n) cls m =
      headLines pybind (spaces n) m ++ (if pybind then midLines (spaces n) cls m else []) ++ tailLines (spaces n) m ++
      (if m.nbParams > 0 then [spaces n ++ spaces n ++ m.paramNames ++ " // params".toList] else []) ++ [spaces n ++ ");".toList] ++ ["}".toList] := by
    unfold methodLines headLines midLines tailLines
    rw [List.append_assoc (spaces n) (overrideMacro _ _), macro_lines]
    simp only [List.append_assoc, List.cons_append, List.nil_append]
  unfold overrideLines
  rw [override_template]
  show lines (Template.processCodeTemplate (source (overridePieces pybind)) (items pybind (spaces n) cls m) _) = _
  rw [hML]
  generalize hAdef : headLines pybind (spaces n) m ++ (if pybind then midLines (spaces n) cls m else []) ++ tailLines (spaces n) m = A at hA
  by_cases hp : m.nbParams > 0
  · rw [if_pos hp, if_pos hp]
    have hr1 : Template.replaceInStringRemoveLineIfNone (Template.replaceInString (source (overridePieces pybind)) (items pybind (spaces n) cls m))
        [("param_names".toList, some m.paramNames)] = terminated (A ++ [spaces n ++ spaces n ++ m.paramNames ++ " // params".toList,
          spaces n ++ ");".toList]) ++ ['}'] := by
      have h0 : Template.replaceInStringRemoveLineIfNone (Template.replaceInString (source (overridePieces pybind)) (items pybind (spaces n) cls m))
          [("param_names".toList, some m.paramNames)] = Template.replaceInString (source (overridePieces pybind))
            (items pybind (spaces n) cls m ++ [("param_names".toList, m.paramNames)]) := by
        unfold Template.replaceInString Template.replaceInStringRemoveLineIfNone
        rw [List.foldl_append]; rfl
      rw [h0, Template.C13_fill_partial keyChar (by decide) (by decide) _ (override_wf pybind), fill_override, hAdef, lookup_head]
      · rfl
      · intro kv hkv
        rcases List.mem_append.1 hkv with h | h
        · exact hitems kv h
        · rw [List.mem_singleton.1 h]; exact ⟨(by decide : Key keyChar "param_names".toList), hpn⟩
    have hall : ∀ l ∈ A ++ [spaces n ++ spaces n ++ m.paramNames ++ " // params".toList, spaces n ++ ");".toList],
        PlainText keyChar (l ++ ['\n']) ∧ '\n' ∉ l := by
      intro l hl
      rcases List.mem_append.1 hl with h | h
      · exact hA l h
      · simp only [List.mem_cons, List.not_mem_nil, or_false] at h
        rcases h with rfl | rfl
        · exact hN
        · exact hB
    unfold Template.processCodeTemplate
    simp only [if_true]
    rw [hr1, finish _ (by simp) '}' (by decide) (fun l hl => (hall l hl).1), lines_terminated _ _ (fun l hl => (hall l hl).2)]
    rw [lines_bare ['}'] (by decide)]
    simp only [List.append_assoc, List.cons_append, List.nil_append]
    rfl
  · rw [if_neg hp, if_neg hp]
    have hrep : Template.replaceInString (source (overridePieces pybind)) (items pybind (spaces n) cls m) =
        terminated (A ++ [spaces n ++ spaces n ++ "{param_names}".toList ++ " // params".toList, spaces n ++ ");".toList]) ++ "}".toList := by
      rw [Template.C13_fill_partial keyChar (by decide) (by decide) _ (override_wf pybind) _ hitems]
      have := fill_override pybind (spaces n) cls m []
      rw [List.append_nil, hAdef] at this
      exact this
    have hr1 : Template.replaceInStringRemoveLineIfNone (Template.replaceInString (source (overridePieces pybind)) (items pybind (spaces n) cls m))
        [("param_names".toList, none)] = terminated (A ++ [spaces n ++ ");".toList]) ++ ['}'] := by
      have h0 := Template.C13_none_removes_lines (Template.replaceInString (source (overridePieces pybind)) (items pybind (spaces n) cls m))
        ["param_names".toList]
      rw [List.map_cons, List.map_nil] at h0
      rw [h0, hrep, lines_terminated, lines_bare "}".toList (by decide)]
      · have hkey : Key keyChar "param_names".toList := by decide
        have hkeep : ∀ l, PlainText keyChar (l ++ ['\n']) → (["param_names".toList].all fun k => !contains l ('{' :: k ++ ['}'])) = true := by
          intro l hl
          have : contains l ('{' :: "param_names".toList ++ ['}']) = false := by
            rw [Bool.eq_false_iff]
            intro h
            have h2 := plain_not_hole _ _ hkey hl
            rw [contains_mono _ _ _ h] at h2
            exact absurd h2 (by simp)
          simp only [List.all_cons, List.all_nil, this, Bool.not_false, Bool.and_true]
        have hdrop : (["param_names".toList].all fun k => !contains (spaces n ++ spaces n ++ "{param_names}".toList ++ " // params".toList) ('{' :: k ++ ['}'])) = false := by
          have : contains (spaces n ++ spaces n ++ "{param_names}".toList ++ " // params".toList) ('{' :: "param_names".toList ++ ['}']) = true := by
            rw [contains_iff]
            exact ⟨_, _, rfl⟩
          simp only [List.all_cons, List.all_nil, this, Bool.not_true, Bool.false_and]
        rw [List.filter_append, List.filter_append, List.filter_eq_self.2 (fun l hl => hkeep l (hA l hl).1)]
        rw [List.filter_cons, if_neg (by rw [hdrop]; simp), List.filter_cons, if_pos (hkeep _ hB.1), List.filter_nil]
        rw [show (["}".toList].filter fun l => ["param_names".toList].all fun k => !contains l ('{' :: k ++ ['}'])) = ["}".toList] by decide +kernel]
        rw [unlines_terminated]; rfl
      · intro l hl
        rcases List.mem_append.1 hl with h | h
        · exact (hA l h).2
        · simp only [List.mem_cons, List.not_mem_nil, or_false] at h
          rcases h with rfl | rfl
          · simp only [List.mem_append, not_or]
            exact ⟨⟨⟨hin, hin⟩, by decide⟩, by decide⟩
          · exact hB.2
    have hall : ∀ l ∈ A ++ [spaces n ++ ");".toList], PlainText keyChar (l ++ ['\n']) ∧ '\n' ∉ l := by
      intro l hl
      rcases List.mem_append.1 hl with h | h
      · exact hA l h
      · rw [List.mem_singleton.1 h]; exact hB
    unfold Template.processCodeTemplate
    simp only [if_true]
    rw [hr1, finish _ (by simp) '}' (by decide) (fun l hl => (hall l hl).1), lines_terminated _ _ (fun l hl => (hall l hl).2)]
    rw [lines_bare ['}'] (by decide)]
    simp only [List.append_assoc, List.cons_append, List.nil_append]
    rfl

end Verif.Glue.Props
