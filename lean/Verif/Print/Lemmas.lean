import Verif.Print.Spec
import Verif.Indent.Lemmas

/-! The lines of printed elements. -/

namespace Verif.Print
open Verif.Py Verif.Print.Spec

/-! The equations of `code` and `block`. -/

section
variable (prefixes : List Str) (ind : Str) (c : Comments) (l : List Elem)

theorem code_comment (t : Str) : code prefixes ind (.comment c t) = commentCode t := rfl
theorem code_unprocessed (t : Str) : code prefixes ind (.unprocessed c t) = unprocessed t := rfl
theorem code_define (n : Str) (p v : Option Str) : code prefixes ind (.define c n p v) = defineCode n p v := rfl
theorem code_condition (s : Str) : code prefixes ind (.condition c s) = rstrip s := rfl
theorem code_decl (d : Decl) : code prefixes ind (.decl c d) = d.code := rfl
theorem code_decls (ds : List (Comments × Decl)) : code prefixes ind (.decls c ds) = declsCode ds := rfl
theorem code_fn (f : Fn) : code prefixes ind (.fn c f) = f.code prefixes := rfl
theorem code_enum (k : Bool) (n t : Str) : code prefixes ind (.enum c k n t l) =
    enumCode k n t ++ "\n{\n".toList ++ indented ind (block prefixes ind true l) ++ "};\n".toList := rfl
theorem code_namespace (n : Str) : code prefixes ind (.namespace_ c n l) =
    "namespace ".toList ++ n ++ "\n{\n".toList ++ indented ind (block prefixes ind false l) ++ "}".toList := rfl
theorem code_struct (h : Head) : code prefixes ind (.struct c h l) = h.code ++ "\n{\n".toList ++ block prefixes ind false l ++ "};\n".toList := rfl
theorem code_access (n : Str) (b : Bool) : code prefixes ind (.access c n b l) =
    accessLine c n b ++ ['\n'] ++ indented ind (block prefixes ind false l) := rfl
theorem block_cons (b : Bool) (e : Elem) : block prefixes ind b (e :: l) =
    ownLines (commented e (b && !l.isEmpty) (code prefixes ind e)) ++ block prefixes ind b l := rfl
end

/-- The text is made of these lines. -/
def Has (s : Str) (ls : List Str) : Prop := s = ls.flatMap (fun l => l ++ ['\n']) ∧ ∀ l ∈ ls, '\n' ∉ l

theorem has_nil : Has [] [] := ⟨rfl, fun _ h => (by cases h)⟩

theorem has_append {a b : Str} {as bs : List Str} (ha : Has a as) (hb : Has b bs) : Has (a ++ b) (as ++ bs) :=
  ⟨by rw [List.flatMap_append, ← ha.1, ← hb.1], fun l hl => (List.mem_append.1 hl).elim (ha.2 l) (hb.2 l)⟩

theorem flat_eq : ∀ {ls : List Str}, ls ≠ [] → ls.flatMap (fun l => l ++ ['\n']) = unlines ls ++ ['\n']
  | [], h => absurd rfl h
  | [l], _ => by simp [unlines, join]
  | l :: m :: ls, _ => by
    rw [List.flatMap_cons, flat_eq (List.cons_ne_nil m ls)]
    show l ++ ['\n'] ++ (unlines (m :: ls) ++ ['\n']) = l ++ ['\n'] ++ unlines (m :: ls) ++ ['\n']
    rw [List.append_assoc, List.append_assoc, List.append_assoc]

theorem nl_ends (s : Str) : endsWith (s ++ ['\n']) ['\n'] = true := List.isSuffixOf_iff_suffix.2 ⟨s, rfl⟩

theorem has_lines (s : Str) : Has (s ++ ['\n']) (lines s) :=
  ⟨by rw [flat_eq (lines_ne_nil s), unlines_lines], fun _ h => not_mem_of_mem_lines h⟩

theorem ends_nl {s : Str} (h : endsWith s ['\n'] = true) : ∃ t, s = t ++ ['\n'] := by
  obtain ⟨t, ht⟩ := List.isSuffixOf_iff_suffix.1 h
  exact ⟨t, ht.symm⟩

theorem lines_nl (t : Str) : lines (t ++ ['\n']) = lines t ++ [[]] := by
  have h := splitOn_append_of_not_mem (c := '\n') t ['\n']
  obtain ⟨as, l, m, bs, h1, h2, h3⟩ := h
  have e : splitOn '\n' ['\n'] = [[], []] := rfl
  rw [e] at h2
  injection h2 with hm hbs
  show splitOn '\n' (t ++ ['\n']) = splitOn '\n' t ++ [[]]
  rw [h3, h1, ← hm, ← hbs]
  simp

/-- The lines of `ownLines`. -/
def leafLines (s : Str) : List Str := if endsWith s ['\n'] then (lines s).dropLast else lines s

theorem own_eq (d : Nat) (s : Str) : own d s = (leafLines s).map (Row.mk d) := rfl

theorem has_own (s : Str) : Has (ownLines s) (leafLines s) := by
  unfold ownLines leafLines
  cases h : endsWith s ['\n'] with
  | true =>
    obtain ⟨t, rfl⟩ := ends_nl h
    rw [if_pos rfl, if_pos rfl, lines_nl, List.dropLast_concat, List.append_nil]
    exact has_lines t
  | false =>
    rw [if_neg (by simp), if_neg (by simp)]
    exact has_lines s

theorem leaf_nl (s : Str) : leafLines (s ++ ['\n']) = lines s := by
  unfold leafLines
  rw [if_pos (nl_ends s), lines_nl, List.dropLast_concat]

theorem ownLines_append (a : Str) {q : Str} (hq : q ≠ []) : ownLines (a ++ q) = a ++ ownLines q := by
  have : endsWith (a ++ q) ['\n'] = endsWith q ['\n'] := by
    rw [Bool.eq_iff_iff]
    unfold endsWith
    rw [List.isSuffixOf_iff_suffix, List.isSuffixOf_iff_suffix]
    constructor
    · rintro ⟨t, ht⟩
      rcases List.append_eq_append_iff.1 ht with ⟨x, h1, h2⟩ | ⟨x, h1, h2⟩
      · rcases x with _ | ⟨y, x⟩
        · exact ⟨[], h2⟩
        · exfalso
          rw [List.cons_append] at h2
          injection h2 with _ h2
          exact hq (List.append_eq_nil_iff.1 h2.symm).2
      · exact ⟨x, h2.symm⟩
    · rintro ⟨t, ht⟩
      exact ⟨a ++ t, by rw [List.append_assoc, ht]⟩
  unfold ownLines
  rw [this, List.append_assoc]

theorem ownLines_nl (a : Str) : ownLines (a ++ ['\n']) = a ++ ['\n'] := by
  unfold ownLines
  rw [if_pos (nl_ends a), List.append_nil]

/-- The lines of an indented text. -/
theorem has_indented {ind s : Str} {ls : List Str} (hi : '\n' ∉ ind) (h : Has s ls) : Has (indented ind s) (ls.map (Indent.indentLine ind true)) := by
  have hno : ∀ l ∈ ls.map (Indent.indentLine ind true), '\n' ∉ l := by
    intro l hl
    obtain ⟨x, hx, rfl⟩ := List.mem_map.1 hl
    unfold Indent.indentLine
    split
    · simp
    · intro hm
      rcases List.mem_append.1 hm with hm | hm
      · exact hi hm
      · obtain ⟨w, hw, _⟩ := rstrip_decomp x
        exact h.2 x hx (by rw [hw]; exact List.mem_append_left _ hm)
  refine ⟨?_, hno⟩
  show unlines ((lines s).map (Indent.indentLine ind true)) = _
  by_cases hl : ls = []
  · rw [h.1, hl]
    rfl
  · have e : lines s = ls ++ [[]] := by
      rw [h.1, flat_eq hl, lines_nl, lines_unlines hl h.2]
    rw [e, List.map_append]
    have : ls.map (Indent.indentLine ind true) ≠ [] := fun h => hl (List.map_eq_nil_iff.1 h)
    rw [flat_eq this]
    show unlines (_ ++ [[]]) = _
    generalize ls.map (Indent.indentLine ind true) = xs at this
    clear hno e
    induction xs with
    | nil => exact absurd rfl this
    | cons x xs ih =>
      cases xs with
      | nil => simp [unlines, join]
      | cons y ys =>
        have := ih (List.cons_ne_nil y ys)
        show x ++ ['\n'] ++ unlines (y :: ys ++ [[]]) = x ++ ['\n'] ++ unlines (y :: ys) ++ ['\n']
        rw [this, List.append_assoc, List.append_assoc, List.append_assoc]

theorem rstrip_tail (a b : Str) : rstrip (a ++ rstrip b) = rstrip (a ++ b) := by
  obtain ⟨w, h1, h2⟩ := rstrip_decomp b
  conv => rhs; rw [h1, ← List.append_assoc]
  rw [rstrip_append_of_all h2]

/-- One more level. -/
theorem deeper {ind : Str} (hi : ∀ c ∈ ind, isSpace c = true) (d : Nat) (l : Str) :
    rstrip ((List.replicate d ind).flatten ++ Indent.indentLine ind true l) = rstrip ((List.replicate (d + 1) ind).flatten ++ l) := by
  have hr : (List.replicate (d + 1) ind).flatten = (List.replicate d ind).flatten ++ ind := by
    rw [List.replicate_succ', List.flatten_append]
    simp
  have hsp : ∀ c ∈ (List.replicate (d + 1) ind).flatten, isSpace c = true := by
    intro c hc
    obtain ⟨x, hx, hc⟩ := List.mem_flatten.1 hc
    rw [(List.mem_replicate.1 hx).2] at hc
    exact hi c hc
  unfold Indent.indentLine
  by_cases hl : l.length = 0
  · rw [if_pos hl, List.length_eq_zero_iff.1 hl]
    rw [hr, List.append_nil, List.append_nil, rstrip_append_of_all hi]
  · rw [if_neg hl, if_pos rfl, hr, ← List.append_assoc, rstrip_tail]

/-- The lines, at a depth, are the rows. -/
def Agree (ind : Str) (ls : List Str) (rs : Nat → List Row) : Prop :=
  ∀ d, ls.map (fun l => rstrip ((List.replicate d ind).flatten ++ l)) = (rs d).map (Row.line ind)

theorem agree_append {ind : Str} {as bs : List Str} {ra rb : Nat → List Row} (ha : Agree ind as ra) (hb : Agree ind bs rb) :
    Agree ind (as ++ bs) (fun d => ra d ++ rb d) := fun d => by rw [List.map_append, List.map_append, ha d, hb d]

theorem agree_own (ind s : Str) : Agree ind (leafLines s) (fun d => own d s) := fun d => by
  show _ = ((leafLines s).map (Row.mk d)).map _
  rw [List.map_map]
  rfl

theorem agree_line (ind s : Str) : Agree ind [s] (fun d => [⟨d, s⟩]) := fun _ => rfl

theorem agree_deeper {ind : Str} (hi : ∀ c ∈ ind, isSpace c = true) {ls : List Str} {rs : Nat → List Row} (h : Agree ind ls rs) :
    Agree ind (ls.map (Indent.indentLine ind true)) (fun d => rs (d + 1)) := fun d => by
  rw [List.map_map, ← h (d + 1)]
  exact List.map_congr_left (fun l _ => deeper hi d l)

/-- A text with its rows. -/
def Rows (ind s : Str) (rs : Nat → List Row) : Prop := ∃ ls, Has s ls ∧ Agree ind ls rs

theorem rows_append {ind a b : Str} {ra rb : Nat → List Row} (ha : Rows ind a ra) (hb : Rows ind b rb) : Rows ind (a ++ b) (fun d => ra d ++ rb d) := by
  obtain ⟨as, h1, h2⟩ := ha
  obtain ⟨bs, h3, h4⟩ := hb
  exact ⟨as ++ bs, has_append h1 h3, agree_append h2 h4⟩

theorem rows_own (ind s : Str) : Rows ind (ownLines s) (fun d => own d s) := ⟨_, has_own s, agree_own ind s⟩

theorem rows_nl (ind s : Str) : Rows ind (s ++ ['\n']) (fun d => own d (s ++ ['\n'])) := by
  have := rows_own ind (s ++ ['\n'])
  rwa [ownLines_nl] at this

theorem rows_indented {ind s : Str} (hi : ∀ c ∈ ind, isSpace c = true) (hn : '\n' ∉ ind) {rs : Nat → List Row} (h : Rows ind s rs) :
    Rows ind (indented ind s) (fun d => rs (d + 1)) := by
  obtain ⟨ls, h1, h2⟩ := h
  exact ⟨_, has_indented hn h1, agree_deeper hi h2⟩

theorem eol_nil {c : Comments} (h : c.eol = []) : eolCode c = [] := by
  unfold eolCode
  rw [h]
  rfl

theorem top_nil {c : Comments} (h : c.top = []) (hc : c.cStyle = false) : topCode c = [] := by
  unfold topCode
  rw [h, hc]
  rfl

/-- The elements of an enum that can be followed by others. -/
def takesComma : Elem → Bool
  | .decl _ _ => true
  | .emptyLine => true
  | _ => false

/-- The comma of an enumerator. -/
def commaOk (e : Elem) (comma : Bool) : Prop := comma = true → takesComma e = true

theorem enumerators_cons : ∀ (e y : Elem) (l : List Elem), enumerators (e :: y :: l) = true → takesComma e = true ∧ enumerators (y :: l) = true
  | .emptyLine, _, _, h => ⟨rfl, h⟩
  | .decl _ _, _, _, h => ⟨rfl, h⟩

theorem wc (c : Comments) (code : Str) : withComments c false false code = topCode c ++ (code ++ eolCode c) := by
  unfold withComments
  simp

theorem wcBrace {ind : Str} (c : Comments) (hn : c.eol = []) (head body : Str) {rs : Nat → List Row} (h : Rows ind body rs) :
    Rows ind (ownLines (withComments c false false (head ++ "\n{\n".toList ++ body ++ "};\n".toList)))
      (fun d => own d (topCode c ++ (head ++ ['\n'])) ++ [⟨d, ['{']⟩] ++ rs d ++ own d ("};".toList ++ eolCode c)) := by
  have e : withComments c false false (head ++ "\n{\n".toList ++ body ++ "};\n".toList) =
      ((topCode c ++ head) ++ ['\n']) ++ (['{'] ++ ['\n']) ++ body ++ (['}', ';'] ++ ['\n']) := by
    rw [wc, eol_nil hn]
    show _ = _ ++ (['}', ';', '\n'])
    simp
  have e2 : topCode c ++ (head ++ ['\n']) = topCode c ++ head ++ ['\n'] := by rw [List.append_assoc]
  rw [e, eol_nil hn, e2]
  have : ownLines (((topCode c ++ head) ++ ['\n']) ++ (['{'] ++ ['\n']) ++ body ++ (['}', ';'] ++ ['\n'])) =
      ((topCode c ++ head) ++ ['\n']) ++ (['{'] ++ ['\n']) ++ body ++ (['}', ';'] ++ ['\n']) := by
    rw [← List.append_assoc, ownLines_nl]
  rw [this]
  exact rows_append (rows_append (rows_append (rows_nl ind _) (rows_nl ind ['{'])) h) (rows_nl ind ['}', ';'])

theorem wcNamespace {ind : Str} (c : Comments) (head body : Str) {rs : Nat → List Row} (h : Rows ind body rs) :
    Rows ind (ownLines (withComments c false false (head ++ "\n{\n".toList ++ body ++ "}".toList)))
      (fun d => own d (topCode c ++ (head ++ ['\n'])) ++ [⟨d, ['{']⟩] ++ rs d ++ own d ("}".toList ++ eolCode c)) := by
  have e : withComments c false false (head ++ "\n{\n".toList ++ body ++ "}".toList) =
      ((topCode c ++ head) ++ ['\n'] ++ (['{'] ++ ['\n']) ++ body) ++ ("}".toList ++ eolCode c) := by
    rw [wc]
    show _ = _ ++ (['}'] ++ _)
    simp
  have e2 : topCode c ++ (head ++ ['\n']) = (topCode c ++ head) ++ ['\n'] := by rw [List.append_assoc]
  rw [e, ownLines_append _ (by simp), e2]
  exact rows_append (rows_append (rows_append (rows_nl ind _) (rows_nl ind ['{'])) h) (rows_own ind _)

theorem accessRows {ind : Str} (c : Comments) (h1 : c.top = []) (h2 : c.cStyle = false) (h3 : c.eol = []) (n : Str) (dflt : Bool) (body : Str)
    {rs : Nat → List Row} (h : Rows ind body rs) :
    Rows ind (ownLines (accessLine c n dflt ++ ['\n'] ++ body))
      (fun d => own d (topCode c ++ (n ++ (":".toList ++ ((if dflt then " // <default_access_type/>".toList else eolCode c) ++ ['\n'])))) ++ rs d) := by
  have hh := rows_append (rows_nl ind (accessLine c n dflt)) h
  have e : accessLine c n dflt ++ ['\n'] =
      topCode c ++ (n ++ (":".toList ++ ((if dflt then " // <default_access_type/>".toList else eolCode c) ++ ['\n']))) := by
    unfold accessLine
    rw [top_nil h1 h2, eol_nil h3, h1, h3]
    have : (if ([] : Str).length > 0 then ([] : Str) else []) = [] := rfl
    rw [this, List.nil_append, List.nil_append, List.append_assoc, List.append_assoc]
    rfl
  have e3 : ownLines (accessLine c n dflt ++ ['\n'] ++ body) = accessLine c n dflt ++ ['\n'] ++ body := by
    obtain ⟨ls, hls, _⟩ := hh
    cases hls' : ls with
    | nil =>
      rw [hls'] at hls
      have := (List.append_eq_nil_iff.1 hls.1).1
      exact absurd (List.append_eq_nil_iff.1 this).2 (by simp)
    | cons x xs =>
      have h5 := hls.1
      rw [flat_eq (by rw [hls']; exact List.cons_ne_nil x xs)] at h5
      rw [h5, ownLines_nl]
  rw [e3, ← e]
  exact hh

theorem noComma {e : Elem} {comma : Bool} (h : commaOk e comma) (he : takesComma e = false) : comma = false := by
  cases comma
  · rfl
  · exact absurd (h rfl) (by rw [he]; exact Bool.false_ne_true)

theorem rows_decl (prefixes : List Str) (ind : Str) (c : Comments) (x : Decl) (comma : Bool) :
    Rows ind (ownLines (commented (.decl c x) comma (code prefixes ind (.decl c x)))) (fun d => rows prefixes d comma (.decl c x)) := by
  have : withComments c comma false x.code = topCode c ++ (x.code ++ ((if comma then [','] else []) ++ eolCode c)) := by
    unfold withComments
    cases comma <;> simp
  simp only [commented, code_decl, rows, this]
  exact rows_own ind _

theorem rows_leaf (ind : Str) (c : Comments) (s : Str) : Rows ind (ownLines (withComments c false false s)) (fun d => own d (topCode c ++ (s ++ eolCode c))) := by
  rw [wc]
  exact rows_own ind _

mutual
theorem rows_elem (prefixes : List Str) {ind : Str} (hi : ∀ c ∈ ind, isSpace c = true) (hn : '\n' ∉ ind) :
    (e : Elem) → (comma : Bool) → clear e = true → commaOk e comma →
      Rows ind (ownLines (commented e comma (code prefixes ind e))) (fun d => rows prefixes d comma e)
  | .emptyLine, comma, _, _ => by
    simp only [commented, rows]
    exact rows_nl ind []
  | .comment c t, comma, _, hc => by
    rw [noComma hc rfl]
    simp only [commented, code_comment, rows]
    exact rows_leaf ind c _
  | .unprocessed c t, comma, _, hc => by
    rw [noComma hc rfl]
    simp only [commented, code_unprocessed, rows]
    exact rows_leaf ind c _
  | .define c n p v, comma, _, hc => by
    rw [noComma hc rfl]
    simp only [commented, code_define, rows]
    exact rows_leaf ind c _
  | .condition c s, comma, _, hc => by
    rw [noComma hc rfl]
    simp only [commented, code_condition, rows]
    exact rows_leaf ind c _
  | .decls c ds, comma, _, hc => by
    rw [noComma hc rfl]
    simp only [commented, code_decls, rows]
    exact rows_leaf ind c _
  | .fn c f, comma, _, hc => by
    rw [noComma hc rfl]
    simp only [commented, code_fn, rows]
    exact rows_leaf ind c _
  | .decl c x, comma, _, _ => rows_decl prefixes ind c x comma
  | .enum c k n t l, comma, h, hc => by
    rw [noComma hc rfl]
    simp only [clear, Bool.and_eq_true, decide_eq_true_eq] at h
    simp only [commented, code_enum, rows]
    exact wcBrace c h.1.1 _ _ (rows_indented hi hn (rows_all prefixes hi hn l true h.2 (fun _ => h.1.2)))
  | .namespace_ c n l, comma, h, hc => by
    rw [noComma hc rfl]
    simp only [clear] at h
    have := wcNamespace c ("namespace ".toList ++ n) _ (rows_indented hi hn (rows_all prefixes hi hn l false h (fun h => (by cases h))))
    simp only [commented, code_namespace, rows]
    rw [List.append_assoc] at this
    simpa only [List.append_assoc] using this
  | .struct c hd l, comma, h, hc => by
    rw [noComma hc rfl]
    simp only [clear, Bool.and_eq_true, decide_eq_true_eq] at h
    simp only [commented, code_struct, rows]
    exact wcBrace c h.1 _ _ (rows_all prefixes hi hn l false h.2 (fun h => (by cases h)))
  | .access c n dflt l, comma, h, hc => by
    simp only [clear, Bool.and_eq_true, decide_eq_true_eq, Bool.not_eq_true'] at h
    obtain ⟨⟨⟨h1, h2⟩, h3⟩, h4⟩ := h
    simp only [commented, code_access, rows]
    exact accessRows c h1 h2 h3 n dflt _ (rows_indented hi hn (rows_all prefixes hi hn l false h4 (fun h => (by cases h))))
theorem rows_all (prefixes : List Str) {ind : Str} (hi : ∀ c ∈ ind, isSpace c = true) (hn : '\n' ∉ ind) :
    (l : List Elem) → (isEnum : Bool) → clearAll l = true → (isEnum = true → enumerators l = true) →
      Rows ind (block prefixes ind isEnum l) (fun d => rowsAll prefixes d isEnum l)
  | [], _, _, _ => ⟨[], has_nil, fun _ => rfl⟩
  | e :: l, isEnum, h, he => by
    simp only [clearAll, Bool.and_eq_true] at h
    simp only [block_cons, rowsAll]
    have hen : isEnum = true → enumerators l = true ∧ (l ≠ [] → takesComma e = true) := by
      intro hE
      have := he hE
      match l with
      | [] => exact ⟨rfl, fun h => absurd rfl h⟩
      | y :: ys => exact ⟨(enumerators_cons e y ys this).2, fun _ => (enumerators_cons e y ys this).1⟩
    refine rows_append (rows_elem prefixes hi hn e _ h.1 ?_) (rows_all prefixes hi hn l isEnum h.2 (fun hE => (hen hE).1))
    intro hcm
    simp only [Bool.and_eq_true, Bool.not_eq_true', List.isEmpty_eq_false_iff] at hcm
    exact (hen hcm.1).2 hcm.2
end

end Verif.Print
