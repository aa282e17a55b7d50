import Verif.Parse.Props

/-! C61: the functions whose parameters have a default value in braces, which srcML takes for declarations or macros. -/

namespace Verif.Parse.Props
open Verif.Py Verif.Type Spec Lemmas

/-! ### Text -/

theorem codesOf_eq (cs : List Xml) : codesOf cs = (cs.map codeTail).flatten := by
  induction cs with
  | nil => rw [codesOf]; rfl
  | cons c cs ih => rw [codesOf, ih]; rfl

theorem codeOf_node (m : Meta) (cs : List Xml) : codeOf (.node m cs) = m.text.getD [] ++ (cs.map codeTail).flatten := by
  rw [codeOf, codesOf_eq]

theorem codeOf_eq (x : Xml) : codeOf x = x.text.getD [] ++ (x.children.map codeTail).flatten := by
  cases x; exact codeOf_node _ _

theorem codeTail_node (m : Meta) (cs : List Xml) :
    codeTail (.node m cs) = m.text.getD [] ++ (cs.map codeTail).flatten ++ m.tail.getD [] := by
  unfold codeTail; rw [codeOf_node]; rfl

/-! ### Braces -/

theorem replace_spaces (n : Nat) : replace ('{' :: List.replicate n ' ' ++ ['}']) [' '] [] = "{}".toList := by
  have : ∀ n, (List.replicate n ' ' ++ ['}']).flatMap (fun c => if c = ' ' then [] else [c]) = ['}'] := by
    intro n
    induction n with
    | zero => rfl
    | succ n ih => rw [List.replicate_succ, List.cons_append, List.flatMap_cons, ih]; rfl
  rw [replace_char, List.cons_append, List.flatMap_cons, this]
  rfl

theorem replace_no_brace {t : Str} (h : '}' ∉ t) : replace t [' '] [] ≠ "{}".toList := by
  intro he
  rw [replace_char] at he
  have : '}' ∈ t.flatMap (fun c => if c = ' ' then [] else [c]) := by rw [he]; decide
  obtain ⟨c, hc, hm⟩ := List.mem_flatMap.1 this
  split at hm
  · cases hm
  · rw [List.mem_singleton] at hm; subst hm; exact h hc

theorem strip_braces (m : Str) : strip ('{' :: m ++ ['}']) = '{' :: m ++ ['}'] := by
  unfold strip
  rw [List.cons_append, lstrip_cons_of_not (by decide), ← List.cons_append, rstrip_append_of_not (by decide)]

theorem strip_decomp (t : Str) : ∃ w w', t = w ++ strip t ++ w' ∧ (∀ c ∈ w, isSpace c = true) ∧ ∀ c ∈ w', isSpace c = true := by
  obtain ⟨w, h1, h2⟩ := lstrip_decomp t
  obtain ⟨w', h3, h4⟩ := rstrip_decomp (lstrip t)
  refine ⟨w, w', ?_, h2, h4⟩
  unfold strip
  rw [List.append_assoc, ← h3]; exact h1

theorem strip_around {t u a z : Str} (h1 : strip t = '{' :: a) (h2 : strip u = z ++ ['}']) :
    ∃ m, strip (t ++ u) = '{' :: m ++ ['}'] := by
  obtain ⟨w1, w2, ht, hw1, hw2⟩ := strip_decomp t
  obtain ⟨w3, w4, hu, hw3, hw4⟩ := strip_decomp u
  refine ⟨a ++ w2 ++ w3 ++ z, ?_⟩
  rw [ht, hu, h1, h2, show (w1 ++ '{' :: a ++ w2) ++ (w3 ++ (z ++ ['}']) ++ w4) = w1 ++ (('{' :: (a ++ w2 ++ w3 ++ z) ++ ['}']) ++ w4) by simp]
  unfold strip
  rw [lstrip_append_of_all hw1, List.cons_append, List.cons_append, lstrip_cons_of_not (by decide), ← List.cons_append,
    ← List.cons_append, rstrip_append_of_all hw4, rstrip_append_of_not (by decide)]

theorem starts_brace (m : Str) : startsWith ('{' :: m ++ ['}']) ['{'] = true := by
  unfold startsWith; rw [List.isPrefixOf_iff_prefix]; exact ⟨m ++ ['}'], by simp⟩

theorem ends_brace (m : Str) : endsWith (m ++ ['}']) ['}'] = true := by
  unfold endsWith; rw [List.isSuffixOf_iff_suffix]; exact ⟨m, rfl⟩

theorem textAndTail_braces {b : Xml} {inner : Str} (h : Braces b inner) : ∃ m, strip (textAndTail b) = '{' :: m ++ ['}'] := by
  rcases h with ⟨h1, ⟨n, h2⟩, _⟩ | ⟨t, u, a, z, cs, c, h1, _, h3, h4, h5, h6, _⟩
  · refine ⟨List.replicate n ' ', ?_⟩
    unfold textAndTail
    rw [h1, h2]
    show strip (('{' :: List.replicate n ' ' ++ ['}']) ++ []) = _
    rw [List.append_nil, strip_braces]
  · unfold textAndTail
    rw [h1, h4, List.getLast?_append]
    simp only [List.getLast?_singleton, Option.some_or, Option.bind_some, h5, Option.getD_some]
    exact strip_around h3 h6

/-- The block with the marker. -/
theorem hackBlock_braces {b : Xml} {inner : Str} (h : Braces b inner) :
    ∃ b', hackBlock b = some b' ∧ b'.tag = b.tag ∧ codeOf b' = marked inner ∧ b'.meta.tail = b.meta.tail := by
  rcases b with ⟨m, cs0⟩
  rcases h with ⟨h1, ⟨n, h2⟩, h3⟩ | ⟨t, u, a, z, cs, c, h1, h2, h3, h4, h5, h6, h7⟩
  · change cs0 = [] at h1
    change m.text = _ at h2
    subst h1; subst h3
    refine ⟨.node { m with text := some (braceToken ++ [')']) } [], ?_, rfl, ?_, rfl⟩
    · unfold hackBlock
      simp only [h2]
      rw [if_pos (replace_spaces n)]
    · rw [codeOf_node]; rfl
  · change m.text = _ at h1
    change cs0 = _ at h4
    subst h4; subst h7
    rcases c with ⟨mc, cc⟩
    change mc.tail = _ at h5
    refine ⟨.node { m with text := some (braceToken ++ a) } (cs ++ [.node { mc with tail := some (z ++ [')']) } cc]), ?_, rfl, ?_, rfl⟩
    · unfold hackBlock
      simp only [h1]
      rw [if_neg (replace_no_brace h2)]
      simp only [List.reverse_append, List.reverse_cons, List.reverse_nil, List.nil_append, List.cons_append, List.reverse_reverse]
      rw [h3]
      rw [if_pos (show startsWith ('{' :: a) ['{'] = true by unfold startsWith; rw [List.isPrefixOf_iff_prefix]; exact ⟨a, rfl⟩)]
      unfold closeBrace
      simp only [h5, h6]
      rw [if_pos (ends_brace z)]
      simp
    · rw [codeOf_node]
      simp only [List.map_append, List.map_cons, List.map_nil, List.flatten_append, List.flatten_cons, List.flatten_nil, List.append_nil]
      rw [codeTail_node, codeOf_node]
      unfold marked braceToken
      simp

theorem only_of_theChild {x : Xml} {t : Tag} {c : Xml} (h : x.theChild t = some c) : Only x t c := by
  unfold Xml.theChild Xml.withTag at h
  split at h
  · rename_i d hd
    cases h
    have hmem : c ∈ x.children.filter (fun d => decide (d.tag = t)) := by rw [hd]; simp
    obtain ⟨hm, ht⟩ := List.mem_filter.1 hmem
    obtain ⟨a, b, hab⟩ := List.append_of_mem hm
    refine ⟨a, b, hab, by simpa using ht, ?_⟩
    intro d hd' heq
    rw [hab] at hd
    rw [List.filter_append, List.filter_cons, if_pos ht] at hd
    have hlen := congrArg List.length hd
    simp only [List.length_append, List.length_cons, List.length_nil] at hlen
    have ha : (a.filter (fun d => decide (d.tag = t))).length = 0 := by omega
    have hb : (b.filter (fun d => decide (d.tag = t))).length = 0 := by omega
    rw [List.length_eq_zero_iff, List.filter_eq_nil_iff] at ha hb
    rcases List.mem_append.1 hd' with h | h
    · exact ha d h (by simpa using heq)
    · exact hb d h (by simpa using heq)
  · cases h

theorem suspiciousBlock_of {e b : Xml} (h : Suspicious e b) {m : Str} (hm : strip (textAndTail b) = '{' :: m ++ ['}']) :
    suspiciousBlock e = some b := by
  obtain ⟨h1, ⟨p, q, h2⟩, o, ho, ht, t, hx, hs⟩ := h
  unfold suspiciousBlock
  rw [theChild_only h1]
  simp only
  rw [if_pos, if_pos]
  · rw [hm]; exact ⟨starts_brace m, ends_brace ('{' :: m)⟩
  · refine ⟨by unfold Xml.withTag; rw [h2]; rfl, ?_⟩
    rw [List.any_eq_true]
    refine ⟨o, List.mem_filter.2 ⟨ho, by simpa using ht⟩, ?_⟩
    rw [hx]; simpa using hs

theorem suspicious_of {e b : Xml} (h : suspiciousBlock e = some b) : Suspicious e b := by
  unfold suspiciousBlock at h
  split at h
  · cases h
  · rename_i b' hb'
    split at h
    · rename_i hc
      split at h
      · cases h
        refine ⟨only_of_theChild hb', ?_, ?_⟩
        · exact List.length_eq_two.1 hc.1
        · have := hc.2
          rw [List.any_eq_true] at this
          obtain ⟨o, ho, ht⟩ := this
          obtain ⟨ho1, ho2⟩ := List.mem_filter.1 ho
          refine ⟨o, ho1, by simpa using ho2, ?_⟩
          cases hx : o.text with
          | none => rw [hx] at ht; cases ht
          | some t => rw [hx] at ht; exact ⟨t, rfl, by simpa using ht⟩
      · cases h
    · cases h

theorem mapM_some_id {l : List Xml} {f : Xml → Option (Xml × Bool)} (h : ∀ c ∈ l, f c = some (c, false)) :
    l.mapM f = some (l.map (fun c => (c, false))) := by
  induction l with
  | nil => rfl
  | cons a l ih =>
    rw [List.mapM_cons, h a (by simp), ih (fun c hc => h c (by simp [hc]))]
    rfl

theorem mapM_some_append {α β : Type} {l l' : List α} {f : α → Option β} {r r' : List β} (h : l.mapM f = some r) (h' : l'.mapM f = some r') :
    (l ++ l').mapM f = some (r ++ r') := by
  rw [List.mapM_append, h, h']; rfl

theorem hackArgument_plain {c : Xml} (h : PlainArg c) : hackArgument c = some (c, false) := by
  unfold hackArgument
  split
  · rename_i hc
    obtain ⟨e, he⟩ := Option.isSome_iff_exists.1 hc.2
    have ho := only_of_theChild he
    have hn : ∀ d ∈ c.children, (fun c => if c.tag = Tag.expr then hackExpr c else some (c, false)) d = some (d, false) := by
      intro d hd
      show (if d.tag = Tag.expr then hackExpr d else some (d, false)) = _
      split
      · rename_i ht
        have hde : d = e := by
          obtain ⟨a, b, h1, h2, h3⟩ := ho
          rw [h1] at hd
          simp only [List.mem_append, List.mem_cons] at hd h3
          rcases hd with hd | hd | hd
          · exact absurd ht (h3 d (.inl hd))
          · exact hd
          · exact absurd ht (h3 d (.inr hd))
        subst hde
        unfold hackExpr
        cases hs : suspiciousBlock d with
        | none => rfl
        | some b => exact absurd (suspicious_of hs) (h hc.1 d b ho)
      · rfl
    rw [mapM_some_id hn]
    rcases c with ⟨m, cs⟩
    show some (Xml.node m ((cs.map (fun c => (c, false))).map Prod.fst), (cs.map (fun c => (c, false))).any Prod.snd) = _
    rw [List.map_map]
    have h1 : (Prod.fst ∘ fun c : Xml => (c, false)) = id := rfl
    rw [h1, List.map_id]
    have h2 : (cs.map (fun c => (c, false))).any Prod.snd = false := by
      rw [List.any_eq_false]; simp
    rw [h2]
  · rfl

theorem hackArgument_braced {c : Xml} {out : Str} (h : BracedArg c out) : ∃ c', hackArgument c = some (c', true) ∧ codeTail c' = out := by
  obtain ⟨hc, pre, e, post, a, b, inner, h1, h2, h3, h4, h5, h6, h7⟩ := h
  obtain ⟨b', hb1, _, hb2, hb3⟩ := hackBlock_braces h6
  obtain ⟨m, hm⟩ := textAndTail_braces h6
  have hs := suspiciousBlock_of h5 hm
  have ho : Only c .expr e := ⟨pre, post, h1, h2, h3⟩
  have hbt : b.tag = .block := by obtain ⟨_, _, _, h, _⟩ := h5.1; exact h
  have hrest : e.children.filter (fun c => decide (c.tag ≠ .block)) = a := by
    obtain ⟨a1, b1, h8, h9, h10⟩ := h5.1
    have hnot : ∀ d ∈ a, d.tag ≠ .block := by
      intro d hd hdt
      have hl : (e.children.filter (fun c => decide (c.tag = .block))).length = 1 := by
        have ha1 : a1.filter (fun c => decide (c.tag = .block)) = [] := by
          rw [List.filter_eq_nil_iff]; intro d hd; simpa using h10 d (by simp [hd])
        have hb1 : b1.filter (fun c => decide (c.tag = .block)) = [] := by
          rw [List.filter_eq_nil_iff]; intro d hd; simpa using h10 d (by simp [hd])
        rw [h8, List.filter_append, List.filter_cons, if_pos (by simpa using h9), ha1, hb1]; rfl
      rw [h4, List.filter_append, List.filter_cons, if_pos (by simpa using hbt)] at hl
      have hm : d ∈ a.filter (fun c => decide (c.tag = .block)) := List.mem_filter.2 ⟨hd, by simpa using hdt⟩
      have := List.length_pos_of_mem hm
      simp only [List.length_append, List.length_cons] at hl
      omega
    rw [h4, List.filter_append, List.filter_cons, if_neg (by simpa using hbt)]
    rw [List.filter_eq_self.2 (by intro d hd; simpa using hnot d hd)]
    simp
  have hexpr : hackExpr e = some (.node e.meta (a ++ [b']), true) := by
    unfold hackExpr
    rw [hs]
    simp only [hb1]
    rw [hrest]
  have hpre : ∀ l : List Xml, (∀ d ∈ l, d.tag ≠ .expr) → l.mapM (fun c => if c.tag = Tag.expr then hackExpr c else some (c, false)) =
      some (l.map (fun c => (c, false))) := by
    intro l hl
    refine mapM_some_id (fun d hd => ?_)
    rw [if_neg (hl d hd)]
  refine ⟨.node c.meta (pre ++ .node e.meta (a ++ [b']) :: post), ?_, ?_⟩
  · unfold hackArgument
    rw [if_pos ⟨hc, by rw [theChild_only ho]; rfl⟩, h1]
    rw [mapM_some_append (hpre pre (fun d hd => h3 d (by simp [hd])))
      (l' := e :: post) (r' := (.node e.meta (a ++ [b']), true) :: post.map (fun c => (c, false)))]
    · show some (Xml.node c.meta _, _) = _
      simp [Function.comp_def]
    · rw [List.mapM_cons, if_pos h2, hexpr, hpre post (fun d hd => h3 d (by simp [hd]))]
      rfl
  · rw [codeTail_node, h7]
    simp only [List.map_append, List.map_cons, List.map_nil, List.flatten_append, List.flatten_cons, List.flatten_nil, List.append_nil]
    rw [codeTail_node]
    simp only [List.map_append, List.map_cons, List.map_nil, List.flatten_append, List.flatten_cons, List.flatten_nil, List.append_nil]
    unfold codeTail Xml.text
    rw [hb2, hb3]
    simp

/-- The arguments with the marker. -/
theorem hackArguments {l : List Xml} {outs : List Str} (h : List.Forall₂ ArgText l outs) :
    ∃ rs, l.mapM hackArgument = some rs ∧ (rs.map Prod.fst).map codeTail = outs ∧
      ((∃ c ∈ l, ∃ o, BracedArg c o) → rs.any Prod.snd = true) ∧ ((∀ c ∈ l, PlainArg c) → rs = l.map (fun c => (c, false))) := by
  induction h with
  | nil => exact ⟨[], rfl, rfl, by simp, by simp⟩
  | @cons c o l outs hc _ ih =>
    obtain ⟨rs, h1, h2, h3, h4⟩ := ih
    have hexcl : PlainArg c → ∀ o, ¬ BracedArg c o := by
      intro hp o hb
      obtain ⟨hc, pre, e, post, a, b, inner, h1, h2, h3, h4, h5, _⟩ := hb
      exact hp hc e b ⟨pre, post, h1, h2, h3⟩ h5
    rcases hc with ⟨hp, ho⟩ | hb
    · refine ⟨(c, false) :: rs, ?_, ?_, ?_, ?_⟩
      · rw [List.mapM_cons, hackArgument_plain hp, h1]; rfl
      · simp [h2, ho]
      · rintro ⟨d, hd, o', hb'⟩
        rcases List.mem_cons.1 hd with rfl | hd
        · exact absurd hb' (hexcl hp o')
        · simpa using h3 ⟨d, hd, o', hb'⟩
      · intro hall
        rw [h4 (fun d hd => hall d (by simp [hd]))]; rfl
    · obtain ⟨c', hh, ht⟩ := hackArgument_braced hb
      refine ⟨(c', true) :: rs, ?_, ?_, ?_, ?_⟩
      · rw [List.mapM_cons, hh, h1]; rfl
      · simp [h2, ht]
      · intro _; rfl
      · intro hall; exact absurd hb (hexcl (hall c (by simp)) o)

theorem hackFirstList_at {pre post : List Xml} {l : Xml} (hp : ∀ c ∈ pre, c.tag ≠ .argumentList) (hl : l.tag = .argumentList)
    {rs : List (Xml × Bool)} (h : l.children.mapM hackArgument = some rs) :
    hackFirstList (pre ++ l :: post) = some (pre ++ .node l.meta (rs.map Prod.fst) :: post, rs.any Prod.snd) := by
  induction pre with
  | nil =>
    show (if l.tag = .argumentList then _ else _) = _
    rw [if_pos hl, h]; rfl
  | cons c pre ih =>
    rw [List.cons_append]
    show (if c.tag = .argumentList then _ else hackFirstList (pre ++ l :: post) >>= _) = _
    rw [if_neg (hp c (by simp)), ih (fun d hd => hp d (by simp [hd]))]
    rfl

/-- C61. When an argument of the declaration `d` is a parameter with a default value in braces, the code which is parsed again is the one of
`d`, in which a call of `__srcmlcpp_brace_init__` replaces each of these pairs of braces. -/
theorem C61_rewritten (env : Env) (stmt d l : Xml) (pre post : List Xml) (outs : List Str) (hd : Only stmt .decl d)
    (hch : d.children = pre ++ l :: post) (hp : ∀ c ∈ pre, c.tag ≠ .argumentList) (hl : l.tag = .argumentList)
    (h : List.Forall₂ ArgText l.children outs) (hb : ∃ c ∈ l.children, ∃ o, BracedArg c o) :
    ∃ d', rewriteDecl env stmt = .ok (some (env.toCode d')) ∧ d'.meta = d.meta ∧
      codeOf d' = d.text.getD [] ++ (pre.map codeTail).flatten ++ (l.text.getD [] ++ outs.flatten ++ l.meta.tail.getD []) ++
        (post.map codeTail).flatten := by
  obtain ⟨rs, h1, h2, h3, _⟩ := hackArguments h
  refine ⟨.node d.meta (pre ++ .node l.meta (rs.map Prod.fst) :: post), ?_, rfl, ?_⟩
  · unfold rewriteDecl
    rw [theChild_only hd]
    simp only
    rw [hch, hackFirstList_at hp hl h1]
    simp only [h3 hb, if_true]
  · rw [codeOf_node]
    simp only [List.map_append, List.map_cons, List.flatten_append, List.flatten_cons]
    rw [codeTail_node, h2]
    unfold Xml.text
    simp

/-- C61. A statement none of whose arguments may be such a parameter is left alone. -/
theorem C61_untouched (env : Env) (stmt : Xml) (h : ∀ d, Only stmt .decl d → ∀ l ∈ d.children, l.tag = .argumentList → ∀ c ∈ l.children, PlainArg c) :
    fixDeclStmt env stmt = .ok none := by
  unfold fixDeclStmt
  split
  · have : rewriteDecl env stmt = .ok none := by
      unfold rewriteDecl
      cases hd : stmt.theChild .decl with
      | none => rfl
      | some d =>
        have hd' := h d (only_of_theChild hd)
        have key : ∀ cs : List Xml, (∀ l ∈ cs, l.tag = .argumentList → ∀ c ∈ l.children, PlainArg c) →
            ∃ cs', hackFirstList cs = some (cs', false) := by
          intro cs
          induction cs with
          | nil => intro _; exact ⟨[], rfl⟩
          | cons c cs ih =>
            intro hall
            by_cases hc : c.tag = .argumentList
            · have hm := mapM_some_id (f := hackArgument) (fun a ha => hackArgument_plain (hall c (by simp) hc a ha))
              refine ⟨.node c.meta ((c.children.map (fun c => (c, false))).map Prod.fst) :: cs, ?_⟩
              show (if c.tag = .argumentList then _ else _) = _
              rw [if_pos hc, hm]
              show some (_, _) = _
              congr 2
              rw [List.any_eq_false]; simp
            · obtain ⟨cs', hcs⟩ := ih (fun l hl => hall l (by simp [hl]))
              refine ⟨c :: cs', ?_⟩
              show (if c.tag = .argumentList then _ else _) = _
              rw [if_neg hc, hcs]; rfl
        obtain ⟨cs', hcs⟩ := key d.children hd'
        simp only [hcs]
        rfl
    rw [this]; rfl
  · rfl

/-! ### Recovered functions -/

theorem toBraceInit_restored {s : Str} (h : (¬ "__srcmlcpp_brace_init__(".toList <+: s) ∨ ∃ v, s = marked v) : Restored s (toBraceInit s) := by
  rcases h with hs | ⟨v, rfl⟩
  · refine .inr ⟨hs, ?_⟩
    unfold toBraceInit
    rw [if_neg]
    intro h
    unfold startsWith at h
    rw [List.isPrefixOf_iff_prefix] at h
    exact hs h
  · refine .inl ⟨v, rfl, ?_⟩
    unfold toBraceInit
    have h2 : marked v = braceToken ++ (v ++ [')']) := by
      show braceToken ++ v ++ [')'] = _
      rw [List.append_assoc]
    have h1 : startsWith (marked v) braceToken = true := by
      unfold startsWith; rw [List.isPrefixOf_iff_prefix, h2]; exact ⟨_, rfl⟩
    rw [if_pos h1, h2, List.drop_left]
    have h3 : (braceToken ++ (v ++ [')'])).length - braceToken.length - 1 = v.length := by
      simp only [List.length_append, List.length_cons, List.length_nil]; omega
    rw [h3, List.take_left]
    rfl

/-- A parameter with its default value restored. -/
def ParamRestored (p q : Param) : Prop :=
  ∃ d v, p.decl = some d ∧ q = { p with decl := some { d with initialValue := v } } ∧ Restored d.initialValue v

/-- C61. The function recovered from the statement is the one srcML gives for the rewritten code, with the braces of its default values
put back. -/
theorem C61_recovered (env : Env) (stmt : Xml) (code : Str) (f : Func) (ps : List Param) (ho : env.fixBraceInit = true)
    (hc : rewriteDecl env stmt = .ok (some code)) (hr : env.reparse code = .ok [f]) (hps : f.params = some ps)
    (hd : ∀ p ∈ ps, ∃ d, p.decl = some d ∧ ((¬ "__srcmlcpp_brace_init__(".toList <+: d.initialValue) ∨ ∃ v, d.initialValue = marked v)) :
    ∃ qs, fixDeclStmt env stmt = .ok (some { f with params := some qs }) ∧ List.Forall₂ ParamRestored ps qs := by
  have key : ∃ qs, ps.mapM (fun p => p.decl.map (fun d => { p with decl := some { d with initialValue := toBraceInit d.initialValue } })) = some qs ∧
      List.Forall₂ ParamRestored ps qs := by
    clear hps
    induction ps with
    | nil => exact ⟨[], rfl, .nil⟩
    | cons p ps ih =>
      obtain ⟨d, h1, h2⟩ := hd p (by simp)
      obtain ⟨qs, h3, h4⟩ := ih (fun p hp => hd p (by simp [hp]))
      refine ⟨{ p with decl := some { d with initialValue := toBraceInit d.initialValue } } :: qs, ?_, .cons ⟨d, _, h1, rfl, toBraceInit_restored h2⟩ h4⟩
      rw [List.mapM_cons, h1, h3]; rfl
  obtain ⟨qs, h1, h2⟩ := key
  refine ⟨qs, ?_, h2⟩
  have h3 : braceInitParams f = some { f with params := some qs } := by
    unfold braceInitParams
    rw [hps]
    simp only [Option.bind_eq_bind, Option.bind_some, h1]
  unfold fixDeclStmt
  rw [if_pos ho, hc]
  show (env.reparse code >>= _) = _
  rw [hr]
  show (match braceInitParams f with
    | some f' => Except.ok (some f')
    | none => Except.error Err.crash) = _
  rw [h3]

/-! Examples -/

/-- `void f(P p = {1, 2});` as srcML gives it -/
def stmt3 : Xml := node .declStmt [node .decl [node .type [leaf .name "void"], leaf .name "f",
  .node { tag := .argumentList, text := some "(".toList } [.node { tag := .argument, tail := some ")".toList } [node .expr
    [.node { tag := .name, text := some "P".toList, tail := some " ".toList } [], leaf .name "p",
     .node { tag := .operator, text := some "=".toList } [],
     .node { tag := .block, text := some "{".toList } [.node { tag := .expr, text := some "1, 2".toList, tail := some "}".toList } []]]]]]]

/-- What srcML gives for the rewritten code. -/
def fun4 : Func := { kind := .functionDecl, name := "f".toList, returnType := some ⟨[], ["void".toList], []⟩,
                     params := some [{ decl := some { cppType := some ⟨[], ["P".toList], []⟩, name := "p".toList,
                                                      initialValue := "__srcmlcpp_brace_init__(1, 2)".toList } }] }

/-- The function with its default value. -/
def fun5 : Func := { fun4 with params := some [{ decl := some { cppType := some ⟨[], ["P".toList], []⟩, name := "p".toList,
                                                                initialValue := "{1, 2}".toList } }] }

def env1 : Env := { env0 with reparse := fun _ => .ok [fun4] }

example : rewriteDecl env1 stmt3 = .ok (some "voidf(P p=__srcmlcpp_brace_init__(1, 2))".toList) ∧ fixDeclStmt env1 stmt3 = .ok (some fun5) :=
  ⟨by decide +kernel, by decide +kernel⟩

/-- The argument of `stmt3`. -/
example : BracedArg (.node { tag := .argument, tail := some ")".toList } [node .expr
    [.node { tag := .name, text := some "P".toList, tail := some " ".toList } [], leaf .name "p",
     .node { tag := .operator, text := some "=".toList } [],
     .node { tag := .block, text := some "{".toList } [.node { tag := .expr, text := some "1, 2".toList, tail := some "}".toList } []]]])
    "P p=__srcmlcpp_brace_init__(1, 2))".toList := by
  refine ⟨rfl, [], _, [], [.node { tag := .name, text := some "P".toList, tail := some " ".toList } [], leaf .name "p",
     .node { tag := .operator, text := some "=".toList } []], _, "1, 2".toList, rfl, rfl, by simp, rfl, ⟨⟨[.node { tag := .name, text := some "P".toList, tail := some " ".toList } [],
     leaf .name "p", .node { tag := .operator, text := some "=".toList } []], [], rfl, rfl, ?_⟩, ⟨_, _, rfl⟩,
     .node { tag := .operator, text := some "=".toList } [], ?_, rfl, _, rfl, by decide⟩, .inr ⟨_, "}".toList, [], [], [], _, rfl, by decide, by decide, rfl, rfl,
     by decide, by decide +kernel⟩, by decide +kernel⟩
  · decide
  · show _ ∈ [_, _, _, _]
    simp

/-- C61, full statement: the function recovered from a statement has the comments of the statement. -/
def C61_comments_statement : Prop :=
  ∀ (env : Env) (x : Xml) (ctx : Ctx) (c : Comments) (f : Func), x.tag = .declStmt → parseChild env x ctx c = .ok [.func f] → f.comments = c

/-- The documentation of the function is lost. -/
theorem C61_comments_fails : ¬ C61_comments_statement := by
  intro h
  have h1 := h env1 stmt3 .elsewhere ⟨"Documentation".toList, []⟩ fun5 rfl
    (by
      have h2 : ∃ ds, parseDeclStmt env1 stmt3 ⟨"Documentation".toList, []⟩ = .ok ds := ⟨[⟨some ⟨[], ["void".toList], []⟩, "f".toList, [],
        "{P p={1, 2}}".toList, true, [], ⟨"Documentation".toList, []⟩, false⟩], by decide +kernel⟩
      obtain ⟨ds, h2⟩ := h2
      have h3 : fixDeclStmt env1 stmt3 = .ok (some fun5) := by decide +kernel
      unfold stmt3 node at h2 h3 ⊢
      rw [parseChild]
      simp only [h2, h3]
      rfl)
  revert h1
  decide

/-- srcML takes a code for one function, whose parameters are declarations. -/
def OneFunction (env : Env) (code : Str) : Prop :=
  ∃ f ps, env.reparse code = .ok [f] ∧ f.params = some ps ∧ ∀ p ∈ ps, ∃ d, p.decl = some d

/-- C61, full statement: a statement with braces never ends the program, if the rewritten code is a function. -/
def C61_survives_statement : Prop :=
  ∀ (env : Env) (stmt : Xml), (∀ code, rewriteDecl env stmt = .ok (some code) → OneFunction env code) → fixDeclStmt env stmt ≠ .error .crash

/-- `void f(P p = {⏎});`: the braces hold a line feed. -/
def stmt4 : Xml := node .declStmt [node .decl [node .type [leaf .name "void"], leaf .name "f",
  .node { tag := .argumentList, text := some "(".toList } [.node { tag := .argument, tail := some ")".toList } [node .expr
    [leaf .name "P", leaf .name "p", leaf .operator "=", leaf .block "{\n}"]]]]]

theorem C61_survives_fails : ¬ C61_survives_statement := by
  intro h
  refine h { env0 with reparse := fun _ => .ok [{ kind := .functionDecl, params := some [] }] } stmt4 (fun _ _ => ⟨_, [], rfl, rfl, by simp⟩) ?_
  decide +kernel

/-- C61 (part): if every argument is plain or has braces as srcML gives them (`Braces`). -/
theorem C61_survives_partial (env : Env) (stmt : Xml) (hr : ∀ code, rewriteDecl env stmt = .ok (some code) → OneFunction env code)
    (h : ∀ d, Only stmt .decl d → ∀ l ∈ d.children, l.tag = .argumentList → ∀ c ∈ l.children, ∃ out, ArgText c out) :
    fixDeclStmt env stmt ≠ .error .crash := by
  have hw : ∃ o, rewriteDecl env stmt = .ok o := by
    unfold rewriteDecl
    cases hd : stmt.theChild .decl with
    | none => exact ⟨none, rfl⟩
    | some d =>
      have hd' := h d (only_of_theChild hd)
      have key : ∀ cs : List Xml, (∀ l ∈ cs, l.tag = .argumentList → ∀ c ∈ l.children, ∃ out, ArgText c out) → ∃ r, hackFirstList cs = some r := by
        intro cs
        induction cs with
        | nil => intro _; exact ⟨_, rfl⟩
        | cons c cs ih =>
          intro hall
          by_cases hc : c.tag = .argumentList
          · have hl := hall c (by simp) hc
            have hf : ∀ l : List Xml, (∀ c ∈ l, ∃ out, ArgText c out) → ∃ outs, List.Forall₂ ArgText l outs := by
              intro l
              induction l with
              | nil => intro _; exact ⟨[], .nil⟩
              | cons a l ihl =>
                intro hh
                obtain ⟨o, ho⟩ := hh a (by simp)
                obtain ⟨os, hos⟩ := ihl (fun c hc => hh c (by simp [hc]))
                exact ⟨o :: os, .cons ho hos⟩
            obtain ⟨outs, houts⟩ := hf _ hl
            obtain ⟨rs, h1, _⟩ := hackArguments houts
            refine ⟨_, hackFirstList_at (pre := []) (post := cs) (by simp) hc h1⟩
          · obtain ⟨r, hr⟩ := ih (fun l hl => hall l (by simp [hl]))
            refine ⟨(c :: r.1, r.2), ?_⟩
            show (if c.tag = .argumentList then _ else _) = _
            rw [if_neg hc, hr]; rfl
      obtain ⟨⟨cs', b⟩, hcs⟩ := key d.children hd'
      simp only [hcs]
      exact ⟨_, rfl⟩
  obtain ⟨o, ho⟩ := hw
  unfold fixDeclStmt
  split
  · rw [ho]
    cases o with
    | none => exact fun h => by cases h
    | some code =>
      obtain ⟨f, ps, h1, h2, hps⟩ := hr code ho
      have hqs : ∀ ps : List Param, (∀ p ∈ ps, ∃ d, p.decl = some d) → ∃ qs,
          ps.mapM (fun p => p.decl.map (fun d => { p with decl := some { d with initialValue := toBraceInit d.initialValue } })) = some qs := by
        intro ps
        induction ps with
        | nil => intro _; exact ⟨[], rfl⟩
        | cons p ps ih =>
          intro hh
          obtain ⟨d, hd⟩ := hh p (by simp)
          obtain ⟨qs, hqs⟩ := ih (fun q hq => hh q (by simp [hq]))
          rw [List.mapM_cons, hd, hqs]
          exact ⟨_, rfl⟩
      obtain ⟨qs, hqs⟩ := hqs ps hps
      have h3 : braceInitParams f = some { f with params := some qs } := by
        unfold braceInitParams
        rw [h2]
        simp only [Option.bind_eq_bind, Option.bind_some]
        rw [hqs]; rfl
      show (env.reparse code >>= _) ≠ _
      rw [h1]
      show (match braceInitParams f with
        | some f' => Except.ok (some f')
        | none => Except.error Err.crash) ≠ _
      rw [h3]
      exact fun h => by cases h
  · exact fun h => by cases h

/-! ### Constructors -/

/-- C61. In a class `n`, the macro `n(...)` becomes a constructor with the parameters that srcML gives for `void blah(...)`. -/
theorem C61_constructor (env : Env) (n rest : Str) (x : Xml) (f : Func) (hx : env.verbatim x = n ++ rest) (hs : n <+: strip (n ++ rest))
    (hr : env.reparse ("void blah".toList ++ rest ++ ";".toList) = .ok [f]) :
    fixMacro env n x = .ok (some { kind := .constructorDecl, name := n, params := f.params, comments := f.comments }) := by
  unfold fixMacro
  rw [hx]
  rw [if_pos (by unfold startsWith; rw [List.isPrefixOf_iff_prefix]; exact hs), List.drop_left]
  show (env.reparse _ >>= _) = _
  rw [show [';'] = ";".toList from rfl, hr]
  rfl

/-- C61. Other macros do not. -/
theorem C61_other_macro (env : Env) (n : Str) (x : Xml) (h : ¬ n <+: strip (env.verbatim x)) : fixMacro env n x = .ok none := by
  unfold fixMacro
  rw [if_neg]
  unfold startsWith; rw [List.isPrefixOf_iff_prefix]; exact h

example : "Foo".toList <+: strip ("Foo".toList ++ "(int a={})".toList) ∧ ¬ "Foo".toList <+: strip "PY_SLOT(Foo)".toList := by decide

/-- C61, full statement: a macro becomes a constructor only if its name is the one of the class. -/
def C61_macro_name_statement : Prop :=
  ∀ (env : Env) (n name args : Str) (x : Xml) (f : Func), env.verbatim x = name ++ '(' :: args → '(' ∉ name → '(' ∉ n →
    fixMacro env n x = .ok (some f) → name = n

/-- In the class `Foo`, the macro `FooInit(int a)` becomes a constructor. -/
theorem C61_macro_name_fails : ¬ C61_macro_name_statement := by
  intro h
  have := h env1 "Foo".toList "FooInit".toList "int a)".toList (leaf .macro_ "FooInit(int a)")
    { kind := .constructorDecl, name := "Foo".toList, params := fun4.params } (by decide +kernel) (by decide) (by decide) (by decide +kernel)
  revert this
  decide

end Verif.Parse.Props
