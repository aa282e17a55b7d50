import Verif.Tree.Spec
import Verif.Indent.Lemmas
import Verif.Escape.Lemmas
import Verif.Amalg.Lemmas

namespace Verif.Tree
open Verif.Py Spec

/-! ### histories -/

theorem names_snoc (h : History) (p : List Str) (c : Str) : names (h ++ [(p, c)]) =
    match p with
    | [] => names h
    | n :: _ => if n ∈ names h then names h else names h ++ [n] := by
  unfold names
  rw [List.foldl_append]
  rfl

theorem snocInd {α : Type} {P : List α → Prop} (h0 : P []) (h1 : ∀ l a, P l → P (l ++ [a])) (l : List α) : P l := by
  have : ∀ r : List α, P r.reverse := by
    intro r
    induction r with
    | nil => exact h0
    | cons a r ih => rw [List.reverse_cons]; exact h1 _ _ ih
  have := this l.reverse
  rwa [List.reverse_reverse] at this

theorem names_nodup (h : History) : (names h).Nodup := by
  induction h using snocInd with
  | h0 => simp [names]
  | h1 l e ih =>
    obtain ⟨p, c⟩ := e
    rw [names_snoc]
    cases p with
    | nil => exact ih
    | cons n p =>
      simp only []
      split
      · exact ih
      · rename_i hn
        rw [List.nodup_append]
        refine ⟨ih, by simp, ?_⟩
        intro a ha b hb
        simp at hb
        subst hb
        rintro rfl
        exact hn ha

theorem sub_snoc (h : History) (p : List Str) (c n : Str) : sub (h ++ [(p, c)]) n =
    match p with
    | [] => sub h n
    | m :: p => if m = n then sub h n ++ [(p, c)] else sub h n := by
  unfold sub
  rw [List.filterMap_append]
  cases p with
  | nil => simp
  | cons m p =>
    by_cases hm : m = n
    · simp [hm]
    · simp [hm]

theorem own_snoc (h : History) (p : List Str) (c : Str) : own (h ++ [(p, c)]) =
    match p with
    | [] => addText (own h) c
    | _ :: _ => own h := by
  unfold own
  rw [List.filterMap_append]
  cases p with
  | nil =>
    simp only [List.filterMap_cons, List.filterMap_nil, if_true, List.foldl_append, List.foldl_cons, List.foldl_nil]
    generalize (h.filterMap _).foldl _ [] = acc
    unfold addText
    rcases List.eq_nil_or_concat acc with rfl | ⟨l, x, rfl⟩
    · simp
    · rw [List.concat_eq_append]
      have e : endsWith (l ++ [x]) ['\n'] = true ↔ x = '\n' := by
        unfold endsWith
        rw [List.isSuffixOf_iff_suffix]
        constructor
        · rintro ⟨t, ht⟩
          have := (List.append_inj' ht rfl).2
          simp at this; exact this.symm
        · rintro rfl; exact ⟨l, rfl⟩
      by_cases hx : x = '\n'
      · subst hx
        rw [if_pos (by simp), if_neg (by rw [e.2 rfl]; simp)]
      · have e' : endsWith (l ++ [x]) ['\n'] = false := by
          cases h : endsWith (l ++ [x]) ['\n'] with
          | false => rfl
          | true => exact absurd (e.1 h) hx
        rw [if_neg (by simp [hx]), if_pos ⟨by simp, e'⟩]
  | cons n p => simp

theorem sub_of_not_mem : ∀ (h : History) (n : Str), n ∉ names h → sub h n = [] := by
  intro h
  induction h using snocInd with
  | h0 => intro n _; rfl
  | h1 l e ih =>
    obtain ⟨p, c⟩ := e
    intro n hn
    rw [names_snoc] at hn
    rw [sub_snoc]
    cases p with
    | nil => exact ih n hn
    | cons m p =>
      simp only [] at hn ⊢
      have hmn : m ≠ n := by
        rintro rfl
        split at hn
        · rename_i h1; exact hn h1
        · simp at hn
      rw [if_neg hmn]
      apply ih n
      split at hn
      · exact hn
      · exact fun h => hn (List.mem_append_left _ h)

/-! ### a tree represents a history -/

mutual
def Rep : Tree → History → Prop
  | .node code subs, h => code = own h ∧ RepSubs subs (names h) h
def RepSubs : Subs → List Str → History → Prop
  | .nil, ns, _ => ns = []
  | .cons n t rest, ns, h => ∃ ns', ns = n :: ns' ∧ Rep t (sub h n) ∧ RepSubs rest ns' h
end

theorem rep_empty : Rep emptyTree [] := by
  unfold emptyTree Rep RepSubs
  exact ⟨rfl, rfl⟩

theorem repSubs_congr : ∀ (s : Subs) (ns : List Str) (h h' : History), (∀ n ∈ ns, sub h n = sub h' n) → RepSubs s ns h → RepSubs s ns h'
  | .nil, ns, h, h', _, hr => by
    unfold RepSubs at hr ⊢; exact hr
  | .cons n t rest, ns, h, h', heq, hr => by
    unfold RepSubs at hr ⊢
    obtain ⟨ns', rfl, h1, h2⟩ := hr
    exact ⟨ns', rfl, by rw [← heq n (by simp)]; exact h1,
      repSubs_congr rest ns' h h' (fun m hm => heq m (by simp [hm])) h2⟩

theorem rep_addCode {t : Tree} {h : History} (hr : Rep t h) (code : Str) : Rep (addCode t code) (h ++ [([], code)]) := by
  cases t with
  | node c subs =>
    unfold Rep at hr
    unfold addCode Rep
    refine ⟨by rw [own_snoc, hr.1], ?_⟩
    rw [names_snoc]
    exact repSubs_congr _ _ _ _ (fun n _ => by rw [sub_snoc]) hr.2

/-- Updating the sub-tree of a name. -/
theorem updateSubs_rep (n : Str) (f : Tree → Option Tree) (h : History) (p : List Str) (code : Str)
    (hf : ∀ t g, Rep t g → ∃ t', f t = some t' ∧ Rep t' (g ++ [(p, code)])) :
    ∀ (s : Subs) (ns : List Str), ns.Nodup → RepSubs s ns h → (n ∉ ns → sub h n = []) →
    ∃ s', updateSubs n f s = some s' ∧
      RepSubs s' (if n ∈ ns then ns else ns ++ [n]) (h ++ [(n :: p, code)])
  | .nil, ns, hn, hr, hsub => by
    unfold RepSubs at hr
    subst hr
    have hs := hsub (by simp)
    obtain ⟨t', h1, h2⟩ := hf emptyTree [] rep_empty
    refine ⟨.cons n t' .nil, by unfold updateSubs; rw [h1]; rfl, ?_⟩
    rw [if_neg (by simp)]
    unfold RepSubs
    refine ⟨[], rfl, ?_, by unfold RepSubs; rfl⟩
    rw [sub_snoc]
    simp only [if_true]
    rw [hs]
    exact h2
  | .cons m t rest, ns, hn, hr, hsub => by
    unfold RepSubs at hr
    obtain ⟨ns', rfl, hr1, hr2⟩ := hr
    obtain ⟨hm, hn'⟩ := List.nodup_cons.1 hn
    unfold updateSubs
    by_cases hmn : m = n
    · subst hmn
      obtain ⟨t', h1, h2⟩ := hf t _ hr1
      refine ⟨.cons m t' rest, by rw [if_pos rfl, h1]; rfl, ?_⟩
      rw [if_pos (by simp)]
      unfold RepSubs
      refine ⟨ns', rfl, ?_, ?_⟩
      · rw [sub_snoc]; simp only [if_true]; exact h2
      · apply repSubs_congr rest ns' h _ _ hr2
        intro k hk
        rw [sub_snoc]
        simp only []
        rw [if_neg]
        rintro rfl
        exact hm hk
    · obtain ⟨s', h1, h2⟩ := updateSubs_rep n f h p code hf rest ns' hn' hr2
        (fun hh => hsub (by simp [Ne.symm hmn, hh]))
      refine ⟨.cons m t s', by rw [if_neg hmn, h1]; rfl, ?_⟩
      have e : (if n ∈ m :: ns' then m :: ns' else m :: ns' ++ [n]) = m :: (if n ∈ ns' then ns' else ns' ++ [n]) := by
        by_cases hh : n ∈ ns'
        · rw [if_pos hh, if_pos (by simp [hh])]
        · rw [if_neg hh, if_neg (by simp [Ne.symm hmn, hh])]; rfl
      rw [e]
      unfold RepSubs
      refine ⟨_, rfl, ?_, h2⟩
      rw [sub_snoc]
      simp only []
      rw [if_neg (Ne.symm hmn)]
      exact hr1

theorem storeIn_rep : ∀ (p : List Str) (code : Str) (t : Tree) (h : History), p ≠ [] → Rep t h →
    ∃ t', storeIn p code t = some t' ∧ Rep t' (h ++ [(p, code)])
  | [], _, _, _, hne, _ => absurd rfl hne
  | [n], code, .node c subs, h, _, hr => by
    unfold Rep at hr
    obtain ⟨s', h1, h2⟩ := updateSubs_rep n (fun t => some (addCode t code)) h [] code
      (fun t g hg => ⟨_, rfl, rep_addCode hg code⟩) subs (names h) (names_nodup h) hr.2 (sub_of_not_mem h n)
    refine ⟨.node c s', by unfold storeIn; rw [h1]; rfl, ?_⟩
    unfold Rep
    rw [own_snoc, names_snoc]
    exact ⟨hr.1, h2⟩
  | n :: m :: ns, code, .node c subs, h, _, hr => by
    unfold Rep at hr
    obtain ⟨s', h1, h2⟩ := updateSubs_rep n (storeIn (m :: ns) code) h (m :: ns) code
      (fun t g hg => storeIn_rep (m :: ns) code t g (by simp) hg) subs (names h) (names_nodup h) hr.2 (sub_of_not_mem h n)
    refine ⟨.node c s', by unfold storeIn; rw [h1]; rfl, ?_⟩
    unfold Rep
    rw [own_snoc, names_snoc]
    exact ⟨hr.1, h2⟩

/-! ### emission -/

/-- The longest path. -/
def Bounded (d : Nat) (h : History) : Prop := ∀ e ∈ h, e.1.length < d

theorem bounded_sub {d : Nat} {h : History} (hb : Bounded (d + 1) h) (n : Str) : Bounded d (sub h n) := by
  intro e he
  unfold sub at he
  obtain ⟨e', he', heq⟩ := List.mem_filterMap.1 he
  obtain ⟨p, c⟩ := e'
  have := hb _ he'
  cases p with
  | nil => simp at heq
  | cons m p =>
    simp only [Option.ite_none_right_eq_some, Option.some.injEq] at heq
    rw [← heq.2]
    simp only [List.length_cons] at this
    show p.length < d
    omega

/-- No path goes through a root namespace, or an unnamed one. -/
def Clean (roots : List Str) (h : History) : Prop := ∀ e ∈ h, ∀ n ∈ e.1, n ∉ roots

theorem clean_sub {roots : List Str} {h : History} (hc : Clean roots h) (n : Str) : Clean roots (sub h n) := by
  intro e he
  unfold sub at he
  obtain ⟨e', he', heq⟩ := List.mem_filterMap.1 he
  obtain ⟨p, c⟩ := e'
  have := hc _ he'
  cases p with
  | nil => simp at heq
  | cons m p =>
    simp only [Option.ite_none_right_eq_some, Option.some.injEq] at heq
    rw [← heq.2]
    intro k hk
    exact this k (by simp [show k ∈ p from hk])

theorem names_mem (h : History) : ∀ {n : Str}, n ∈ names h → ∃ p c, (n :: p, c) ∈ h := by
  induction h using snocInd with
  | h0 => intro n hn; simp [names] at hn
  | h1 l e ih =>
    obtain ⟨p, c⟩ := e
    intro n hn
    rw [names_snoc] at hn
    have old : n ∈ names l → ∃ q d, (n :: q, d) ∈ l ++ [(p, c)] := by
      intro hn
      obtain ⟨q, d, h1⟩ := ih hn
      exact ⟨q, d, by simp [h1]⟩
    cases p with
    | nil => exact old hn
    | cons m p =>
      simp only [] at hn
      split at hn
      · exact old hn
      · rcases List.mem_append.1 hn with hn | hn
        · exact old hn
        · simp at hn
          subst hn
          exact ⟨p, c, by simp⟩

theorem flatten_map_congr {α : Type} {l : List α} {f g : α → Str} (h : ∀ x ∈ l, f x = g x) :
    (l.map f).flatten = (l.map g).flatten := by
  rw [List.map_congr_left h]

theorem intro_eq (cfg : Config) (name : Str) :
    intro cfg.codeType (written cfg name) = ['\n'] ++ opening cfg name ++ ['\n'] := by
  obtain ⟨ct, roots, ind, py⟩ := cfg
  cases ct <;> simp [intro, replace, replaceAux, opening, shown, written]

theorem outro_eq (cfg : Config) (name : Str) :
    outro cfg.codeType (written cfg name) = ['\n'] ++ closing cfg name ++ ['\n'] := by
  obtain ⟨ct, roots, ind, py⟩ := cfg
  cases ct <;> simp [outro, replace, replaceAux, closing, shown, written]

mutual
theorem treeCode_document (cfg : Config) (name : Str) (hname : name ∉ cfg.roots ∨ name = []) :
    ∀ (t : Tree) (h : History) (d : Nat), Rep t h → Bounded d h → Clean cfg.roots h → h ≠ [] ∨ 0 < d →
    treeCode cfg name t = document cfg d name h
  | .node code subs, h, d, hr, hb, hc, hd => by
    unfold Rep at hr
    cases d with
    | zero =>
      exfalso
      rcases hd with hd | hd
      · cases h with
        | nil => exact hd rfl
        | cons e h => exact absurd (hb e (by simp)) (by omega)
      · omega
    | succ d =>
      unfold treeCode document
      have hs := subsCode_document cfg (isIgnored cfg name code) subs (names h) h d hr.2 hb hc (fun n hn => hn)
      rw [hs]
      have hi : isIgnored cfg name code = true ↔ (name = [] ∨ own h = []) := by
        unfold isIgnored
        rw [hr.1]
        simp only [List.length_eq_zero_iff]
        split
        · rename_i h1; simp [h1]
        · rename_i h1
          simp only [decide_eq_true_eq]
          constructor
          · intro h2
            rcases hname with h3 | h3
            · exact absurd h2 h3
            · exact Or.inl h3
          · exact fun h2 => absurd h2 h1
      rw [← hr.1] at hi ⊢
      by_cases hh : name = [] ∨ code = []
      · have hi' := hi.2 hh
        rw [hi', if_pos hh]
        simp [wrap, indentSub]
      · have hi' : isIgnored cfg name code = false := by
          cases hx : isIgnored cfg name code with
          | false => rfl
          | true => exact absurd (hi.1 hx) hh
        rw [hi', if_neg hh]
        simp only [wrap, indentSub, List.map_map, Bool.false_eq_true, if_false, List.append_assoc, intro_eq, outro_eq]
        rfl
theorem subsCode_document (cfg : Config) (ignored : Bool) :
    ∀ (s : Subs) (ns : List Str) (h : History) (d : Nat), RepSubs s ns h → Bounded (d + 1) h → Clean cfg.roots h →
    (∀ n ∈ ns, n ∈ names h) →
    subsCode cfg ignored s = (ns.map (fun n => indentSub cfg ignored (document cfg d n (sub h n)))).flatten
  | .nil, ns, h, d, hr, _, _, _ => by
    unfold RepSubs at hr
    subst hr
    unfold subsCode
    rfl
  | .cons n t rest, ns, h, d, hr, hb, hc, hns => by
    unfold RepSubs at hr
    obtain ⟨ns', rfl, h1, h2⟩ := hr
    unfold subsCode
    rw [List.map_cons, List.flatten_cons]
    have hn := hns n (by simp)
    obtain ⟨p, c, hpc⟩ := names_mem h hn
    have hnr : n ∉ cfg.roots := hc _ hpc n (by simp)
    have hsub : sub h n ≠ [] := by
      have : (p, c) ∈ sub h n := by
        unfold sub
        exact List.mem_filterMap.2 ⟨_, hpc, by simp⟩
      intro h0
      rw [h0] at this
      simp at this
    rw [treeCode_document cfg n (Or.inl hnr) t (sub h n) d h1 (bounded_sub hb n) (clean_sub hc n) (Or.inl hsub),
      subsCode_document cfg ignored rest ns' h d h2 hb hc (fun m hm => hns m (by simp [hm]))]
end

/-! ### the lines of the document -/

theorem lines_nl (a b : Str) : lines (a ++ '\n' :: b) = lines a ++ lines b := by
  unfold lines
  induction a with
  | nil => rw [List.nil_append, splitOn_cons_eq]; rfl
  | cons x xs ih =>
    by_cases h : x = '\n'
    · subst h
      rw [List.cons_append, splitOn_cons_eq, splitOn_cons_eq, ih]
      rfl
    · rw [List.cons_append]
      obtain ⟨l, ls, h1, h2⟩ := splitOn_cons_ne h (xs ++ '\n' :: b)
      obtain ⟨l', ls', h3, h4⟩ := splitOn_cons_ne h xs
      rw [h2, h4]
      rw [ih, h3] at h1
      simp only [List.cons_append, List.cons.injEq] at h1
      rw [← h1.1, ← h1.2]
      rfl

theorem content_nil : content [] = [] := by decide

theorem content_nl (a b : Str) : content (a ++ '\n' :: b) = content a ++ content b := by
  unfold content
  rw [lines_nl, List.map_append, List.filter_append]

/-- Empty, or beginning with a new line. -/
def Lead (s : Str) : Prop := s = [] ∨ ∃ b, s = '\n' :: b

theorem content_append {a b : Str} (h : Lead b) : content (a ++ b) = content a ++ content b := by
  rcases h with rfl | ⟨b, rfl⟩
  · simp [content_nil]
  · rw [content_nl]
    have := content_nl [] b
    rw [List.nil_append, content_nil, List.nil_append] at this
    rw [this]

theorem lead_append {a b : Str} (ha : Lead a) (hb : Lead b) : Lead (a ++ b) := by
  rcases ha with rfl | ⟨a, rfl⟩
  · simpa using hb
  · exact Or.inr ⟨a ++ b, rfl⟩

theorem lead_flatten : ∀ {l : List Str}, (∀ s ∈ l, Lead s) → Lead l.flatten
  | [], _ => Or.inl rfl
  | s :: l, h => by
    rw [List.flatten_cons]
    exact lead_append (h s (by simp)) (lead_flatten (fun t ht => h t (by simp [ht])))

theorem content_flatten : ∀ {l : List Str}, (∀ s ∈ l, Lead s) → content l.flatten = l.flatMap content
  | [], _ => rfl
  | s :: l, h => by
    have h' : ∀ t ∈ l, Lead t := fun t ht => h t (by simp [ht])
    rw [List.flatten_cons, content_append (lead_flatten h'), content_flatten h', List.flatMap_cons]

theorem indentCode_eq (ind s : Str) :
    Indent.indentCode s (indentStr := some ind) = unlines ((lines s).map (Indent.indentLine ind true)) := rfl

theorem lead_indent {s : Str} (ind : Str) (h : Lead s) : Lead (Indent.indentCode s (indentStr := some ind)) := by
  rcases h with rfl | ⟨b, rfl⟩
  · exact Or.inl rfl
  · rw [indentCode_eq]
    have : lines ('\n' :: b) = [] :: lines b := splitOn_cons_eq _ _
    rw [this]
    obtain ⟨x, xs, hx⟩ := List.exists_cons_of_ne_nil (lines_ne_nil b)
    rw [hx]
    exact Or.inr ⟨unlines (Indent.indentLine ind true x :: xs.map (Indent.indentLine ind true)), by
      rw [List.map_cons, List.map_cons]; unfold unlines; rw [join_cons_cons]; rfl⟩

theorem strip_indentLine {ind : Str} (hi : ∀ c ∈ ind, isSpace c = true) (l : Str) :
    strip (Indent.indentLine ind true l) = strip l := by
  unfold Indent.indentLine
  split
  · rename_i h
    rw [List.length_eq_zero_iff.1 h]
  · rw [if_pos rfl]
    obtain ⟨t, h1, h2⟩ := rstrip_decomp l
    conv => rhs; rw [h1]
    have e1 : strip (ind ++ rstrip l ++ []) = strip (rstrip l) := Escape.strip_append hi (by simp)
    have e2 : strip ([] ++ rstrip l ++ t) = strip (rstrip l) := Escape.strip_append (by simp) h2
    rw [List.append_nil] at e1
    rw [List.nil_append] at e2
    rw [e1, e2]

theorem content_indent {ind : Str} (hi : ∀ c ∈ ind, isSpace c = true) (hn : '\n' ∉ ind) (s : Str) :
    content (Indent.indentCode s (indentStr := some ind)) = content s := by
  unfold content
  have e : lines (Indent.indentCode s (indentStr := some ind)) = (lines s).map (Indent.indentLine ind true) :=
    Indent.lines_indentAll s 1 (some ind) true hn
  rw [e, List.map_map]
  congr 1
  exact List.map_congr_left (fun l _ => strip_indentLine hi l)

theorem content_addText (a b : Str) : content (addText a b) = content a ++ content b := by
  unfold addText
  split
  · rw [List.append_assoc]; exact content_nl a b
  · rename_i h
    rcases List.eq_nil_or_concat a with rfl | ⟨l, x, rfl⟩
    · simp [content_nil]
    · rw [List.concat_eq_append] at h ⊢
      have hx : x = '\n' := by
        have h' : endsWith (l ++ [x]) ['\n'] = true := by
          cases hh : endsWith (l ++ [x]) ['\n'] with
          | true => rfl
          | false => exact absurd ⟨by simp, hh⟩ h
        unfold endsWith at h'
        rw [List.isSuffixOf_iff_suffix] at h'
        obtain ⟨t, ht⟩ := h'
        have := (List.append_inj' ht rfl).2
        simp at this; exact this.symm
      subst hx
      rw [List.append_assoc]
      show content (l ++ '\n' :: b) = content (l ++ '\n' :: []) ++ content b
      rw [content_nl, content_nl, content_nil, List.append_nil]

theorem content_own (h : History) : content (own h) = (codesAt [] h).flatMap content := by
  induction h using snocInd with
  | h0 => decide
  | h1 l e ih =>
    obtain ⟨p, c⟩ := e
    rw [own_snoc]
    unfold codesAt at ih ⊢
    rw [List.filter_append]
    cases p with
    | nil =>
      simp only []
      rw [content_addText, ih]
      simp
    | cons n p =>
      simp only []
      rw [ih]
      simp

/-- No namespace of a path is unnamed. -/
def Named (h : History) : Prop := ∀ e ∈ h, [] ∉ e.1

theorem named_sub {h : History} (hc : Named h) (n : Str) : Named (sub h n) := by
  intro e he
  unfold sub at he
  obtain ⟨e', he', heq⟩ := List.mem_filterMap.1 he
  obtain ⟨p, c⟩ := e'
  have := hc _ he'
  cases p with
  | nil => simp at heq
  | cons m p =>
    simp only [Option.ite_none_right_eq_some, Option.some.injEq] at heq
    rw [← heq.2]
    intro hk
    exact this (by simp [show [] ∈ p from hk])

theorem lead_document (cfg : Config) : ∀ (d : Nat) (name : Str) (h : History), Named h → (name ≠ [] ∨ own h = []) →
    Lead (document cfg d name h)
  | 0, _, _, _, _ => Or.inl rfl
  | d + 1, name, h, hn, hh => by
    unfold document
    have hs : ∀ s ∈ (names h).map (fun n => document cfg d n (sub h n)), Lead s := by
      intro s hs
      obtain ⟨n, hnm, rfl⟩ := List.mem_map.1 hs
      apply lead_document cfg d n _ (named_sub hn n)
      obtain ⟨p, c, hpc⟩ := names_mem h hnm
      left
      rintro rfl
      exact hn _ hpc (by simp)
    simp only []
    split
    · rename_i hc
      have h0 : own h = [] := by
        rcases hh with h1 | h1
        · rcases hc with h2 | h2
          · exact absurd h2 h1
          · exact h2
        · exact h1
      rw [h0, List.nil_append]
      exact lead_flatten hs
    · right
      simp only [List.append_assoc]
      exact ⟨_, rfl⟩

theorem document_succ (cfg : Config) (d : Nat) (name : Str) (h : History) : document cfg (d + 1) name h =
    if name = [] ∨ own h = [] then own h ++ ((names h).map (fun n => document cfg d n (sub h n))).flatten
    else ['\n'] ++ opening cfg name ++ ['\n'] ++ own h ++
      (((names h).map (fun n => document cfg d n (sub h n))).map
        (fun s => Indent.indentCode s (indentStr := some cfg.indent))).flatten ++
      ['\n'] ++ closing cfg name ++ ['\n'] := rfl

theorem content_document (cfg : Config) (hi : ∀ c ∈ cfg.indent, isSpace c = true) (hn : '\n' ∉ cfg.indent)
    (d : Nat) (name : Str) (h : History) (hnm : Named h) :
    ∃ o c, content (document cfg (d + 1) name h) = o ++ (codesAt [] h).flatMap content ++
        (names h).flatMap (fun n => content (document cfg d n (sub h n))) ++ c ∧
      ((o = [] ∧ c = []) ∨ (name ≠ [] ∧ o = content (opening cfg name) ∧ c = content (closing cfg name))) := by
  have hs : ∀ s ∈ (names h).map (fun n => document cfg d n (sub h n)), Lead s := by
    intro s hs
    obtain ⟨n, hnm', rfl⟩ := List.mem_map.1 hs
    apply lead_document cfg d n _ (named_sub hnm n)
    obtain ⟨p, c, hpc⟩ := names_mem h hnm'
    left
    rintro rfl
    exact hnm _ hpc (by simp)
  rw [document_succ]
  split
  · refine ⟨[], [], ?_, Or.inl ⟨rfl, rfl⟩⟩
    rw [content_append (lead_flatten hs), content_flatten hs, content_own, List.nil_append, List.append_nil,
      List.flatMap_map]
  · rename_i hc
    refine ⟨content (opening cfg name), content (closing cfg name), ?_, Or.inr ⟨fun h => hc (Or.inl h), rfl, rfl⟩⟩
    have hs' : ∀ s ∈ ((names h).map (fun n => document cfg d n (sub h n))).map
        (fun s => Indent.indentCode s (indentStr := some cfg.indent)), Lead s := by
      intro s hs1
      obtain ⟨s', hs2, rfl⟩ := List.mem_map.1 hs1
      exact lead_indent _ (hs s' hs2)
    have e : ∀ (a o s c : Str), ['\n'] ++ a ++ ['\n'] ++ o ++ s ++ ['\n'] ++ c ++ ['\n'] =
        [] ++ '\n' :: (a ++ '\n' :: ((o ++ s) ++ '\n' :: (c ++ '\n' :: []))) := by
      intros; simp
    rw [e, content_nl, content_nl, content_nl, content_nl, content_append (lead_flatten hs'), content_flatten hs',
      content_own, content_nil, List.nil_append, List.append_nil, List.flatMap_map, List.flatMap_map]
    simp only [content_indent hi hn, List.append_assoc]

theorem flatMap_perm_split {α β : Type} (f g : α → List β) : ∀ l : List α,
    (l.flatMap (fun x => f x ++ g x)).Perm (l.flatMap f ++ l.flatMap g)
  | [] => by simp
  | a :: l => by
    simp only [List.flatMap_cons]
    have := flatMap_perm_split f g l
    refine (List.Perm.append_left _ this).trans ?_
    simp only [List.append_assoc]
    refine List.Perm.append_left _ ?_
    rw [← List.append_assoc, ← List.append_assoc]
    exact List.Perm.append_right _ List.perm_append_comm

/-- The contents of all codes. -/
def allContent (h : History) : List Str := h.flatMap (fun e => content e.2)

theorem allContent_snoc (h : History) (p : List Str) (c : Str) : allContent (h ++ [(p, c)]) = allContent h ++ content c := by
  simp [allContent]

theorem codesAt_snoc (h : History) (p : List Str) (c : Str) (q : List Str) :
    codesAt q (h ++ [(p, c)]) = if p = q then codesAt q h ++ [c] else codesAt q h := by
  unfold codesAt
  rw [List.filter_append]
  by_cases hp : p = q <;> simp [hp]

theorem flatMap_congr' {α β : Type} {l : List α} {f g : α → List β} (h : ∀ x ∈ l, f x = g x) : l.flatMap f = l.flatMap g := by
  induction l with
  | nil => rfl
  | cons a l ih =>
    rw [List.flatMap_cons, List.flatMap_cons, h a (by simp), ih (fun x hx => h x (by simp [hx]))]

/-- Appending to the value at one key. -/
theorem flatMap_update {α β : Type} [DecidableEq α] (f g : α → List β) (n : α) (x : List β) : ∀ (l : List α), l.Nodup → n ∈ l →
    (∀ m ∈ l, m ≠ n → g m = f m) → g n = f n ++ x → (l.flatMap g).Perm (l.flatMap f ++ x)
  | [], _, h, _, _ => by simp at h
  | a :: l, hnd, h, h1, h2 => by
    obtain ⟨ha, hnd'⟩ := List.nodup_cons.1 hnd
    simp only [List.flatMap_cons]
    by_cases hn : a = n
    · subst hn
      have e : l.flatMap g = l.flatMap f := flatMap_congr' (fun m hm => h1 m (by simp [hm]) (by rintro rfl; exact ha hm))
      rw [e, h2, List.append_assoc, List.append_assoc]
      exact List.Perm.append_left _ List.perm_append_comm
    · have hm : n ∈ l := by
        rcases List.mem_cons.1 h with h | h
        · exact absurd h.symm hn
        · exact h
      rw [h1 a (by simp) hn, List.append_assoc]
      exact List.Perm.append_left _ (flatMap_update f g n x l hnd' hm (fun m hm => h1 m (by simp [hm])) h2)

theorem allContent_perm (h : History) :
    (allContent h).Perm ((codesAt [] h).flatMap content ++ (names h).flatMap (fun n => allContent (sub h n))) := by
  induction h using snocInd with
  | h0 => simp [allContent, codesAt, names]
  | h1 l e ih =>
    obtain ⟨p, c⟩ := e
    rw [allContent_snoc, codesAt_snoc, names_snoc]
    cases p with
    | nil =>
      simp only [if_true, sub_snoc]
      rw [List.flatMap_append]
      refine (List.Perm.append_right _ ih).trans ?_
      simp only [List.append_assoc]
      refine List.Perm.append_left _ ?_
      simp only [List.flatMap_cons, List.flatMap_nil, List.append_nil]
      exact List.perm_append_comm
    | cons n p =>
      simp only [reduceCtorEq, if_false]
      have hu : ∀ m, m ≠ n → allContent (sub (l ++ [(n :: p, c)]) m) = allContent (sub l m) := by
        intro m hm
        rw [sub_snoc]
        simp only []
        rw [if_neg (Ne.symm hm)]
      have hn : allContent (sub (l ++ [(n :: p, c)]) n) = allContent (sub l n) ++ content c := by
        rw [sub_snoc]
        simp only [if_true]
        rw [allContent_snoc]
      refine (List.Perm.append_right _ ih).trans ?_
      rw [List.append_assoc]
      refine List.Perm.append_left _ ?_
      by_cases hm : n ∈ names l
      · rw [if_pos hm]
        exact (flatMap_update (fun m => allContent (sub l m)) _ n (content c) (names l) (names_nodup l) hm
          (fun m _ hmn => hu m hmn) hn).symm
      · rw [if_neg hm, List.flatMap_append]
        have e : (names l).flatMap (fun m => allContent (sub (l ++ [(n :: p, c)]) m)) =
            (names l).flatMap (fun m => allContent (sub l m)) :=
          flatMap_congr' (fun m hm' => hu m (by rintro rfl; exact hm hm'))
        rw [e]
        refine List.Perm.append_left _ ?_
        rw [List.flatMap_cons, List.flatMap_nil, List.append_nil, hn, sub_of_not_mem l n hm]
        exact List.Perm.refl _

theorem flatMap_perm_congr {α β : Type} (f g m : α → List β) : ∀ l : List α, (∀ x ∈ l, (f x).Perm (g x ++ m x)) →
    (l.flatMap f).Perm (l.flatMap g ++ l.flatMap m)
  | [], _ => by simp
  | a :: l, h => by
    simp only [List.flatMap_cons]
    have ih := flatMap_perm_congr f g m l (fun x hx => h x (by simp [hx]))
    refine ((h a (by simp)).append ih).trans ?_
    simp only [List.append_assoc]
    refine List.Perm.append_left _ ?_
    rw [← List.append_assoc, ← List.append_assoc]
    exact List.Perm.append_right _ List.perm_append_comm

/-- Used names. -/
def used (h : History) (n : Str) : Prop := ∃ e ∈ h, n ∈ e.1

theorem used_sub {h : History} {n m : Str} (hu : used (sub h n) m) : used h m := by
  obtain ⟨e, he, hm⟩ := hu
  unfold sub at he
  obtain ⟨e', he', heq⟩ := List.mem_filterMap.1 he
  obtain ⟨p, c⟩ := e'
  cases p with
  | nil => simp at heq
  | cons k p =>
    simp only [Option.ite_none_right_eq_some, Option.some.injEq] at heq
    rw [← heq.2] at hm
    exact ⟨_, he', by simp [show m ∈ p from hm]⟩

theorem document_perm (cfg : Config) (hi : ∀ c ∈ cfg.indent, isSpace c = true) (hn : '\n' ∉ cfg.indent) :
    ∀ (d : Nat) (name : Str) (h : History), Named h → Bounded d h → ∃ marks, (content (document cfg d name h)).Perm (allContent h ++ marks) ∧
      ∀ l ∈ marks, ∃ n, (used h n ∨ (n = name ∧ name ≠ [])) ∧ (l ∈ content (opening cfg n) ∨ l ∈ content (closing cfg n))
  | 0, name, h, _, hb => by
    refine ⟨[], ?_, by simp⟩
    have : h = [] := by
      cases h with
      | nil => rfl
      | cons e h => exact absurd (hb e (by simp)) (by omega)
    subst this
    unfold document
    rw [content_nil]
    exact List.Perm.refl _
  | d + 1, name, h, hnm, hb => by
    obtain ⟨o, c, h1, h2⟩ := content_document cfg hi hn d name h hnm
    have key : ∀ n, ∃ marks, (content (document cfg d n (sub h n))).Perm (allContent (sub h n) ++ marks) ∧
      ∀ l ∈ marks, ∃ k, (used (sub h n) k ∨ (k = n ∧ n ≠ [])) ∧ (l ∈ content (opening cfg k) ∨ l ∈ content (closing cfg k)) :=
      fun n => document_perm cfg hi hn d n (sub h n) (named_sub hnm n) (bounded_sub hb n)
    refine ⟨o ++ (names h).flatMap (fun n => (key n).choose) ++ c, ?_, ?_⟩
    · rw [h1]
      have p1 := flatMap_perm_congr (fun n => content (document cfg d n (sub h n))) (fun n => allContent (sub h n))
        (fun n => (key n).choose) (names h) (fun n _ => (key n).choose_spec.1)
      have p2 := allContent_perm h
      generalize (names h).flatMap (fun n => (key n).choose) = M at *
      generalize (names h).flatMap (fun n => allContent (sub h n)) = S at *
      generalize (names h).flatMap (fun n => content (document cfg d n (sub h n))) = D at *
      generalize (codesAt [] h).flatMap content = C at *
      generalize allContent h = A at *
      have q1 : (o ++ C ++ D ++ c).Perm (o ++ C ++ (S ++ M) ++ c) :=
        List.Perm.append_right _ (List.Perm.append_left _ p1)
      refine q1.trans ?_
      have q2 : (A ++ (o ++ M ++ c)).Perm (C ++ S ++ (o ++ M ++ c)) := List.Perm.append_right _ p2
      refine List.Perm.trans ?_ q2.symm
      have e : o ++ C ++ (S ++ M) ++ c = (o ++ (C ++ S)) ++ (M ++ c) := by simp
      have e' : C ++ S ++ (o ++ M ++ c) = (C ++ S ++ o) ++ (M ++ c) := by simp
      rw [e, e']
      exact List.Perm.append_right _ List.perm_append_comm
    · intro l hl
      rw [List.mem_append, List.mem_append] at hl
      rcases hl with (hl | hl) | hl
      · rcases h2 with ⟨ho, _⟩ | ⟨hne, ho, _⟩
        · rw [ho] at hl; simp at hl
        · exact ⟨name, Or.inr ⟨rfl, hne⟩, Or.inl (by rw [← ho]; exact hl)⟩
      · obtain ⟨n, hn', hl⟩ := List.mem_flatMap.1 hl
        obtain ⟨k, hk, hl'⟩ := (key n).choose_spec.2 l hl
        refine ⟨k, Or.inl ?_, hl'⟩
        rcases hk with hk | ⟨rfl, _⟩
        · exact used_sub hk
        · obtain ⟨p, c, hpc⟩ := names_mem h hn'
          exact ⟨_, hpc, by simp⟩
      · rcases h2 with ⟨_, hc⟩ | ⟨hne, _, hc⟩
        · rw [hc] at hl; simp at hl
        · exact ⟨name, Or.inr ⟨rfl, hne⟩, Or.inr (by rw [← hc]; exact hl)⟩

theorem codesAt_cons (h : History) (n : Str) (p : List Str) : codesAt (n :: p) h = codesAt p (sub h n) := by
  induction h using snocInd with
  | h0 => rfl
  | h1 l e ih =>
    obtain ⟨q, c⟩ := e
    rw [codesAt_snoc, sub_snoc]
    cases q with
    | nil => simp [ih]
    | cons m q =>
      simp only []
      by_cases hm : m = n
      · subst hm
        rw [if_pos rfl, codesAt_snoc, ih]
        simp
      · rw [if_neg hm, if_neg (by simp [hm]), ih]

theorem infix_flatMap {α β : Type} (f : α → List β) : ∀ {l : List α} {a : α}, a ∈ l → f a <:+: l.flatMap f
  | b :: l, a, h => by
    rw [List.flatMap_cons]
    rcases List.mem_cons.1 h with rfl | h
    · exact (List.prefix_append _ _).isInfix
    · exact (infix_flatMap f h).trans (List.suffix_append _ _).isInfix

theorem names_of_mem (h : History) {n : Str} {p : List Str} {c : Str} (hm : (n :: p, c) ∈ h) : n ∈ names h := by
  induction h using snocInd with
  | h0 => simp at hm
  | h1 l e ih =>
    obtain ⟨q, c'⟩ := e
    rw [names_snoc]
    rcases List.mem_append.1 hm with hm | hm
    · have := ih hm
      cases q with
      | nil => exact this
      | cons m q =>
        simp only []
        split
        · exact this
        · simp [this]
    · simp only [List.mem_singleton, Prod.mk.injEq] at hm
      rw [← hm.1]
      simp only []
      split
      · assumption
      · simp

theorem document_infix (cfg : Config) (hi : ∀ c ∈ cfg.indent, isSpace c = true) (hn : '\n' ∉ cfg.indent) :
    ∀ (path : List Str) (d : Nat) (name : Str) (h : History), Named h → Bounded d h →
      (codesAt path h).flatMap content <:+: content (document cfg d name h)
  | path, 0, name, h, _, hb => by
    have : h = [] := by
      cases h with
      | nil => rfl
      | cons e h => exact absurd (hb e (by simp)) (by omega)
    subst this
    exact List.nil_infix
  | [], d + 1, name, h, hnm, _ => by
    obtain ⟨o, c, h1, _⟩ := content_document cfg hi hn d name h hnm
    rw [h1]
    exact ⟨o, (names h).flatMap (fun n => content (document cfg d n (sub h n))) ++ c, by simp⟩
  | n :: p, d + 1, name, h, hnm, hb => by
    obtain ⟨o, c, h1, _⟩ := content_document cfg hi hn d name h hnm
    rw [codesAt_cons, h1]
    by_cases hm : n ∈ names h
    · have i1 := document_infix cfg hi hn p d n (sub h n) (named_sub hnm n) (bounded_sub hb n)
      have i2 := infix_flatMap (fun n => content (document cfg d n (sub h n))) hm
      exact i1.trans (i2.trans ⟨o ++ (codesAt [] h).flatMap content, c, by simp⟩)
    · rw [sub_of_not_mem h n hm]
      exact List.nil_infix

/-! ### histories of calls -/

theorem storeIn_none : ∀ (p : List Str) (code : Str) (t : Tree) (h : History), Rep t h → (storeIn p code t = none ↔ p = [])
  | [], _, _, _, _ => by simp [storeIn]
  | n :: p, code, t, h, hr => by
    obtain ⟨t', h1, _⟩ := storeIn_rep (n :: p) code t h (by simp) hr
    simp [h1]

theorem storeAll_rep (roots : List Str) : ∀ (ops : History) (t t' : Tree) (h : History), Rep t h →
    storeAll roots t ops = some t' → Rep t' (h ++ dropRoots roots ops)
  | [], t, t', h, hr, hs => by
    simp only [storeAll, Option.some.injEq] at hs
    subst hs
    simpa [dropRoots] using hr
  | (p, c) :: ops, t, t', h, hr, hs => by
    unfold storeAll at hs
    cases hc : storeCode roots t p c with
    | none => rw [hc] at hs; simp at hs
    | some t1 =>
      rw [hc] at hs
      simp only [] at hs
      unfold storeCode at hc
      have hne : p.filter (fun n => ¬ n ∈ roots) ≠ [] := by
        intro h0
        rw [h0] at hc
        simp [storeIn] at hc
      obtain ⟨t2, h1, h2⟩ := storeIn_rep _ c t h hne hr
      rw [h1] at hc
      simp only [Option.some.injEq] at hc
      subst hc
      have := storeAll_rep roots ops t2 t' _ h2 hs
      simpa [dropRoots] using this

theorem storeAll_none (roots : List Str) : ∀ (ops : History) (t : Tree) (h : History), Rep t h →
    (storeAll roots t ops = none ↔ ∃ e ∈ ops, ∀ n ∈ e.1, n ∈ roots)
  | [], t, h, hr => by simp [storeAll]
  | (p, c) :: ops, t, h, hr => by
    unfold storeAll
    cases hc : storeCode roots t p c with
    | none =>
      unfold storeCode at hc
      have := (storeIn_none _ c t h hr).1 hc
      simp only [true_iff]
      refine ⟨(p, c), by simp, fun n hn => ?_⟩
      rw [List.filter_eq_nil_iff] at this
      simpa using this n hn
    | some t1 =>
      simp only []
      unfold storeCode at hc
      have hne : p.filter (fun n => ¬ n ∈ roots) ≠ [] := by
        intro h0
        rw [h0] at hc
        simp [storeIn] at hc
      obtain ⟨t2, h1, h2⟩ := storeIn_rep _ c t h hne hr
      rw [h1] at hc
      simp only [Option.some.injEq] at hc
      subst hc
      rw [storeAll_none roots ops t2 _ h2]
      constructor
      · rintro ⟨e, he, hh⟩; exact ⟨e, by simp [he], hh⟩
      · rintro ⟨e, he, hh⟩
        rcases List.mem_cons.1 he with rfl | he
        · exfalso
          apply hne
          rw [List.filter_eq_nil_iff]
          intro n hn
          simpa using hh n hn
        · exact ⟨e, he, hh⟩

theorem bounded_depthOf (h : History) : Bounded (depthOf h) h := by
  unfold depthOf
  induction h with
  | nil => intro e he; simp at he
  | cons a h ih =>
    intro e he
    simp only [List.map_cons, List.foldr_cons]
    rcases List.mem_cons.1 he with rfl | he
    · omega
    · have := ih e he
      omega

theorem clean_dropRoots (roots : List Str) (h : History) : Clean roots (dropRoots roots h) := by
  intro e he n hn
  unfold dropRoots at he
  obtain ⟨e', he', rfl⟩ := List.mem_map.1 he
  have := (List.mem_filter.1 hn).2
  simpa using this

theorem fullTreeCode_document (cfg : Config) (ops : History) (t : Tree) (hs : storeAll cfg.roots emptyTree ops = some t) :
    fullTreeCode cfg t = document cfg (depthOf (dropRoots cfg.roots ops)) [] (dropRoots cfg.roots ops) := by
  have hr := storeAll_rep cfg.roots ops emptyTree t [] rep_empty hs
  rw [List.nil_append] at hr
  exact treeCode_document cfg [] (Or.inr rfl) t _ _ hr (bounded_depthOf _) (clean_dropRoots _ _)
    (Or.inr (by unfold depthOf; omega))

end Verif.Tree
