import Verif.ToPy.Qualify

/-! C83: the names of the members of the enclosing scopes. -/

namespace Verif.ToPy.Props
open Verif.Py Verif.Re Verif.Inst Verif.Inst.Spec Verif.ToPy Verif.ToPy.Spec
open Verif.Scope (isWordChar)

/-- The names are words. -/
def Words (u : Char → Bool) (es : Scopes) : Prop := ∀ e ∈ es, Ident u e.1 ∧ ∀ n ∈ e.2, Ident u n

/-- The scopes that are known, from the outermost, without the root namespaces. -/
def Known (roots : List Str) (ms : Str → Option (Str × List Str)) (parts : List Str) (es : Scopes) : Prop :=
  es = parts.filterMap (fun p => if p ∈ roots then none else ms p)

/-- C83, the full statement: in any text, every word that is a member of an enclosing scope and does not follow a dot takes the name of the
scope. -/
def C83_statement : Prop := ∀ u roots ms parts es s l, Known roots ms parts es → Words u es → CutOf u s l →
  qualify u roots ms parts s = text (qualified (owner es) false l)

/-- The member of one scope. -/
private def one (k p n : Str) : Str → Option (Str × List Str) := fun x => if x = k then some (p, [n]) else none

private def nou : Char → Bool := fun _ => false

/-- C83 fails: two members, one of which has the Python name of the scope (`namespace Io { int io(); struct Data; }`), give `io.io.Data`. -/
theorem C83_fails : ¬ C83_statement := by
  intro h
  have h1 := h nou [] (fun x => if x = "Io".toList then some ("io".toList, ["Data".toList, "io".toList]) else none) ["Io".toList]
    [("io".toList, ["Data".toList, "io".toList])] "Data".toList [.word "Data".toList] rfl
    (by
      intro e he
      rw [List.mem_singleton.1 he]
      refine ⟨⟨by decide, by decide⟩, fun n hn => ?_⟩
      rcases List.mem_cons.1 hn with hn | hn
      · rw [hn]; exact ⟨by decide, by decide⟩
      · rw [List.mem_singleton.1 hn]; exact ⟨by decide, by decide⟩)
    ⟨⟨by decide, by decide, fun _ _ e => (by cases e), trivial⟩, rfl⟩
  revert h1
  decide +kernel

/-- C83 (partial: no scope has its own Python name, or the one of a scope outside it, among its members). In any text, every word that is a member
of an enclosing scope and does not follow a dot takes the name of the outermost scope that has it; all the rest is kept. -/
theorem C83_partial {u : Char → Bool} {roots : List Str} {ms : Str → Option (Str × List Str)} {parts : List Str} {es : Scopes} {s : Str} {l : List Piece}
    (hk : Known roots ms parts es) (hw : Words u es) (hn : NotInside es) (hl : CutOf u s l) :
    qualify u roots ms parts s = text (qualified (owner es) false l) := by
  subst hk
  rw [qualify_entries, ← hl.2]
  exact foldl_scopes _ hl.1 hw hn

/-- The same members, in any order. -/
def SameMembers : Scopes → Scopes → Prop := List.Forall₂ (fun e e' => e.1 = e'.1 ∧ ∀ n, n ∈ e.2 ↔ n ∈ e'.2)

/-- C83, order (partial, as above): the result does not depend on the order of the members in the sets. -/
theorem C83_order_partial {u : Char → Bool} {roots : List Str} {ms ms' : Str → Option (Str × List Str)} {parts : List Str} {es es' : Scopes} (s : Str)
    (hk : Known roots ms parts es) (hk' : Known roots ms' parts es') (hs : SameMembers es es') (hw : Words u es) (hn : NotInside es) :
    qualify u roots ms parts s = qualify u roots ms' parts s := by
  have ho : ∀ w, owner es w = owner es' w := by
    clear hk hk' hw hn
    intro w
    induction hs with
    | nil => rfl
    | cons h _ ih =>
      rw [owner_cons, owner_cons, ih]
      congr 1
      unfold members
      simp only [h.2 w, h.1]
  have hw' : Words u es' := by
    clear hk hk' hn ho
    induction hs with
    | nil => intro e he; cases he
    | cons h _ ih =>
      intro e he
      rcases List.mem_cons.1 he with rfl | he
      · exact ⟨h.1 ▸ (hw _ List.mem_cons_self).1, fun n hm => (hw _ List.mem_cons_self).2 n ((h.2 n).2 hm)⟩
      · exact ih (fun x hx => hw x (List.mem_cons_of_mem _ hx)) e he
  have hn' : NotInside es' := by
    have key : ∀ {x : Str} {es es' : Scopes}, SameMembers es es' → (∀ e ∈ es, x ∉ e.2) → ∀ e ∈ es', x ∉ e.2 := by
      intro x es es' hs
      induction hs with
      | nil => intro _ e he; cases he
      | cons h _ ih =>
        intro hx e he
        rcases List.mem_cons.1 he with rfl | he
        · exact fun hm => hx _ List.mem_cons_self ((h.2 x).2 hm)
        · exact ih (fun y hy => hx y (List.mem_cons_of_mem _ hy)) e he
    clear hk hk' hw hw' ho
    induction hs with
    | nil => trivial
    | cons h ht ih => exact ⟨by rw [← h.1]; exact key (.cons h ht) hn.1, ih hn.2⟩
  have hc := cut_spec u s
  rw [C83_partial hk hw hn hc, C83_partial hk' hw' hn' hc, show owner es = owner es' from funext ho]

/-- C83, other words (partial, as above): a text without a member of the scopes is kept. -/
theorem C83_kept_partial {u : Char → Bool} {roots : List Str} {ms : Str → Option (Str × List Str)} {parts : List Str} {es : Scopes} {s : Str}
    (hk : Known roots ms parts es) (hw : Words u es) (hn : NotInside es) (hs : ∀ e ∈ es, ∀ n ∈ e.2, ¬ HasWord u n s) :
    qualify u roots ms parts s = s := by
  have hc := cut_spec u s
  rw [C83_partial hk hw hn hc]
  have key : ∀ (l : List Piece) (dot : Bool), (∀ w, .word w ∈ l → owner es w = none) → qualified (owner es) dot l = l := by
    intro l
    induction l with
    | nil => intro _ _; rfl
    | cons p l ih =>
      intro dot h
      cases p with
      | sep c => rw [qualified, ih _ (fun w hw => h w (List.mem_cons_of_mem _ hw))]
      | word w => rw [qualified_keep (.inr (h w List.mem_cons_self)), ih _ (fun w hw => h w (List.mem_cons_of_mem _ hw))]
  rw [key _ _ (fun w hw => ?_)]
  · exact hc.2
  · unfold owner
    rw [List.find?_eq_none.2 (fun e he => by
      rw [decide_eq_true_eq]
      exact fun hm => hs e he w hm ⟨_, hc, hw⟩)]
    rfl

/-- The scopes of `struct Window { enum class Mode; struct Style { enum class Side; }; }` in the root namespace `App`. -/
def sampleScopes : Scopes := [("Window".toList, ["Mode".toList, "Style".toList]), ("Style".toList, ["Side".toList])]

def sampleMembers : Str → Option (Str × List Str) :=
  scopeMembers [("Style".toList, "Style".toList, ["Side".toList]), ("Window".toList, "Window".toList, ["Mode".toList, "Style".toList])]

theorem sample_known : Known ["App".toList] sampleMembers ["App".toList, "Window".toList, "Style".toList] sampleScopes := by unfold Known; decide +kernel

theorem sample_words : Words nou sampleScopes := by
  have : ∀ e ∈ sampleScopes, ∀ n ∈ e.1 :: e.2, n ≠ [] ∧ ∀ c ∈ n, isWordChar nou c = true := by decide +kernel
  exact fun e he => ⟨this e he _ List.mem_cons_self, fun n hn => this e he n (List.mem_cons_of_mem _ hn)⟩

theorem sample_notInside : NotInside sampleScopes :=
  ⟨by decide +kernel, by decide +kernel, trivial⟩

example : qualify nou ["App".toList] sampleMembers ["App".toList, "Window".toList, "Style".toList] "List[Mode]".toList = "List[Window.Mode]".toList :=
  C83_partial sample_known sample_words sample_notInside (l := [.word "List".toList, .sep '[', .word "Mode".toList, .sep ']'])
    ⟨⟨by decide, by decide, fun _ _ e => (by cases e), rfl, by decide, by decide, fun _ _ e => (by cases e), rfl, trivial⟩, rfl⟩

/-- C83, the place of the scope: the name that is written is the one of the scope as it is seen from the outside (`Window.Style.Side`). -/
def C83_path_statement : Prop := ∀ u a b n, Ident u a → Ident u b → Ident u n → a ≠ b → a ≠ n → b ≠ n →
  qualify u [] (scopeMembers [(b, b, [n]), (a, a, [b])]) [a, b] n = a ++ '.' :: b ++ '.' :: n

/-- C83, the place of the scope, fails: a member of a nested class takes the name of the nested class only, `Style.Side`. -/
theorem C83_path_fails : ¬ C83_path_statement := by
  intro h
  have h1 := h nou "Window".toList "Style".toList "Side".toList ⟨by decide, by decide⟩ ⟨by decide, by decide⟩
    ⟨by decide, by decide⟩ (by decide) (by decide) (by decide)
  revert h1
  decide +kernel

/-- C83, hidden names: a name means the member of the innermost scope that has it, as in C++. -/
def C83_hidden_statement : Prop := ∀ u roots ms parts es s l, Known roots ms parts es → Words u es → NotInside es → CutOf u s l →
  qualify u roots ms parts s = text (qualified (owner es.reverse) false l)

/-- C83, hidden names, fails: in `struct Window { enum class Mode; struct Style { enum class Mode; }; }` the `Mode` of `Style` becomes the one of
`Window`. -/
theorem C83_hidden_fails : ¬ C83_hidden_statement := by
  intro h
  have h1 := h nou [] (scopeMembers [("Style".toList, "Style".toList, ["Mode".toList]), ("Window".toList, "Window".toList, ["Mode".toList, "Style".toList])])
    ["Window".toList, "Style".toList] [("Window".toList, ["Mode".toList, "Style".toList]), ("Style".toList, ["Mode".toList])] "Mode".toList
    [.word "Mode".toList] (by unfold Known; decide +kernel)
    (by
      have : ∀ e ∈ ([("Window".toList, ["Mode".toList, "Style".toList]), ("Style".toList, ["Mode".toList])] : Scopes), ∀ n ∈ e.1 :: e.2,
        n ≠ [] ∧ ∀ c ∈ n, isWordChar nou c = true := by decide +kernel
      exact fun e he => ⟨this e he _ List.mem_cons_self, fun n hn => this e he n (List.mem_cons_of_mem _ hn)⟩)
    ⟨by decide +kernel, by decide +kernel, trivial⟩ ⟨⟨by decide, by decide, fun _ _ e => (by cases e), trivial⟩, rfl⟩
  revert h1
  decide +kernel

/-- C83, literals: the text of a literal of a default value is kept. -/
def C83_literal_statement : Prop := ∀ u roots ms parts s, '"' ∉ s → '\\' ∉ s →
  qualify u roots ms parts ('"' :: (s ++ ['"'])) = '"' :: (s ++ ['"'])

/-- C83, literals, fails: the default value `"Mode"` becomes `"Window.Mode"`. -/
theorem C83_literal_fails : ¬ C83_literal_statement := by
  intro h
  have h1 := h nou [] (one "Window".toList "Window".toList "Mode".toList) ["Window".toList] "Mode".toList (by decide) (by decide)
  revert h1
  decide +kernel

/-- C83, classes with the same name: the members of a class are known, whatever classes with this name are registered in other scopes. -/
def C83_same_name_statement : Prop := ∀ u k p n p' n', Ident u k → Ident u p → Ident u n → Ident u p' → Ident u n' → p ≠ n → p' ≠ n' → n ≠ p' →
  qualify u [] (scopeMembers [(k, p, [n]), (k, p', [n'])]) [k] n = p ++ '.' :: n

/-- C83, classes with the same name, fails: the classes are registered by their name without the scope, the last one is kept. -/
theorem C83_same_name_fails : ¬ C83_same_name_statement := by
  intro h
  have i : ∀ {w : Str}, w ≠ [] → (∀ c ∈ w, isWordChar nou c = true) → Ident nou w := fun a b => ⟨a, b⟩
  have h1 := h nou "Config".toList "Config".toList "Mode".toList "Config".toList "Kind".toList (i (by decide) (by decide)) (i (by decide) (by decide))
    (i (by decide) (by decide)) (i (by decide) (by decide)) (i (by decide) (by decide)) (by decide) (by decide) (by decide)
  revert h1
  decide +kernel

end Verif.ToPy.Props
