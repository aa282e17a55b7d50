import Verif.Pimpl.Model
import Verif.Pimpl.Spec
import Verif.Lam.Lemmas

/-! Filling the templates of the published class. -/

namespace Verif.Pimpl
open Verif.Py Verif.Template Verif.Template.Spec

/-- The placeholders of the templates. -/
def keys : List Str :=
  ["_i_", "class_published", "class_impl", "impl_name", "return_type", "method_name", "params_list", "maybe_return", "param_names", "maybe_const",
   "top_comment", "maybe_eol_comment", "param_list", "linefeed_or_space", "i", "class_or_struct", "published_class_name", "impl_class_name",
   "published_methods", "maybe_public", "maybe_comma"].map String.toList

/-- The end of the line. -/
def toEol (b : Str) : Str := b.takeWhile (fun c => c ≠ '\n')

/-- No placeholder begins in the text, even if the lines lose the blanks at their ends. -/
def Plain (v : Str) : Prop := ∀ a b, v = a ++ '{' :: b → ∀ k ∈ keys, ¬ (k ++ ['}']) <+: b ∧ ¬ rstrip (toEol b) <+: (k ++ ['}'])

/-- Decides `Plain`. -/
def plainB : Str → Bool
  | [] => true
  | c :: cs => (c != '{' || keys.all (fun k => !(k ++ ['}']).isPrefixOf cs && !(rstrip (toEol cs)).isPrefixOf (k ++ ['}']))) && plainB cs

theorem plain_iff (v : Str) : plainB v = true ↔ Plain v := by
  induction v with
  | nil =>
    refine ⟨fun _ a b e => ?_, fun _ => rfl⟩
    exact absurd e (by simp)
  | cons c cs ih =>
    have hall : keys.all (fun k => !(k ++ ['}']).isPrefixOf cs && !(rstrip (toEol cs)).isPrefixOf (k ++ ['}'])) = true ↔
        ∀ k ∈ keys, ¬ (k ++ ['}']) <+: cs ∧ ¬ rstrip (toEol cs) <+: (k ++ ['}']) := by
      rw [List.all_eq_true]
      refine forall_congr' (fun k => forall_congr' (fun _ => ?_))
      rw [Bool.and_eq_true, Bool.not_eq_true', Bool.not_eq_true', ← Bool.not_eq_true, ← Bool.not_eq_true, List.isPrefixOf_iff_prefix,
        List.isPrefixOf_iff_prefix]
    rw [plainB, Bool.and_eq_true, Bool.or_eq_true, hall, ih]
    constructor
    · rintro ⟨h1, h2⟩ a b e
      cases a with
      | nil =>
        rw [List.nil_append] at e
        injection e with e1 e2
        rcases h1 with h1 | h1
        · rw [e1] at h1
          exact absurd h1 (by decide)
        · rw [← e2]
          exact h1
      | cons d a =>
        injection e with _ e2
        exact h2 a b e2
    · intro h
      refine ⟨?_, fun a b e => h (c :: a) b (by rw [e]; rfl)⟩
      by_cases hc : c = '{'
      · exact .inr (h [] cs (by rw [hc]; rfl))
      · exact .inl (by simpa using hc)

instance (v : Str) : Decidable (Plain v) := decidable_of_iff _ (plain_iff v)

theorem plain_of_no_open {v : Str} (h : '{' ∉ v) : Plain v := fun _ _ e => absurd (by rw [e]; simp) h

theorem rstrip_prefix (s : Str) : rstrip s <+: s := by
  unfold rstrip
  rw [← List.reverse_suffix, List.reverse_reverse]
  exact List.dropWhile_suffix _

theorem toEol_prefix (s : Str) : toEol s <+: s := List.takeWhile_prefix _

theorem keys_no_nl : ∀ k ∈ keys, '\n' ∉ k := by decide +kernel

theorem toEol_of_no_nl {b : Str} (h : '\n' ∉ b) : toEol b = b := by
  unfold toEol
  induction b with
  | nil => rfl
  | cons c b ih =>
    rw [List.takeWhile_cons_of_pos (by simpa using fun e => h (by rw [e]; simp)), ih (fun hm => h (List.mem_cons_of_mem _ hm))]

theorem inert_of_plain {v k : Str} (h : Plain v) (hk : k ∈ keys) : Inert k v := by
  intro a b e
  refine ⟨(h a b e k hk).1, fun hp => ?_⟩
  have hn : '\n' ∉ b := by
    intro hm
    rcases List.mem_append.1 (hp.subset hm) with h1 | h1
    · exact keys_no_nl k hk h1
    · exact absurd h1 (by decide)
  have := (h a b e k hk).2
  rw [toEol_of_no_nl hn] at this
  exact this ((rstrip_prefix b).trans hp)

/-- What comes after only adds to the end of the line. -/
theorem rstrip_toEol_append (y b : Str) : rstrip (toEol y) <+: rstrip (toEol (y ++ b)) := by
  have h1 : toEol y <+: toEol (y ++ b) := by
    unfold toEol
    rw [List.takeWhile_append]
    split
    · rename_i h
      have : List.takeWhile (fun c => decide (c ≠ '\n')) y = y := (List.takeWhile_prefix _).eq_of_length h
      rw [this]
      exact List.prefix_append _ _
    · exact List.prefix_rfl
  obtain ⟨t, ht⟩ := h1
  rw [← ht]
  unfold rstrip
  rw [List.reverse_append, List.dropWhile_append]
  split
  · exact List.prefix_rfl
  · rw [List.reverse_append, List.reverse_reverse]
    exact (rstrip_prefix (toEol y)).trans (List.prefix_append _ _)

theorem plain_append {a b : Str} (ha : Plain a) (hb : Plain b) : Plain (a ++ b) := by
  intro x y e k hk
  rcases List.append_eq_append_iff.1 e with ⟨s, h1, h2⟩ | ⟨s, h1, h2⟩
  · exact hb s y h2 k hk
  · cases s with
    | nil =>
      rw [List.nil_append] at h2
      exact hb [] y h2.symm k hk
    | cons c s =>
      rw [List.cons_append] at h2
      injection h2 with h3 h4
      subst h3
      have h := ha x s h1 k hk
      rw [h4]
      have key : ¬ rstrip (toEol (s ++ b)) <+: (k ++ ['}']) := fun hp => h.2 ((rstrip_toEol_append s b).trans hp)
      refine ⟨fun hp => ?_, key⟩
      rcases List.prefix_or_prefix_of_prefix hp (List.prefix_append s b) with h5 | h5
      · exact h.1 h5
      · exact h.2 ((rstrip_prefix _).trans ((toEol_prefix s).trans h5))

theorem plain_cons {c : Char} {b : Str} (hc : c ≠ '{') (hb : Plain b) : Plain (c :: b) :=
  plain_append (a := [c]) (plain_of_no_open (by simpa using fun e => hc e.symm)) hb

/-- A text is plain if its lines are. -/
theorem plain_left {a b : Str} (h : Plain (a ++ '\n' :: b)) : Plain a := by
  intro x y e k hk
  have h' := h x (y ++ '\n' :: b) (by rw [e]; simp) k hk
  refine ⟨fun hp => h'.1 (hp.trans (List.prefix_append _ _)), fun hp => h'.2 ?_⟩
  have : toEol (y ++ '\n' :: b) = toEol y := by
    unfold toEol
    rw [List.takeWhile_append]
    split
    · rw [List.takeWhile_cons_of_neg (by simp), List.append_nil]
      rename_i hl
      exact ((List.takeWhile_prefix _).eq_of_length hl).symm
    · rfl
  rw [this]
  exact hp

theorem plain_right {a b : Str} (h : Plain (a ++ b)) : Plain b := fun x y e => h (a ++ x) y (by rw [e]; simp)

theorem plain_lines : ∀ {v : Str}, Plain v → ∀ l ∈ lines v, Plain l := by
  intro v
  have hu := unlines_lines v
  generalize lines v = ls at hu
  induction ls generalizing v with
  | nil => intro _ l hl; cases hl
  | cons l ls ih =>
    intro h
    cases ls with
    | nil =>
      have : v = l := hu.symm
      rw [← this]
      intro x hx
      rw [List.mem_singleton.1 hx]
      exact h
    | cons m ls =>
      have e : unlines (l :: m :: ls) = l ++ '\n' :: unlines (m :: ls) := by
        unfold unlines
        rw [join_cons_of_ne_nil _ _ (by simp)]
        simp
      rw [e] at hu
      rw [← hu] at h
      intro x hx
      rcases List.mem_cons.1 hx with rfl | hx
      · exact plain_left h
      · have h2 : Plain (unlines (m :: ls)) := plain_right (a := l ++ ['\n']) (by simpa using h)
        exact ih rfl h2 x hx

theorem plain_join {sep : Str} (hsep : Plain sep) : ∀ {ls : List Str}, (∀ l ∈ ls, Plain l) → Plain (join sep ls)
  | [], _ => plain_of_no_open (by simp [join])
  | [l], h => h l (by simp)
  | l :: m :: ls, h => by
    rw [join_cons_of_ne_nil _ _ (by simp)]
    exact plain_append (plain_append (h l (by simp)) hsep) (plain_join hsep (fun x hx => h x (List.mem_cons_of_mem _ hx)))

theorem plain_rstrip {v : Str} (hn : '\n' ∉ v) (h : Plain v) : Plain (rstrip v) := by
  obtain ⟨t, ht⟩ := rstrip_prefix v
  intro x y e k hk
  have h' := h x (y ++ t) (by rw [← ht, e]; simp) k hk
  have hny : '\n' ∉ y ++ t := by
    intro hm
    apply hn
    rw [← ht, e]
    simp only [List.mem_append, List.mem_cons] at hm ⊢
    exact hm.elim (fun hy => .inl (.inr (.inr hy))) .inr
  refine ⟨fun hp => h'.1 (hp.trans (List.prefix_append _ _)), fun hp => h'.2 ?_⟩
  rw [toEol_of_no_nl hny]
  rw [toEol_of_no_nl (fun hm => hny (List.mem_append_left _ hm))] at hp
  -- the blanks that are lost
  have hb : ∀ c ∈ t, isSpace c = true := by
    have : v.reverse = t.reverse ++ (rstrip v).reverse := by rw [← List.reverse_append, ht]
    have h1 : (rstrip v).reverse = v.reverse.dropWhile isSpace := by unfold rstrip; rw [List.reverse_reverse]
    have h2 := List.takeWhile_append_dropWhile (p := isSpace) (l := v.reverse)
    rw [← h1] at h2
    have h3 : v.reverse.takeWhile isSpace = t.reverse := List.append_cancel_right (h2.trans this)
    intro c hc
    have : c ∈ v.reverse.takeWhile isSpace := by rw [h3]; simpa using hc
    exact List.all_eq_true.1 List.all_takeWhile c this
  have : rstrip (y ++ t) = rstrip y := by
    unfold rstrip
    rw [List.reverse_append, List.dropWhile_append_of_pos (by intro c hc; exact hb c (by simpa using hc))]
  rw [this]
  exact hp

/-- Values that have no placeholder. -/
theorem fillable_plain : ∀ (kvs : List (Str × Str)) (ls : List (List Piece)), (∀ kv ∈ kvs, ('}' ∉ kv.1 ∧ kv.1 ∈ keys) ∧ Plain kv.2) →
    Fillable (kvs.map (fun kv => (kv.1, some kv.2))) ls
  | [], _, _ => trivial
  | kv :: kvs, ls, h => by
    refine ⟨(h kv (by simp)).1.1, ?_, fun h => (by cases h), fillable_plain kvs _ (fun x hx => h x (List.mem_cons_of_mem _ hx))⟩
    intro x hx kv' hkv'
    obtain ⟨y, hy, rfl⟩ := List.mem_map.1 hkv'
    rw [← Option.some.inj hx]
    exact inert_of_plain (h kv (by simp)).2 (h y (List.mem_cons_of_mem _ hy)).1.2

/-- `process_code_template` with plain values. -/
theorem process_plain (ls : List (List Piece)) (tokens byLine : List (Str × Str))
    (hk : ∀ k ∈ tokens.map (·.1) ++ byLine.map (·.1), '}' ∉ k ∧ k ∈ keys) (hv : ∀ v ∈ tokens.map (·.2) ++ byLine.map (·.2), Plain v)
    (hc : Clean (tokens.map (·.1) ++ byLine.map (·.1) ++ [maybeComma]) ls) :
    processCodeTemplate (textOf ls) tokens (byLine.map (fun kv => (kv.1, some kv.2))) =
      dropFinalComma (textOf ((((tokens ++ byLine) ++ [(maybeComma, [',', ' '])]).map (fun kv => (kv.1, some kv.2))).foldl step ls)) := by
  have hf : Fillable (((tokens ++ byLine) ++ [(maybeComma, [',', ' '])]).map (fun kv => (kv.1, some kv.2))) ls := by
    apply fillable_plain
    intro kv hm
    rcases List.mem_append.1 hm with hm | hm
    · refine ⟨hk kv.1 ?_, hv kv.2 ?_⟩
      · rw [← List.map_append]
        exact List.mem_map_of_mem hm
      · rw [← List.map_append]
        exact List.mem_map_of_mem hm
    · rw [List.mem_singleton.1 hm]
      exact ⟨⟨by decide +kernel, by decide +kernel⟩, plain_of_no_open (by decide +kernel)⟩
  rw [processCodeTemplate_eq, show [(maybeComma, some [',', ' '])] = [(maybeComma, [',', ' '])].map (fun kv : Str × Str => (kv.1, some kv.2)) from rfl,
    ← List.map_append, ← List.map_append, fill_textOf _ _ (by
      rw [List.map_map]
      have : (Prod.fst ∘ fun kv : Str × Str => (kv.1, some kv.2)) = (·.1) := rfl
      rw [this, List.map_append, List.map_append]
      exact hc) hf]

/-! ### The final comma -/

theorem ends_false {s p : Str} (h : ∀ t, t ++ p ≠ s) : endsWith s p = false := by
  cases he : endsWith s p with
  | false => rfl
  | true =>
    obtain ⟨t, ht⟩ := List.isSuffixOf_iff_suffix.1 he
    exact absurd ht (h t)

/-- No comma at the end. -/
def NoComma (s : Str) : Prop :=
  endsWith s [',', ' '] = false ∧ endsWith s [',', ' ', ')', ';'] = false ∧ endsWith s [',', ' ', ')'] = false

instance (s : Str) : Decidable (NoComma s) := inferInstanceAs (Decidable (_ ∧ _))

theorem drop_id {s : Str} (h : NoComma s) : dropFinalComma s = s := by
  unfold dropFinalComma
  simp only [h.1, h.2.1, h.2.2, Bool.false_eq_true, if_false]

theorem last_ne {t p s : Str} {c d : Char} (e : t ++ (p ++ [c]) = s ++ [d]) : c = d := by
  have := congrArg List.getLast? e
  rw [← List.append_assoc, List.getLast?_append, List.getLast?_append] at this
  simpa using this

/-- A text that ends with a brace. -/
theorem noComma_brace (s : Str) : NoComma (s ++ ['}']) :=
  ⟨ends_false (fun _ e => absurd (last_ne (p := [',']) e) (by decide)), ends_false (fun _ e => absurd (last_ne (p := [',', ' ', ')']) e) (by decide)),
    ends_false (fun _ e => absurd (last_ne (p := [',', ' ']) e) (by decide))⟩

theorem suffix_semi {x e t p : Str} (he : e ≠ []) (hp : ∀ a b, p = a ++ ';' :: b → b = []) (h : t ++ p = x ++ ';' :: e) : ∃ u, u ++ p = e := by
  rcases List.append_eq_append_iff.1 h with ⟨s, h1, h2⟩ | ⟨s, h1, h2⟩
  · exact absurd (hp s e h2) he
  · cases s with
    | nil =>
      rw [List.nil_append] at h2
      exact absurd (hp [] e h2.symm) he
    | cons c s =>
      injection h2 with _ h3
      exact ⟨s, h3.symm⟩

/-- A text that ends with a semicolon and a comment. -/
theorem noComma_semi {x e : Str} (hx : endsWith x [',', ' ', ')'] = false) (he : NoComma e) : NoComma (x ++ ';' :: e) := by
  by_cases h0 : e = []
  · subst h0
    refine ⟨ends_false (fun _ e => absurd (last_ne (p := [',']) e) (by decide)), ends_false (fun t e => ?_),
      ends_false (fun _ e => absurd (last_ne (p := [',', ' ']) e) (by decide))⟩
    have : (t ++ [',', ' ', ')']) ++ [';'] = x ++ [';'] := by rw [← e]; simp
    have h1 := List.append_cancel_right this
    rw [← h1] at hx
    have : endsWith (t ++ [',', ' ', ')']) [',', ' ', ')'] = true := List.isSuffixOf_iff_suffix.2 ⟨t, rfl⟩
    rw [hx] at this
    cases this
  · have key : ∀ p, (∀ a b, p = a ++ ';' :: b → b = []) → endsWith e p = false → endsWith (x ++ ';' :: e) p = false := by
      intro p hp h
      apply ends_false
      intro t ht
      obtain ⟨u, hu⟩ := suffix_semi h0 hp ht
      have : endsWith e p = true := List.isSuffixOf_iff_suffix.2 ⟨u, hu⟩
      rw [h] at this
      cases this
    have no : ∀ p : Str, ';' ∉ p → ∀ a b, p = a ++ ';' :: b → b = [] := by
      intro p hp a b e
      exact absurd (by rw [e]; simp) hp
    refine ⟨key _ (no _ (by decide)) he.1, key _ ?_ he.2.1, key _ (no _ (by decide)) he.2.2⟩
    intro a b e
    match a, e with
    | [], e => exact absurd e (by simp)
    | [_], e => exact absurd e (by simp)
    | [_, _], e => exact absurd e (by simp)
    | [_, _, _], e => exact (by simpa using e : _ ∧ _ ∧ _ ∧ b = []).2.2.2
    | _ :: _ :: _ :: _ :: _, e => exact absurd e (by simp)

end Verif.Pimpl
