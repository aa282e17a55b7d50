import Verif.Amalg.Lemmas
import Verif.Parse.LemmasBlock

/-! The whole tree of elements. -/

namespace Verif.Parse.Lemmas
open Verif.Py Verif.Type Spec

/-! ### The heads of the classes, the namespaces and the enumerations -/

/-- A field of the result of a loop is given by the last child with a tag. -/
theorem foldField {σ α : Type} {step : σ → Xml → Except Err σ} (field : σ → α) (t : Tag) (G : Xml → α → Prop)
    (hne : ∀ s c s', step s c = .ok s' → c.tag ≠ t → field s' = field s)
    (heq : ∀ s c s', step s c = .ok s' → c.tag = t → G c (field s')) :
    ∀ (cs : List Xml) (s s' : σ), cs.foldlM step s = .ok s' →
      ((∀ c ∈ cs, c.tag ≠ t) ∧ field s' = field s) ∨ ∃ c, (∃ a b, cs = a ++ c :: b ∧ c.tag = t ∧ ∀ d ∈ b, d.tag ≠ t) ∧ G c (field s') := by
  intro cs
  induction cs with
  | nil => intro s s' h; cases h; exact .inl ⟨by simp, rfl⟩
  | cons c cs ih =>
    intro s s' h
    rw [List.foldlM_cons] at h
    cases hs : step s c with
    | error e => rw [hs] at h; cases h
    | ok s1 =>
      rw [hs] at h
      rcases ih s1 s' h with ⟨h1, h2⟩ | ⟨d, ⟨a, b, h1, h2, h3⟩, h4⟩
      · by_cases ht : c.tag = t
        · exact .inr ⟨c, ⟨[], cs, rfl, ht, h1⟩, by rw [h2]; exact heq s c s1 hs ht⟩
        · refine .inl ⟨?_, by rw [h2]; exact hne s c s1 hs ht⟩
          intro d hd
          rcases List.mem_cons.1 hd with rfl | hd
          · exact ht
          · exact h1 d hd
      · exact .inr ⟨d, ⟨c :: a, b, by rw [h1]; rfl, h2, h3⟩, h4⟩

/-- What never changes in a loop. -/
theorem foldSame {σ α : Type} {step : σ → Xml → Except Err σ} (field : σ → α) (h : ∀ s c s', step s c = .ok s' → field s' = field s) :
    ∀ (cs : List Xml) (s s' : σ), cs.foldlM step s = .ok s' → field s' = field s := by
  intro cs
  induction cs with
  | nil => intro s s' h; cases h; rfl
  | cons c cs ih =>
    intro s s' hh
    rw [List.foldlM_cons] at hh
    cases hs : step s c with
    | error e => rw [hs] at hh; cases hh
    | ok s1 => rw [hs] at hh; rw [ih s1 s' hh, h s c s1 hs]

theorem parseName_is {env : Env} {c : Xml} {n : Str} (h : parseName env c = .ok n) : NameIs env c n := by
  unfold parseName at h
  split at h
  · rename_i ht
    cases hx : c.text with
    | none =>
      rw [hx] at h; cases h
      refine ⟨strip (env.verbatim c), ⟨ht, .inr ⟨hx, rfl⟩⟩, ?_⟩
      exact (Amalg.strip_strip _).symm
    | some t => rw [hx] at h; cases h; exact ⟨t, ⟨ht, .inl hx⟩, rfl⟩
  · cases h

theorem ok_bind {α β : Type} {r : Except Err α} {f : α → Except Err β} {b : β} (h : (r >>= f) = .ok b) : ∃ a, r = .ok a ∧ f a = .ok b := by
  cases r with
  | error e => cases h
  | ok a => exact ⟨a, rfl, h⟩

theorem parseSuper_is {env : Env} {c : Xml} {b : Str × Str} (h : parseSuper env c = .ok b) : BaseXml env c b := by
  unfold parseSuper at h
  split at h
  · rename_i ht
    refine ⟨ht, ?_, ?_⟩
    · refine foldField (step := superChild env) Prod.fst .specifier (fun c v => c.text = some v) ?_ ?_ _ _ _ h
      · intro s c s' hs hne
        unfold superChild at hs
        split at hs
        · rename_i he; exact absurd he hne
        · obtain ⟨n, _, h2⟩ := ok_bind hs; cases h2; rfl
        · cases hs
      · intro s c s' hs he
        unfold superChild at hs
        rw [he] at hs
        simp only at hs
        split at hs
        · cases hs
        · rename_i hx; cases hs; exact hx
    · refine foldField (step := superChild env) Prod.snd .name (NameIs env) ?_ ?_ _ _ _ h
      · intro s c s' hs hne
        unfold superChild at hs
        split at hs
        · split at hs
          · cases hs
          · cases hs; rfl
        · rename_i he; exact absurd he hne
        · cases hs
      · intro s c s' hs he
        unfold superChild at hs
        rw [he] at hs
        obtain ⟨n, h1, h2⟩ := ok_bind hs
        cases h2
        exact parseName_is h1
  · cases h

theorem mapM_ok {α β : Type} {f : α → Except Err β} {R : α → β → Prop} (hf : ∀ a b, f a = .ok b → R a b) :
    ∀ {l : List α} {r : List β}, l.mapM f = .ok r → List.Forall₂ R l r := by
  intro l
  induction l with
  | nil => intro r h; cases h; exact .nil
  | cons a l ih =>
    intro r h
    rw [List.mapM_cons] at h
    obtain ⟨b, h1, h2⟩ := ok_bind h
    obtain ⟨bs, h3, h4⟩ := ok_bind h2
    cases h4
    exact .cons (hf a b h1) (ih h3)

theorem filter_only {x : Xml} {t : Tag} {c : Xml} (h : x.children.filter (fun c => c.tag = t) = [c]) : Only x t c := by
  apply Props.only_of_theChild
  unfold Xml.theChild Xml.withTag
  rw [h]

theorem extractName_is {env : Env} {x : Xml} {s : Str} (h : extractName env x = some s) :
    ∃ n, Only x .name n ∧ some s = some (n.text.getD (env.toCode n)) := by
  unfold extractName at h
  split at h
  · rename_i n hn
    cases h
    refine ⟨n, filter_only hn, ?_⟩
    cases n.text <;> rfl
  · cases h

/-! ### Defines -/

theorem innerMacro_is (env : Env) : ∀ (cs : List Xml) (d : Define),
    (cs.foldl (innerMacroChild env) d).name = (((cs.filter (fun k => k.tag = .name)).filterMap Xml.text).getLast?).or d.name ∧
    (cs.foldl (innerMacroChild env) d).parameters = (((cs.filter (fun k => k.tag = .parameterList)).map env.verbatim).getLast?).or d.parameters ∧
    (cs.foldl (innerMacroChild env) d).value = d.value ∧ (cs.foldl (innerMacroChild env) d).comments = d.comments := by
  intro cs
  induction cs with
  | nil => intro d; exact ⟨rfl, rfl, rfl, rfl⟩
  | cons c cs ih =>
    intro d
    rw [List.foldl_cons]
    obtain ⟨h1, h2, h3, h4⟩ := ih (innerMacroChild env d c)
    rw [h1, h2, h3, h4]
    unfold innerMacroChild
    split
    · rename_i ht
      rw [List.filter_cons, if_pos (by simpa using ht), List.filter_cons, if_neg (by simp [ht]), List.filterMap_cons]
      split
      · rename_i t hx
        rw [hx]
        simp only [List.getLast?_cons]
        cases (((cs.filter (fun k => k.tag = .name)).filterMap Xml.text).getLast?) <;> simp
      · rename_i hx
        rw [hx]
        exact ⟨rfl, rfl, rfl, rfl⟩
    · rename_i ht
      rw [List.filter_cons, if_neg (by simp [ht]), List.filter_cons, if_pos (by simpa using ht), List.map_cons]
      simp only [List.getLast?_cons]
      cases (((cs.filter (fun k => k.tag = .parameterList)).map env.verbatim).getLast?) <;> simp
    · rename_i hn hp
      rw [List.filter_cons, if_neg (by simpa using hn), List.filter_cons, if_neg (by simpa using hp)]
      exact ⟨rfl, rfl, rfl, rfl⟩

theorem getLast?_append_or {α : Type} (a b : List α) : (a ++ b).getLast? = b.getLast?.or a.getLast? := by
  rw [List.getLast?_append]

theorem parseDefine_is (env : Env) (x : Xml) (c : Comments) : DefineIs env x c (parseDefine env x c) := by
  have key : ∀ (cs : List Xml) (d : Define),
      let inner := (cs.filter (fun k => k.tag = .macro_)).flatMap Xml.children
      (cs.foldl (defineChild env) d).name = (((inner.filter (fun k => k.tag = .name)).filterMap Xml.text).getLast?).or d.name ∧
      (cs.foldl (defineChild env) d).parameters = (((inner.filter (fun k => k.tag = .parameterList)).map env.verbatim).getLast?).or d.parameters ∧
      (cs.foldl (defineChild env) d).value = (((cs.filter (fun k => k.tag = .value)).filterMap Xml.text).getLast?).or d.value ∧
      (cs.foldl (defineChild env) d).comments = d.comments := by
    intro cs
    induction cs with
    | nil => intro d; exact ⟨rfl, rfl, rfl, rfl⟩
    | cons k cs ih =>
      intro d
      rw [List.foldl_cons]
      obtain ⟨h1, h2, h3, h4⟩ := ih (defineChild env d k)
      simp only at h1 h2 h3 h4 ⊢
      rw [h1, h2, h3, h4]
      unfold defineChild
      split
      · rename_i ht
        obtain ⟨i1, i2, i3, i4⟩ := innerMacro_is env k.children d
        rw [i1, i2, i3, i4, List.filter_cons, if_pos (by simpa using ht), List.filter_cons, if_neg (by simp [ht]), List.flatMap_cons,
          List.filter_append, List.filter_append, List.filterMap_append, List.map_append, getLast?_append_or, getLast?_append_or, Option.or_assoc,
          Option.or_assoc]
        exact ⟨rfl, rfl, rfl, rfl⟩
      · rename_i ht
        rw [List.filter_cons, if_neg (by simp [ht]), List.filter_cons, if_pos (by simpa using ht), List.filterMap_cons]
        split
        · rename_i t hx
          rw [hx]
          simp only [List.getLast?_cons]
          cases (((cs.filter (fun k => k.tag = .value)).filterMap Xml.text).getLast?) <;> simp
        · rename_i hx
          rw [hx]
          exact ⟨rfl, rfl, rfl, rfl⟩
      · rename_i hm hv
        rw [List.filter_cons, if_neg (by simpa using hm), List.filter_cons, if_neg (by simpa using hv)]
        exact ⟨rfl, rfl, rfl, rfl⟩
  obtain ⟨h1, h2, h3, h4⟩ := key x.children { comments := c }
  simp only [Option.or_none] at h1 h2 h3
  exact ⟨h1, h2, h3, h4⟩

/-- The cases of the loop of `parse_struct_or_class`. -/
theorem structChild_cases {env : Env} {s s' : Building StructHead} {c : Xml} {f : Filler} (h : structChild env s (c, f) = .ok s') :
    (c.tag = .name ∧ ∃ n, parseName env c = .ok n ∧ s' = { s with head := { s.head with name := n } }) ∨
    (c.tag = .superList ∧ ∃ b, parseSuperList env c = .ok b ∧ s' = { s with head := { s.head with bases := some b } }) ∨
    (c.tag = .block ∧ ∃ ctx es, f ctx = .ok es ∧ s' = { s with block := some es }) ∨
    (c.tag = .template_ ∧ ∃ ps, parseTemplate env c = .ok ps ∧ s' = { s with head := { s.head with template := some ps } }) ∨
    (c.tag = .comment ∧ ∃ k, addCommentBeforeBlock s.head.comments c = .ok k ∧ s' = { s with head := { s.head with comments := k } }) ∨
    (c.tag = .specifier ∧ ∃ t, c.text = some t ∧ s' = { s with head := { s.head with specifier := t } }) ∨
    (c.tag = .macro_ ∧ ∃ n, extractName env c = some n ∧ s' = { s with head := { s.head with macro_ := some n } }) := by
  unfold structChild at h
  simp only at h
  split at h
  · obtain ⟨n, h1, h2⟩ := ok_bind h; cases h2; exact .inl ⟨by assumption, n, h1, rfl⟩
  · obtain ⟨n, h1, h2⟩ := ok_bind h; cases h2; exact .inr (.inl ⟨by assumption, n, h1, rfl⟩)
  · obtain ⟨n, h1, h2⟩ := ok_bind h; cases h2; exact .inr (.inr (.inl ⟨by assumption, _, n, h1, rfl⟩))
  · obtain ⟨n, h1, h2⟩ := ok_bind h; cases h2; exact .inr (.inr (.inr (.inl ⟨by assumption, n, h1, rfl⟩)))
  · obtain ⟨n, h1, h2⟩ := ok_bind h; cases h2; exact .inr (.inr (.inr (.inr (.inl ⟨by assumption, n, h1, rfl⟩))))
  · split at h
    · cases h
    · cases h; exact .inr (.inr (.inr (.inr (.inr (.inl ⟨by assumption, _, by assumption, rfl⟩)))))
  · split at h
    · cases h
    · cases h; exact .inr (.inr (.inr (.inr (.inr (.inr ⟨by assumption, _, by assumption, rfl⟩)))))
  · cases h

theorem addComment_is {c k : Comments} {x : Xml} (h : addCommentBeforeBlock c x = .ok k) :
    ∃ t, x.text = some t ∧ k.previousLines = c.previousLines ∧ k.endOfLine = eolWith c.endOfLine [removeMarkers t] := by
  unfold addCommentBeforeBlock at h
  split at h
  · cases h
  · rename_i t ht
    cases h
    refine ⟨t, ht, rfl, ?_⟩
    unfold eolWith
    simp only [List.foldl_cons, List.foldl_nil]
    cases c.endOfLine with
    | nil => rfl
    | cons a l => simp

/-- The comments of a head after a loop. -/
theorem foldComments {σ : Type} {step : σ → Xml → Except Err σ} (field : σ → Comments)
    (hne : ∀ s c s', step s c = .ok s' → c.tag ≠ .comment → field s' = field s)
    (heq : ∀ s c s', step s c = .ok s' → c.tag = .comment → addCommentBeforeBlock (field s) c = .ok (field s')) (m : Meta) :
    ∀ (cs : List Xml) (s s' : σ), cs.foldlM step s = .ok s' → HeadComments (.node m cs) (field s) (field s') := by
  intro cs
  induction cs with
  | nil => intro s s' h; cases h; exact ⟨rfl, rfl⟩
  | cons c cs ih =>
    intro s s' h
    rw [List.foldlM_cons] at h
    cases hs : step s c with
    | error e => rw [hs] at h; cases h
    | ok s1 =>
      rw [hs] at h
      obtain ⟨h1, h2⟩ := ih s1 s' h
      have h2' : (field s').endOfLine = eolWith (field s1).endOfLine (((cs.filter (fun d => d.tag = .comment)).filterMap Xml.text).map removeMarkers) := h2
      by_cases ht : c.tag = .comment
      · obtain ⟨t, h3, h4, h5⟩ := addComment_is (heq s c s1 hs ht)
        refine ⟨h1.trans h4, ?_⟩
        show _ = eolWith _ ((((c :: cs).filter (fun d => d.tag = .comment)).filterMap Xml.text).map removeMarkers)
        rw [h2', List.filter_cons, if_pos (by simpa using ht), List.filterMap_cons, h3, h5]
        rfl
      · have h6 := hne s c s1 hs ht
        refine ⟨by rw [h1, h6], ?_⟩
        show _ = eolWith _ ((((c :: cs).filter (fun d => d.tag = .comment)).filterMap Xml.text).map removeMarkers)
        rw [h2', List.filter_cons, if_neg (by simpa using ht), h6]

/-- The block, as filled. -/
def Filled (env : Env) (c : Xml) (v : Option (List Elem)) : Prop := ∃ ctx es, fillOf env c ctx = .ok es ∧ v = some es

theorem structFold {env : Env} {m : Meta} {cs : List Xml} {cls : Bool} {c : Comments} {b : Building StructHead}
    (hm : cls = true ↔ m.tag = .class_)
    (h : (cs.zip (fillers env cs)).foldlM (structChild env) { head := { isClass := cls, comments := c } } = .ok b) :
    ClassHead env (.node m cs) c b.head ∧ LastOr (.node m cs) .block none (Filled env) b.block := by
  rw [zip_fillers, List.foldlM_map] at h
  refine ⟨⟨?_, ?_, ?_, ?_, ?_, ?_, ?_⟩, ?_⟩
  · have := foldSame (fun s : Building StructHead => s.head.isClass) (step := fun s c => structChild env s (c, fillOf env c)) ?_ _ _ _ h
    · rw [this]; exact hm
    · intro s c s' hs
      rcases structChild_cases hs with ⟨_, _, _, rfl⟩ | ⟨_, _, _, rfl⟩ | ⟨_, _, _, _, rfl⟩ | ⟨_, _, _, rfl⟩ | ⟨_, _, _, rfl⟩ | ⟨_, _, _, rfl⟩ | ⟨_, _, _, rfl⟩ <;> rfl
  · refine foldField (step := fun s c => structChild env s (c, fillOf env c)) (fun s => s.head.name) .name (NameIs env) ?_ ?_ _ _ _ h
    · intro s c s' hs hne
      rcases structChild_cases hs with ⟨h, _, _, rfl⟩ | ⟨h, _, _, rfl⟩ | ⟨h, _, _, _, rfl⟩ | ⟨h, _, _, rfl⟩ | ⟨h, _, _, rfl⟩ | ⟨h, _, _, rfl⟩ | ⟨h, _, _, rfl⟩ <;>
        first | rfl | exact absurd h hne
    · intro s c s' hs he
      rcases structChild_cases hs with ⟨h, n, hn, rfl⟩ | ⟨h, _⟩ | ⟨h, _⟩ | ⟨h, _⟩ | ⟨h, _⟩ | ⟨h, _⟩ | ⟨h, _⟩
      · exact parseName_is hn
      all_goals (rw [he] at h; cases h)
  · refine foldField (step := fun s c => structChild env s (c, fillOf env c)) (fun s => s.head.bases) .superList
      (fun c v => ∃ bs, v = some bs ∧ List.Forall₂ (BaseXml env) c.children bs) ?_ ?_ _ _ _ h
    · intro s c s' hs hne
      rcases structChild_cases hs with ⟨h, _, _, rfl⟩ | ⟨h, _, _, rfl⟩ | ⟨h, _, _, _, rfl⟩ | ⟨h, _, _, rfl⟩ | ⟨h, _, _, rfl⟩ | ⟨h, _, _, rfl⟩ | ⟨h, _, _, rfl⟩ <;>
        first | rfl | exact absurd h hne
    · intro s c s' hs he
      rcases structChild_cases hs with ⟨h, _⟩ | ⟨h, bs, hb, rfl⟩ | ⟨h, _⟩ | ⟨h, _⟩ | ⟨h, _⟩ | ⟨h, _⟩ | ⟨h, _⟩
      · rw [he] at h; cases h
      · refine ⟨bs, rfl, ?_⟩
        unfold parseSuperList at hb
        rw [if_pos he] at hb
        exact mapM_ok (fun a b => parseSuper_is) hb
      all_goals (rw [he] at h; cases h)
  · refine foldField (step := fun s c => structChild env s (c, fillOf env c)) (fun s => s.head.template) .template_
      (fun c v => ∃ ps, v = some ps ∧ parseTemplate env c = .ok ps) ?_ ?_ _ _ _ h
    · intro s c s' hs hne
      rcases structChild_cases hs with ⟨h, _, _, rfl⟩ | ⟨h, _, _, rfl⟩ | ⟨h, _, _, _, rfl⟩ | ⟨h, _, _, rfl⟩ | ⟨h, _, _, rfl⟩ | ⟨h, _, _, rfl⟩ | ⟨h, _, _, rfl⟩ <;>
        first | rfl | exact absurd h hne
    · intro s c s' hs he
      rcases structChild_cases hs with ⟨h, _⟩ | ⟨h, _⟩ | ⟨h, _⟩ | ⟨h, ps, hp, rfl⟩ | ⟨h, _⟩ | ⟨h, _⟩ | ⟨h, _⟩
      · rw [he] at h; cases h
      · rw [he] at h; cases h
      · rw [he] at h; cases h
      · exact ⟨ps, rfl, hp⟩
      all_goals (rw [he] at h; cases h)
  · refine foldField (step := fun s c => structChild env s (c, fillOf env c)) (fun s => s.head.specifier) .specifier
      (fun c v => c.text = some v) ?_ ?_ _ _ _ h
    · intro s c s' hs hne
      rcases structChild_cases hs with ⟨h, _, _, rfl⟩ | ⟨h, _, _, rfl⟩ | ⟨h, _, _, _, rfl⟩ | ⟨h, _, _, rfl⟩ | ⟨h, _, _, rfl⟩ | ⟨h, _, _, rfl⟩ | ⟨h, _, _, rfl⟩ <;>
        first | rfl | exact absurd h hne
    · intro s c s' hs he
      rcases structChild_cases hs with ⟨h, _⟩ | ⟨h, _⟩ | ⟨h, _⟩ | ⟨h, _⟩ | ⟨h, _⟩ | ⟨h, t, ht, rfl⟩ | ⟨h, _⟩
      · rw [he] at h; cases h
      · rw [he] at h; cases h
      · rw [he] at h; cases h
      · rw [he] at h; cases h
      · rw [he] at h; cases h
      · exact ht
      · rw [he] at h; cases h
  · refine foldField (step := fun s c => structChild env s (c, fillOf env c)) (fun s => s.head.macro_) .macro_
      (fun c v => ∃ n, Only c .name n ∧ v = some (n.text.getD (env.toCode n))) ?_ ?_ _ _ _ h
    · intro s c s' hs hne
      rcases structChild_cases hs with ⟨h, _, _, rfl⟩ | ⟨h, _, _, rfl⟩ | ⟨h, _, _, _, rfl⟩ | ⟨h, _, _, rfl⟩ | ⟨h, _, _, rfl⟩ | ⟨h, _, _, rfl⟩ | ⟨h, _, _, rfl⟩ <;>
        first | rfl | exact absurd h hne
    · intro s c s' hs he
      rcases structChild_cases hs with ⟨h, _⟩ | ⟨h, _⟩ | ⟨h, _⟩ | ⟨h, _⟩ | ⟨h, _⟩ | ⟨h, _⟩ | ⟨h, n, hn, rfl⟩
      · rw [he] at h; cases h
      · rw [he] at h; cases h
      · rw [he] at h; cases h
      · rw [he] at h; cases h
      · rw [he] at h; cases h
      · rw [he] at h; cases h
      · exact extractName_is hn
  · refine foldComments (step := fun s c => structChild env s (c, fillOf env c)) (fun s => s.head.comments) ?_ ?_ m _ _ _ h
    · intro s c s' hs hne
      rcases structChild_cases hs with ⟨h, _, _, rfl⟩ | ⟨h, _, _, rfl⟩ | ⟨h, _, _, _, rfl⟩ | ⟨h, _, _, rfl⟩ | ⟨h, _, _, rfl⟩ | ⟨h, _, _, rfl⟩ | ⟨h, _, _, rfl⟩ <;>
        first | rfl | exact absurd h hne
    · intro s c s' hs he
      rcases structChild_cases hs with ⟨h, _⟩ | ⟨h, _⟩ | ⟨h, _⟩ | ⟨h, _⟩ | ⟨h, k, hk, rfl⟩ | ⟨h, _⟩ | ⟨h, _⟩
      · rw [he] at h; cases h
      · rw [he] at h; cases h
      · rw [he] at h; cases h
      · rw [he] at h; cases h
      · exact hk
      · rw [he] at h; cases h
      · rw [he] at h; cases h
  · refine foldField (step := fun s c => structChild env s (c, fillOf env c)) (fun s => s.block) .block (Filled env) ?_ ?_ _ _ _ h
    · intro s c s' hs hne
      rcases structChild_cases hs with ⟨h, _, _, rfl⟩ | ⟨h, _, _, rfl⟩ | ⟨h, _, _, _, rfl⟩ | ⟨h, _, _, rfl⟩ | ⟨h, _, _, rfl⟩ | ⟨h, _, _, rfl⟩ | ⟨h, _, _, rfl⟩ <;>
        first | rfl | exact absurd h hne
    · intro s c s' hs he
      rcases structChild_cases hs with ⟨h, _⟩ | ⟨h, _⟩ | ⟨h, ctx, es, hes, rfl⟩ | ⟨h, _⟩ | ⟨h, _⟩ | ⟨h, _⟩ | ⟨h, _⟩
      · rw [he] at h; cases h
      · rw [he] at h; cases h
      · exact ⟨ctx, es, hes, rfl⟩
      all_goals (rw [he] at h; cases h)

theorem namespaceChild_cases {env : Env} {s s' : Building NsHead} {c : Xml} {f : Filler} (h : namespaceChild env s (c, f) = .ok s') :
    (c.tag = .name ∧ ∃ n, parseName env c = .ok n ∧ s' = { s with head := { s.head with name := n } }) ∨
    (c.tag = .block ∧ ∃ ctx es, f ctx = .ok es ∧ s' = { s with block := some es }) ∨
    (c.tag = .comment ∧ ∃ k, addCommentBeforeBlock s.head.comments c = .ok k ∧ s' = { s with head := { s.head with comments := k } }) := by
  unfold namespaceChild at h
  simp only at h
  split at h
  · obtain ⟨n, h1, h2⟩ := ok_bind h; cases h2; exact .inl ⟨by assumption, n, h1, rfl⟩
  · obtain ⟨n, h1, h2⟩ := ok_bind h; cases h2; exact .inr (.inl ⟨by assumption, _, n, h1, rfl⟩)
  · obtain ⟨n, h1, h2⟩ := ok_bind h; cases h2; exact .inr (.inr ⟨by assumption, n, h1, rfl⟩)
  · cases h

theorem namespaceFold {env : Env} {m : Meta} {cs : List Xml} {c : Comments} {b : Building NsHead}
    (h : (cs.zip (fillers env cs)).foldlM (namespaceChild env) { head := { comments := c } } = .ok b) :
    LastOr (.node m cs) .name [] (NameIs env) b.head.name ∧ HeadComments (.node m cs) c b.head.comments ∧
    LastOr (.node m cs) .block none (Filled env) b.block := by
  rw [zip_fillers, List.foldlM_map] at h
  refine ⟨?_, ?_, ?_⟩
  · refine foldField (step := fun s c => namespaceChild env s (c, fillOf env c)) (fun s => s.head.name) .name (NameIs env) ?_ ?_ _ _ _ h
    · intro s c s' hs hne
      rcases namespaceChild_cases hs with ⟨h, _, _, rfl⟩ | ⟨h, _, _, _, rfl⟩ | ⟨h, _, _, rfl⟩ <;> first | rfl | exact absurd h hne
    · intro s c s' hs he
      rcases namespaceChild_cases hs with ⟨h, n, hn, rfl⟩ | ⟨h, _⟩ | ⟨h, _⟩
      · exact parseName_is hn
      all_goals (rw [he] at h; cases h)
  · refine foldComments (step := fun s c => namespaceChild env s (c, fillOf env c)) (fun s => s.head.comments) ?_ ?_ m _ _ _ h
    · intro s c s' hs hne
      rcases namespaceChild_cases hs with ⟨h, _, _, rfl⟩ | ⟨h, _, _, _, rfl⟩ | ⟨h, _, _, rfl⟩ <;> first | rfl | exact absurd h hne
    · intro s c s' hs he
      rcases namespaceChild_cases hs with ⟨h, _⟩ | ⟨h, _⟩ | ⟨h, k, hk, rfl⟩
      · rw [he] at h; cases h
      · rw [he] at h; cases h
      · exact hk
  · refine foldField (step := fun s c => namespaceChild env s (c, fillOf env c)) (fun s => s.block) .block (Filled env) ?_ ?_ _ _ _ h
    · intro s c s' hs hne
      rcases namespaceChild_cases hs with ⟨h, _, _, rfl⟩ | ⟨h, _, _, _, rfl⟩ | ⟨h, _, _, rfl⟩ <;> first | rfl | exact absurd h hne
    · intro s c s' hs he
      rcases namespaceChild_cases hs with ⟨h, _⟩ | ⟨h, ctx, es, hes, rfl⟩ | ⟨h, _⟩
      · rw [he] at h; cases h
      · exact ⟨ctx, es, hes, rfl⟩
      · rw [he] at h; cases h

theorem enumChild_cases {env : Env} {s s' : Building EnumHead} {c : Xml} {f : Filler} (h : enumChild env s (c, f) = .ok s') :
    (c.tag = .name ∧ ∃ n, parseName env c = .ok n ∧ s' = { s with head := { s.head with name := n } }) ∨
    (c.tag = .block ∧ ∃ ctx es, f ctx = .ok es ∧ s' = { s with block := some es }) ∨
    (c.tag = .comment ∧ ∃ k, addCommentBeforeBlock s.head.comments c = .ok k ∧ s' = { s with head := { s.head with comments := k } }) ∨
    (c.tag = .type ∧ s' = { s with head := { s.head with dataType := (onlyNameText c).getD s.head.dataType } }) := by
  unfold enumChild at h
  simp only at h
  split at h
  · obtain ⟨n, h1, h2⟩ := ok_bind h; cases h2; exact .inl ⟨by assumption, n, h1, rfl⟩
  · obtain ⟨n, h1, h2⟩ := ok_bind h; cases h2; exact .inr (.inl ⟨by assumption, _, n, h1, rfl⟩)
  · obtain ⟨n, h1, h2⟩ := ok_bind h; cases h2; exact .inr (.inr (.inl ⟨by assumption, n, h1, rfl⟩))
  · rename_i ht
    refine .inr (.inr (.inr ⟨ht, ?_⟩))
    cases h
    unfold onlyNameText Xml.withTag
    split
    · rename_i n hn
      first
      | (rw [hn]; simp only; cases n.text <;> rfl)
      | (cases n.text <;> rfl)
    · rename_i hn
      first
      | rfl
      | (split
         · rename_i n hn'
           exact absurd hn' (hn n)
         · rfl)
  · cases h

theorem foldData {env : Env} : ∀ (cs : List Xml) (s s' : Building EnumHead), cs.foldlM (fun s c => enumChild env s (c, fillOf env c)) s = .ok s' →
    s'.head.dataType = (((cs.filter (fun k => k.tag = .type)).filterMap onlyNameText).getLast?).getD s.head.dataType := by
  intro cs
  induction cs with
  | nil => intro s s' h; cases h; rfl
  | cons c cs ih =>
    intro s s' h
    rw [List.foldlM_cons] at h
    cases hs : enumChild env s (c, fillOf env c) with
    | error e => rw [hs] at h; cases h
    | ok s1 =>
      rw [hs] at h
      rw [ih s1 s' h]
      by_cases ht : c.tag = .type
      · rw [List.filter_cons, if_pos (by simpa using ht), List.filterMap_cons]
        rcases enumChild_cases hs with ⟨h, _⟩ | ⟨h, _⟩ | ⟨h, _⟩ | ⟨_, rfl⟩
        · rw [ht] at h; cases h
        · rw [ht] at h; cases h
        · rw [ht] at h; cases h
        · cases onlyNameText c with
          | none => rfl
          | some t => simp only [List.getLast?_cons, Option.getD_some]
      · rw [List.filter_cons, if_neg (by simpa using ht)]
        rcases enumChild_cases hs with ⟨_, _, _, rfl⟩ | ⟨_, _, _, _, rfl⟩ | ⟨_, _, _, rfl⟩ | ⟨he, rfl⟩
        · rfl
        · rfl
        · rfl
        · exact absurd he ht

theorem enumFold {env : Env} {m : Meta} {cs : List Xml} {t : Str} {c : Comments} {b : Building EnumHead}
    (h : (cs.zip (fillers env cs)).foldlM (enumChild env) { head := { enumType := t, comments := c } } = .ok b) :
    b.head.enumType = t ∧ LastOr (.node m cs) .name [] (NameIs env) b.head.name ∧
    b.head.dataType = (((cs.filter (fun k => k.tag = .type)).filterMap onlyNameText).getLast?).getD [] ∧ HeadComments (.node m cs) c b.head.comments ∧
    LastOr (.node m cs) .block none (Filled env) b.block := by
  rw [zip_fillers, List.foldlM_map] at h
  refine ⟨?_, ?_, foldData _ _ _ h, ?_, ?_⟩
  · refine foldSame (fun s : Building EnumHead => s.head.enumType) (step := fun s c => enumChild env s (c, fillOf env c)) ?_ _ _ _ h
    intro s c s' hs
    rcases enumChild_cases hs with ⟨_, _, _, rfl⟩ | ⟨_, _, _, _, rfl⟩ | ⟨_, k, hk, rfl⟩ | ⟨_, rfl⟩ <;> rfl
  · refine foldField (step := fun s c => enumChild env s (c, fillOf env c)) (fun s => s.head.name) .name (NameIs env) ?_ ?_ _ _ _ h
    · intro s c s' hs hne
      rcases enumChild_cases hs with ⟨h, _, _, rfl⟩ | ⟨h, _, _, _, rfl⟩ | ⟨h, _, _, rfl⟩ | ⟨h, rfl⟩ <;> first | rfl | exact absurd h hne
    · intro s c s' hs he
      rcases enumChild_cases hs with ⟨h, n, hn, rfl⟩ | ⟨h, _⟩ | ⟨h, _⟩ | ⟨h, _⟩
      · exact parseName_is hn
      all_goals (rw [he] at h; cases h)
  · refine foldComments (step := fun s c => enumChild env s (c, fillOf env c)) (fun s => s.head.comments) ?_ ?_ m _ _ _ h
    · intro s c s' hs hne
      rcases enumChild_cases hs with ⟨h, _, _, rfl⟩ | ⟨h, _, _, _, rfl⟩ | ⟨h, _, _, rfl⟩ | ⟨h, rfl⟩ <;> first | rfl | exact absurd h hne
    · intro s c s' hs he
      rcases enumChild_cases hs with ⟨h, _⟩ | ⟨h, _⟩ | ⟨h, k, hk, rfl⟩ | ⟨h, _⟩
      · rw [he] at h; cases h
      · rw [he] at h; cases h
      · exact hk
      · rw [he] at h; cases h
  · refine foldField (step := fun s c => enumChild env s (c, fillOf env c)) (fun s => s.block) .block (Filled env) ?_ ?_ _ _ _ h
    · intro s c s' hs hne
      rcases enumChild_cases hs with ⟨h, _, _, rfl⟩ | ⟨h, _, _, _, rfl⟩ | ⟨h, _, _, rfl⟩ | ⟨h, rfl⟩ <;> first | rfl | exact absurd h hne
    · intro s c s' hs he
      rcases enumChild_cases hs with ⟨h, _⟩ | ⟨h, ctx, es, hes, rfl⟩ | ⟨h, _⟩ | ⟨h, _⟩
      · rw [he] at h; cases h
      · exact ⟨ctx, es, hes, rfl⟩
      · rw [he] at h; cases h
      · rw [he] at h; cases h

/-! ### Induction on the tree -/

mutual
theorem xmlInduct {P : Xml → Prop} (h : ∀ m cs, (∀ c ∈ cs, P c) → P (.node m cs)) : ∀ x, P x
  | .node m cs => h m cs (xmlInducts h cs)
theorem xmlInducts {P : Xml → Prop} (h : ∀ m cs, (∀ c ∈ cs, P c) → P (.node m cs)) : ∀ cs : List Xml, ∀ c ∈ cs, P c
  | [] => fun c hc => by cases hc
  | x :: xs => fun c hc => (List.mem_cons.1 hc).elim (fun e => e ▸ xmlInduct h x) (xmlInducts h xs c)
end

/-- What an XML element gives in a block. -/
def Gives (env : Env) (L : Xml → Prop) (x : Xml) (c : Comments) (seg : List Elem) : Prop :=
  (∃ e, noNotes seg = [e] ∧ Rep env L x c e) ∨ (∃ k inner, ExternC x k ∧ Content env L k inner ∧ noNotes seg = noNotes inner) ∨ (L x ∧ noNotes seg = [])

theorem seq_of {env : Env} {L : Xml → Prop} {l : List (Xml × Comments)} {segs : List (List Elem)}
    (h : List.Forall₂ (fun p seg => Gives env L p.1 p.2 seg) l segs) : Seq env L l (segs.map noNotes).flatten := by
  induction h with
  | nil => exact .nil
  | @cons p seg l segs h _ ih =>
    obtain ⟨x, c⟩ := p
    rw [List.map_cons, List.flatten_cons]
    rcases h with ⟨e, h1, h2⟩ | ⟨k, inner, h1, h2, h3⟩ | ⟨h1, h2⟩
    · rw [h1]; exact .one x c e l _ h2 ih
    · rw [h3]; exact .externC x k c inner l _ h1 h2 ih
    · rw [h2]; exact .lost x c l _ h1 ih

theorem block_of {env : Env} {L : Xml → Prop} {x : Xml} {b : Option (List Elem)} (h : LastOr x .block none (Filled env) b)
    (hq : ∀ c ∈ x.children, ∀ ctx es, fillOf env c ctx = .ok es → Content env L c es) : Block env L x b := by
  rcases h with ⟨h1, rfl⟩ | ⟨c, h1, ctx, es, h2, rfl⟩
  · exact .none x h1
  · refine .some x c es h1 (hq c ?_ ctx es h2)
    obtain ⟨a, b, h3, _⟩ := h1
    rw [h3]; simp

theorem finish_ok {α : Type} {r : Except Err (Building α)} {mk : α → Option (List Elem) → Elem} {es : List Elem} (h : finish r mk = .ok es) :
    ∃ b, r = .ok b ∧ es = [mk b.head b.block] := by
  unfold finish at h
  split at h
  · cases h
  · cases h; exact ⟨_, rfl, rfl⟩

theorem one_ok {α : Type} {r : Except Err α} {mk : α → Elem} {es : List Elem} (h : one r mk = .ok es) : ∃ a, r = .ok a ∧ es = [mk a] := by
  unfold one at h
  split at h
  · cases h
  · cases h; exact ⟨_, rfl, rfl⟩

theorem processed_cases {ctx : Ctx} {t : Tag} (h : isProcessed ctx t = false) : t ∉ understood := by
  unfold isProcessed at h
  rw [Bool.or_eq_false_iff] at h
  intro hm
  have : processedTags.contains t = true := by
    rw [List.contains_iff_mem]; exact hm
  rw [this] at h
  cases h.1

theorem only_filter {x : Xml} {t : Tag} {c : Xml} (h : Only x t c) : x.children.filter (fun c => c.tag = t) = [c] := by
  obtain ⟨a, b, h1, h2, h3⟩ := h
  rw [h1, List.filter_append, List.filter_cons, if_pos (by simpa using h2),
    List.filter_eq_nil_iff.2 (fun d hd => by simpa using h3 d (List.mem_append_left _ hd)),
    List.filter_eq_nil_iff.2 (fun d hd => by simpa using h3 d (List.mem_append_right _ hd))]
  rfl

theorem only_mem {x : Xml} {t : Tag} {c : Xml} (h : Only x t c) : c ∈ x.children := by
  obtain ⟨a, b, h1, _⟩ := h
  rw [h1]; simp

theorem map_single {α β : Type} {f : α → β} {l : List α} {b : β} (h : l.map f = [b]) : ∃ a, l = [a] ∧ f a = b := by
  match l, h with
  | [a], h => exact ⟨a, rfl, (List.cons.inj h).1⟩

/-- The blocks of an `extern`. -/
theorem contents_block (env : Env) (cs : List Xml) : (contents env cs).filter (fun p => p.1 = .block) =
    (cs.filter (fun c => c.tag = .block)).map (fun c => (c.tag, (c.children.filter (fun c => c.tag = .blockContent)).map (fillOf env))) := by
  rw [contents_eq, List.filter_map]
  rfl

/-- `extern "C"`: the content of its block; nothing for the others. -/
theorem extern_cases {env : Env} {m : Meta} {cs : List Xml} {ctx : Ctx} {es : List Elem} (ht : m.tag = .extern_)
    (h : externFill cs (contents env cs) ctx = .ok es) :
    (∃ b k, b ∈ cs ∧ k ∈ b.children ∧ ExternC (.node m cs) k ∧ fillOf env k ctx = .ok es) ∨ ((¬ ∃ k, ExternC (.node m cs) k) ∧ es = []) := by
  unfold externFill at h
  split at h
  · rename_i l hl
    have hl' : Only (.node m cs) .literal l := filter_only hl
    split at h
    · rename_i hlt
      split at h
      · rename_i t f hb
        rw [contents_block] at hb
        obtain ⟨b, hb1, hb2⟩ := map_single hb
        obtain ⟨k, hk1, hk2⟩ := map_single (congrArg Prod.snd hb2)
        have hb' : Only (.node m cs) .block b := filter_only hb1
        have hk' : Only b .blockContent k := filter_only hk1
        exact .inl ⟨b, k, only_mem hb', only_mem hk', ⟨ht, ⟨l, hl', hlt⟩, b, hb', hk'⟩, by rw [hk2]; exact h⟩
      · rename_i hb
        cases h
        refine .inr ⟨?_, rfl⟩
        rintro ⟨k, _, _, b, hb1, hb2⟩
        apply hb b.tag (fillOf env k)
        rw [contents_block]
        have := only_filter hb1
        change cs.filter _ = _ at this
        rw [this, List.map_singleton, only_filter hb2]
        rfl
    · rename_i hlt
      cases h
      refine .inr ⟨?_, rfl⟩
      rintro ⟨k, _, ⟨l', hl1, hl2⟩, _⟩
      have := only_filter hl1
      change cs.filter _ = _ at this
      rw [this] at hl
      cases hl
      exact hlt hl2
  · rename_i hl
    cases h
    refine .inr ⟨?_, rfl⟩
    rintro ⟨k, _, ⟨l', hl1, hl2⟩, _⟩
    exact hl l' (only_filter hl1)

/-- The elements of each XML element are its own: the main induction. -/
theorem tree {env : Env} {L : Xml → Prop} : ∀ x : Xml, (∀ y, Inside x y → MayBeLost y → L y) →
    (∀ ctx c seg, x.tag ≠ .comment → Seg env ctx x c seg → Gives env L x c seg) ∧
    (∀ ctx es, fillOf env x ctx = .ok es → Content env L x es) ∧
    (∀ c ∈ x.children, ∀ ctx es, fillOf env c ctx = .ok es → Content env L c es) := by
  intro x
  induction x using xmlInduct with
  | h m cs ih =>
    intro hL
    have ihc : ∀ c ∈ cs, (∀ ctx c' seg, c.tag ≠ .comment → Seg env ctx c c' seg → Gives env L c c' seg) ∧
        (∀ ctx es, fillOf env c ctx = .ok es → Content env L c es) ∧
        (∀ d ∈ c.children, ∀ ctx es, fillOf env d ctx = .ok es → Content env L d es) :=
      fun c hc => ih c hc (fun y hy => hL y (.child _ c y hc hy))
    have hfill : ∀ ctx es, fillOf env (.node m cs) ctx = .ok es → Content env L (.node m cs) es := by
      intro ctx es h
      obtain ⟨l, segs, h1, h2, h3⟩ := fillOf_spec env _ ctx es h
      refine .mk _ l es h1 ?_
      rw [h2]
      apply seq_of
      have hmem : ∀ p ∈ l, p.1 ∈ cs ∧ p.1.tag ≠ .comment := by
        intro p hp
        have : p.1 ∈ noComments cs := by
          have := h1.1
          show p.1 ∈ noComments (Xml.node m cs).children
          rw [← this]; exact List.mem_map_of_mem hp
        unfold noComments at this
        obtain ⟨h4, h5⟩ := List.mem_filter.1 this
        exact ⟨h4, by simpa using h5⟩
      clear h1 h2 h
      induction h3 with
      | nil => exact .nil
      | @cons p seg l segs hp _ ihl =>
        obtain ⟨h4, h5⟩ := hmem p (by simp)
        exact .cons ((ihc p.1 h4).1 ctx p.2 seg h5 hp) (ihl (fun q hq => hmem q (by simp [hq])))
    have hq : ∀ c ∈ (Xml.node m cs).children, ∀ ctx es, fillOf env c ctx = .ok es → Content env L c es := fun c hc => (ihc c hc).2.1
    refine ⟨?_, hfill, hq⟩
    intro ctx c seg htag hseg
    rcases hseg with ⟨hp, h⟩ | ⟨_, h, rfl⟩ | ⟨hp, rfl⟩
    · rw [parseChild] at h
      simp only at h
      split at h
      · -- decl_stmt
        rename_i ht
        obtain ⟨ds, h1, h2⟩ := ok_bind h
        obtain ⟨o, h3, h4⟩ := ok_bind h2
        cases o with
        | none => cases h4; exact .inl ⟨_, rfl, .variables _ c ds ht h1⟩
        | some f => cases h4; exact .inl ⟨_, rfl, .recovered _ c f ht h3⟩
      · -- macro
        rename_i ht
        split at h
        · obtain ⟨o, h3, h4⟩ := ok_bind h
          cases o with
          | none => cases h4; exact .inr (.inr ⟨hL _ (.refl _) (.inl ht), rfl⟩)
          | some f => cases h4; exact .inl ⟨_, rfl, .macro_ _ c _ f ht h3⟩
        · cases h; exact .inr (.inr ⟨hL _ (.refl _) (.inl ht), rfl⟩)
      · rename_i ht; obtain ⟨d, h1, rfl⟩ := one_ok h; exact .inl ⟨_, rfl, .decl _ c d ht h1⟩
      · rename_i ht
        split at h
        · cases h
        · obtain ⟨f, h1, rfl⟩ := one_ok h; exact .inl ⟨_, rfl, .functionDecl _ c f (.inl ht) h1⟩
      · rename_i ht
        split at h
        · cases h
        · obtain ⟨f, h1, rfl⟩ := one_ok h; exact .inl ⟨_, rfl, .functionDecl _ c f (.inr ht) h1⟩
      · rename_i ht
        split at h
        · cases h
        · obtain ⟨f, h1, rfl⟩ := one_ok h; exact .inl ⟨_, rfl, .function _ c f (.inl ht) h1⟩
      · rename_i ht
        split at h
        · cases h
        · obtain ⟨f, h1, rfl⟩ := one_ok h; exact .inl ⟨_, rfl, .function _ c f (.inr ht) h1⟩
      · rename_i ht; obtain ⟨f, h1, rfl⟩ := one_ok h; exact .inl ⟨_, rfl, .constructorDecl _ c f ht h1⟩
      · rename_i ht; obtain ⟨f, h1, rfl⟩ := one_ok h; exact .inl ⟨_, rfl, .constructor _ c f ht h1⟩
      · -- struct
        rename_i ht
        split at h
        · cases h
        · obtain ⟨b, h1, rfl⟩ := finish_ok h
          obtain ⟨h2, h3⟩ := structFold (m := m) (by rw [ht]; decide) h1
          exact .inl ⟨_, rfl, .class_ _ c _ _ (.inl ht) h2 (block_of h3 hq)⟩
      · -- class
        rename_i ht
        split at h
        · cases h
        · obtain ⟨b, h1, rfl⟩ := finish_ok h
          obtain ⟨h2, h3⟩ := structFold (m := m) (by rw [ht]; decide) h1
          exact .inl ⟨_, rfl, .class_ _ c _ _ (.inr ht) h2 (block_of h3 hq)⟩
      · -- namespace
        rename_i ht
        obtain ⟨b, h1, rfl⟩ := finish_ok h
        obtain ⟨h2, h3, h4⟩ := namespaceFold (m := m) h1
        exact .inl ⟨_, rfl, .namespace_ _ c _ _ _ ht h2 h3 (block_of h4 hq)⟩
      · -- enum
        rename_i ht
        obtain ⟨b, h1, rfl⟩ := finish_ok h
        obtain ⟨h2, h3, h4, h5, h6⟩ := enumFold (m := m) h1
        exact .inl ⟨_, rfl, .enum_ _ c _ _ ht h2 h3 h4 h5 (block_of h6 hq)⟩
      · -- block_content
        rename_i ht
        obtain ⟨es, h1, rfl⟩ := one_ok h
        exact .inl ⟨_, rfl, .content _ c es ht (hfill .elsewhere es (by rw [fillOf]; exact h1))⟩
      · rename_i ht; cases h; exact .inl ⟨_, rfl, .define _ c _ ht (parseDefine_is env _ c)⟩
      · rename_i ht; cases h; exact .inl ⟨_, rfl, .condition _ c ht⟩
      · -- extern
        rename_i ht
        rcases extern_cases ht h with ⟨b, k, hb, hk, hx, hf⟩ | ⟨h1, rfl⟩
        · exact .inr (.inl ⟨k, seg, hx, (ihc b hb).2.2 k hk ctx seg hf, rfl⟩)
        · exact .inr (.inr ⟨hL _ (.refl _) (.inr ⟨ht, h1⟩), rfl⟩)
      · rename_i ht
        unfold parseChild.accessSection at h
        split at h
        · obtain ⟨es, h1, rfl⟩ := one_ok h
          exact .inl ⟨_, rfl, .access _ c es (.inl ht) (hfill _ es (by rw [fillOf]; exact h1))⟩
        · cases h
      · rename_i ht
        unfold parseChild.accessSection at h
        split at h
        · obtain ⟨es, h1, rfl⟩ := one_ok h
          exact .inl ⟨_, rfl, .access _ c es (.inr (.inl ht)) (hfill _ es (by rw [fillOf]; exact h1))⟩
        · cases h
      · rename_i ht
        unfold parseChild.accessSection at h
        split at h
        · obtain ⟨es, h1, rfl⟩ := one_ok h
          exact .inl ⟨_, rfl, .access _ c es (.inr (.inr ht)) (hfill _ es (by rw [fillOf]; exact h1))⟩
        · cases h
      · -- no other tag is processed
        exfalso
        have ht : (Xml.node m cs).tag = m.tag := rfl
        rw [ht] at hp htag
        unfold isProcessed processedTags at hp
        revert hp
        cases hm : m.tag <;> first | contradiction | simp_all
    · exact .inl ⟨_, rfl, .failed _ c ctx h⟩
    · exact .inl ⟨_, rfl, .unknown _ c (processed_cases hp)⟩

end Verif.Parse.Lemmas
