import Verif.ToPy.Model
import Verif.ToPy.SpecQual
import Verif.Re.Number

/-! The names of the enclosing scopes. -/

namespace Verif.ToPy
open Verif.Py Verif.Re Re.Spec Verif.Inst Verif.Inst.Spec Spec
open Verif.Scope (isWordChar)

theorem lits_foldr (name : Str) (r : Re) : name.foldr (fun c r => Re.seq (.chr c) r) r = lits name r := by
  induction name with
  | nil => rfl
  | cons c s ih => rw [List.foldr_cons, ih]; rfl

theorem qualRe_eq (name : Str) : qualRe name = .seq (.notBehind [.one '.', .word false]) (lits name (.seq .wordB .eps)) := by
  unfold qualRe
  rw [lits_foldr]

/-- The text ends with a dot or a word character. -/
def Bound (u : Char → Bool) (a : Str) : Prop := ∃ c, a.getLast? = some c ∧ (c = '.' ∨ isWordChar u c = true)

theorem behind_iff (u : Char → Bool) (a : Str) : a.getLast?.any (fun d => [Item.one '.', Item.word false].any (·.has u d)) = true ↔ Bound u a := by
  unfold Bound
  cases a.getLast? with
  | none => simp
  | some c => simp [Item.has]

theorem run_notBehind {u : Char → Bool} {k : Re} {a s : Str} {c : List (Nat × Str)} (h : ¬ Bound u a) :
    run u (.seq (.notBehind [.one '.', .word false]) k) ⟨a.getLast?, s, c⟩ = run u k ⟨a.getLast?, s, c⟩ := by
  rw [run, run, if_neg (fun e => h ((behind_iff u a).1 e)), List.flatMap_singleton]

/-- Where the name is found. -/
theorem qual_occ {u : Char → Bool} {name : Str} (hn : Ident u name) {a m b : Str} {k k' : List (Nat × Str)} (h : Matches u (qualRe name) a m b k k') :
    ¬ Bound u a ∧ m = name ∧ ¬ BeginsWithWord u b := by
  rw [qualRe_eq] at h
  have hr := run_complete h
  obtain ⟨m1, m2, k1, rfl, h1, h2⟩ := matches_seq h
  have hb : ¬ Bound u a := by
    intro hb
    obtain ⟨k2, hk⟩ := hr []
    rw [run, run, if_pos ((behind_iff u a).2 hb)] at hk
    cases hk
  cases h1
  rw [List.append_nil] at h2
  obtain ⟨m3, rfl, h3⟩ := matches_lits _ h2
  obtain ⟨m4, m5, k3, rfl, h4, h5⟩ := matches_seq h3
  obtain ⟨rfl, _, h6⟩ := matches_wordB h4
  obtain ⟨rfl, _⟩ := matches_eps h5
  refine ⟨hb, by simp, fun hw => h6 ⟨fun _ => ?_, fun _ => ends_append hn.1 hn.2⟩⟩
  rw [List.nil_append]
  exact hw

theorem ends_bound {u : Char → Bool} {a : Str} (h : EndsInWord u a) : Bound u a := by
  obtain ⟨c, h1, h2⟩ := h
  exact ⟨c, h1, .inr h2⟩

theorem qual_headed {u : Char → Bool} {name : Str} (hn : Ident u name) : Headed u name (qualRe name) := by
  intro a m b k k' h
  obtain ⟨h1, rfl, h3⟩ := qual_occ hn h
  exact ⟨fun h => h1 (ends_bound h), b, rfl, h3⟩

theorem qual_never {u : Char → Bool} {name : Str} (hn : Ident u name) : NeverEmpty u (qualRe name) := by
  rintro a b ⟨k, hm⟩
  exact hn.1 (qual_occ hn hm).2.1.symm

theorem qual_hit {u : Char → Bool} {name : Str} (hn : Ident u name) {a b : Str} (ha : ¬ Bound u a) (hb : ¬ BeginsWithWord u b) :
    matchAt u (qualRe name) a.getLast? (name ++ b) = some ⟨(a ++ name).getLast?, b, []⟩ := by
  unfold matchAt
  rw [qualRe_eq, run_notBehind ha, run_lits, run_wordB (fun e => hb (e.1 (ends_append hn.1 hn.2))), run]
  rfl

/-- The word takes the name of the scope. -/
theorem qualified_some {f : Str → Option Str} {w p : Str} (h : f w = some p) (l : List Piece) :
    qualified f false (.word w :: l) = .word p :: .sep '.' :: .word w :: qualified f false l := by
  rw [qualified, if_neg (by decide), h]
  rfl

/-- The word is left as it is. -/
theorem qualified_keep {f : Str → Option Str} {w : Str} {dot : Bool} (h : dot = true ∨ f w = none) (l : List Piece) :
    qualified f dot (.word w :: l) = .word w :: qualified f false l := by
  have e : (if dot then none else f w) = none := by
    rcases h with h | h
    · rw [if_pos h]
    · rw [h, ite_self]
  rw [qualified, e]
  rfl

/-- One name. -/
def only (name pre : Str) (w : Str) : Option Str := if w = name then some pre else none

theorem scan_qual {u : Char → Bool} {name : Str} (pre : Str) (hn : Ident u name) : ∀ {l : List Piece} (a : Str) (dot : Bool), Cut u l →
    (EndsInWord u a → ∀ w m, l ≠ .word w :: m) → (dot = true ↔ a.getLast? = some '.') →
    scan u (qualRe name) (litTmpl (pre ++ '.' :: name)) a.getLast? 0 (text l) = text (qualified (only name pre) dot l)
  | [], a, _, _, _, _ => scan_nil _ (matchAt_nil (qual_never hn) a)
  | .sep c :: l, a, dot, hl, _, _ => by
    rw [text_cons, Piece.text, scan_quiet _ _ (quiet_sep hn (qual_headed hn) hl.1 a (text l)),
      scan_qual pre hn (a ++ [c]) (c == '.') hl.2 (fun he => by rw [ends_concat, hl.1] at he; cases he) (by simp), qualified, text_cons]
    rfl
  | .word w :: l, a, dot, hl, ha, hd => by
    have hb := not_begins_text hl.2.2.1 hl.2.2.2
    have hnd : (a ++ w).getLast? ≠ some '.' := by
      intro e
      obtain ⟨c, hc, hw⟩ := ends_append (u := u) (a := a) hl.1 hl.2.1
      rw [e] at hc
      cases hc
      cases hw
    have ih := scan_qual pre hn (l := l) (a ++ w) false hl.2.2.2 (fun _ => hl.2.2.1) (by simpa using hnd)
    rw [text_cons, Piece.text]
    by_cases hw : w = name
    · subst hw
      have hna : ¬ EndsInWord u a := fun he => ha he w l rfl
      cases dot with
      | false =>
        have hnb : ¬ Bound u a := by
          rintro ⟨c, h1, h2 | h2⟩
          · subst h2
            have := hd.2 h1
            cases this
          · exact hna ⟨c, h1, h2⟩
        rw [scan_hit _ hl.1 (qual_hit hn hnb hb) rfl, expand_litTmpl, ih, qualified_some (p := pre) (by rw [only, if_pos rfl])]
        show pre ++ '.' :: w ++ _ = pre ++ ('.' :: (w ++ _))
        rw [List.append_assoc]
        rfl
      | true =>
        have hbd : Bound u a := ⟨'.', hd.1 rfl, .inl rfl⟩
        have q : Quiet u (qualRe w) a w (text l) := by
          have hw := hl.2.1
          have hne := hl.1
          revert hw hne
          generalize hr : qualRe w = r
          have hhead : Headed u w r := hr ▸ qual_headed hn
          have hno : ∀ m b k k', ¬ Matches u r a m b k k' := fun m b k k' h => (qual_occ hn (hr ▸ h)).1 hbd
          clear hr
          intro hw hne
          have : ∀ w' : Str, (∀ c ∈ w', isWordChar u c = true) → Quiet u r a w' (text l) := by
            intro w' hw'
            cases w' with
            | nil => exact quiet_nil _ _ _ _
            | cons c w' =>
              rw [quiet_cons]
              refine ⟨?_, quiet_inside hhead w' _ (ends_concat.2 (hw' c (by simp))) (fun x hx => hw' x (by simp [hx]))⟩
              rintro m b' _ ⟨k, hm⟩
              exact hno _ _ _ _ hm
          exact this w hw
        rw [scan_quiet _ _ q, ih, qualified_keep (.inl rfl)]
        rfl
    · rw [scan_quiet _ _ (quiet_word hn (qual_headed hn) ⟨hl.1, hl.2.1⟩ hw a hb), ih, qualified_keep (.inr (by rw [only, if_neg hw]))]
      rfl

theorem qualName_eq {u : Char → Bool} {name : Str} (pre : Str) (hn : Ident u name) {l : List Piece} (hl : Cut u l) :
    qualName u pre name (text l) = text (qualified (only name pre) false l) :=
  scan_qual pre hn [] false hl (by rintro ⟨c, hc, _⟩; cases hc) (by simp)

/-! ### Several names, several scopes -/

theorem qualified_notW {f : Str → Option Str} {dot : Bool} {l : List Piece} (h : ∀ w m, l ≠ .word w :: m) : ∀ w m, qualified f dot l ≠ .word w :: m := by
  cases l with
  | nil => intro w m e; cases e
  | cons p l =>
    cases p with
    | word v => exact absurd rfl (h v l)
    | sep c => intro w m e; cases e

/-- The result is cut in its words. -/
theorem qualified_cut {u : Char → Bool} {f : Str → Option Str} (hf : ∀ w p, f w = some p → Ident u p) : ∀ {l : List Piece} (dot : Bool), Cut u l → Cut u (qualified f dot l)
  | [], _, _ => trivial
  | .sep c :: l, dot, h => ⟨h.1, qualified_cut hf _ h.2⟩
  | .word w :: l, dot, h => by
    have h1 : Cut u (.word w :: qualified f false l) := ⟨h.1, h.2.1, qualified_notW h.2.2.1, qualified_cut hf false h.2.2.2⟩
    cases hw : f w with
    | none => rw [qualified_keep (.inr hw)]; exact h1
    | some p =>
      cases dot with
      | true => rw [qualified_keep (.inl rfl)]; exact h1
      | false =>
        have hp := hf w p hw
        rw [qualified_some hw]
        exact ⟨hp.1, hp.2, fun v m e => (by cases e), rfl, h1⟩

/-- One after the other is the same as the first that knows. -/
theorem qualified_twice {f g : Str → Option Str} (h : ∀ w p, f w = some p → g p = none) : ∀ (l : List Piece) (dot : Bool),
    qualified g dot (qualified f dot l) = qualified (fun w => (f w).or (g w)) dot l
  | [], _ => rfl
  | .sep c :: l, dot => by
    rw [qualified, qualified, qualified, qualified_twice h l]
  | .word w :: l, dot => by
    have ih := qualified_twice h l false
    cases dot with
    | true => rw [qualified_keep (.inl rfl), qualified_keep (.inl rfl), qualified_keep (.inl rfl), ih]
    | false =>
      cases hf : f w with
      | some p =>
        rw [qualified_some hf, qualified_keep (.inr (h w p hf)), qualified_some (f := fun w => (f w).or (g w)) (p := p) (by rw [hf]; rfl), qualified,
          qualified_keep (.inl (by rfl)), ih]
      | none =>
        rw [qualified_keep (.inr hf)]
        cases hg : g w with
        | some p => rw [qualified_some hg, qualified_some (f := fun w => (f w).or (g w)) (p := p) (by rw [hf, hg]; rfl), ih]
        | none => rw [qualified_keep (.inr hg), qualified_keep (f := fun w => (f w).or (g w)) (.inr (by rw [hf, hg]; rfl)), ih]

theorem qualified_congr {f g : Str → Option Str} (h : ∀ w, f w = g w) (l : List Piece) (dot : Bool) : qualified f dot l = qualified g dot l := by
  rw [show f = g from funext h]

theorem qualified_none (l : List Piece) (dot : Bool) : qualified (fun _ => none) dot l = l := by
  induction l generalizing dot with
  | nil => rfl
  | cons p l ih =>
    cases p with
    | sep c => rw [qualified, ih]
    | word w =>
      rw [qualified_keep (.inr rfl), ih]

/-- The names of one scope. -/
def members (pre : Str) (names : List Str) (w : Str) : Option Str := if w ∈ names then some pre else none

theorem foldl_names {u : Char → Bool} {pre : Str} (hp : Ident u pre) : ∀ (names : List Str) {l : List Piece}, Cut u l → (∀ n ∈ names, Ident u n) → pre ∉ names →
    names.foldl (fun s n => qualName u pre n s) (text l) = text (qualified (members pre names) false l)
  | [], l, _, _, _ => by
    have : qualified (members pre []) false l = l := (qualified_congr (fun w => (by simp [members])) l false).trans (qualified_none l false)
    rw [this]
    rfl
  | n :: names, l, hl, hn, hpn => by
    have hc : Cut u (qualified (only n pre) false l) := qualified_cut (fun w p h => by
      unfold only at h
      split at h
      · cases h; exact hp
      · cases h) false hl
    rw [List.foldl_cons, qualName_eq pre (hn n (by simp)) hl, foldl_names hp names hc (fun m hm => hn m (by simp [hm])) (fun h => hpn (by simp [h])),
      qualified_twice]
    · congr 1
      refine qualified_congr (fun w => ?_) l false
      unfold only members
      by_cases h1 : w = n
      · simp [h1]
      · simp [h1]
    · intro w p h
      unfold only at h
      split at h
      · cases h
        unfold members
        rw [if_neg (fun h => hpn (by simp [h]))]
      · cases h

theorem mem_insertLen {n m : Str} : ∀ {l : List Str}, m ∈ insertLen n l ↔ m = n ∨ m ∈ l
  | [] => by simp [insertLen]
  | x :: l => by
    unfold insertLen
    split
    · simp
    · rw [List.mem_cons, mem_insertLen, List.mem_cons]
      constructor
      · rintro (h | h | h)
        · exact .inr (.inl h)
        · exact .inl h
        · exact .inr (.inr h)
      · rintro (h | h | h)
        · exact .inr (.inl h)
        · exact .inl h
        · exact .inr (.inr h)

theorem mem_sortLen {m : Str} (names : List Str) : m ∈ sortLen names ↔ m ∈ names := by
  have : ∀ (names acc : List Str), m ∈ names.foldl (fun l n => insertLen n l) acc ↔ m ∈ acc ∨ m ∈ names := by
    intro names
    induction names with
    | nil => intro acc; simp
    | cons n names ih =>
      intro acc
      rw [List.foldl_cons, ih, mem_insertLen, List.mem_cons]
      constructor
      · rintro ((h | h) | h)
        · exact .inr (.inl h)
        · exact .inl h
        · exact .inr (.inr h)
      · rintro (h | h | h)
        · exact .inl (.inr h)
        · exact .inl (.inl h)
        · exact .inr h
  rw [sortLen, this]
  simp

theorem qualScope_eq {u : Char → Bool} {pre : Str} (hp : Ident u pre) {names : List Str} {l : List Piece} (hl : Cut u l) (hn : ∀ n ∈ names, Ident u n)
    (hpn : pre ∉ names) : qualScope u pre names (text l) = text (qualified (members pre names) false l) := by
  unfold qualScope
  rw [foldl_names hp _ hl (fun n h => hn n ((mem_sortLen names).1 h)) (fun h => hpn ((mem_sortLen names).1 h))]
  congr 1
  refine qualified_congr (fun w => ?_) l false
  unfold members
  simp only [mem_sortLen]

/-- The scopes that are looked at. -/
def entries (roots : List Str) (ms : Str → Option (Str × List Str)) (parts : List Str) : Scopes :=
  parts.filterMap (fun p => if p ∈ roots then none else ms p)

theorem qualify_entries (u : Char → Bool) (roots : List Str) (ms : Str → Option (Str × List Str)) : ∀ (parts : List Str) (s : Str),
    qualify u roots ms parts s = (entries roots ms parts).foldl (fun s e => qualScope u e.1 e.2 s) s
  | [], _ => rfl
  | p :: parts, s => by
    have ih := qualify_entries u roots ms parts
    unfold qualify at ih ⊢
    rw [List.foldl_cons, ih]
    unfold entries
    rw [List.filterMap_cons]
    by_cases h : p ∈ roots
    · rw [if_pos h, if_pos h]
    · rw [if_neg h, if_neg h]
      cases ms p with
      | none => rfl
      | some e => rfl

theorem owner_cons (e : Str × List Str) (l : Scopes) (w : Str) : owner (e :: l) w = (members e.1 e.2 w).or (owner l w) := by
  unfold owner members
  rw [List.find?_cons]
  by_cases h : w ∈ e.2
  · simp [h]
  · simp [h]

theorem owner_ident {u : Char → Bool} {l : Scopes} (h : ∀ e ∈ l, Ident u e.1) {w p : Str} (e : owner l w = some p) : Ident u p := by
  unfold owner at e
  rw [Option.map_eq_some_iff] at e
  obtain ⟨x, hx, rfl⟩ := e
  exact h x (List.mem_of_find?_eq_some hx)

theorem foldl_scopes {u : Char → Bool} : ∀ (es : Scopes) {l : List Piece}, Cut u l → (∀ e ∈ es, Ident u e.1 ∧ ∀ n ∈ e.2, Ident u n) → NotInside es →
    es.foldl (fun s e => qualScope u e.1 e.2 s) (text l) = text (qualified (owner es) false l)
  | [], l, _, _, _ => by
    rw [(qualified_congr (fun w => (rfl : owner [] w = none)) l false).trans (qualified_none l false)]
    rfl
  | e :: es, l, hl, he, hni => by
    have h1 := he e (by simp)
    have hc : Cut u (qualified (members e.1 e.2) false l) := qualified_cut (fun w p h => by
      unfold members at h
      split at h
      · cases h; exact h1.1
      · cases h) false hl
    rw [List.foldl_cons, qualScope_eq h1.1 hl h1.2 (hni.1 e (by simp)), foldl_scopes es hc (fun x hx => he x (by simp [hx])) hni.2, qualified_twice]
    · congr 1
      exact qualified_congr (fun w => (owner_cons e es w).symm) l false
    · intro w p h
      unfold members at h
      split at h
      · cases h
        unfold owner
        rw [List.find?_eq_none.2 (fun x hx => by simpa using hni.1 x (by simp [hx]))]
        rfl
      · cases h

end Verif.ToPy
