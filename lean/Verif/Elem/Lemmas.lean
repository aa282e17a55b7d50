import Verif.Elem.Model
import Verif.Elem.Spec

/-! Lemmas on trees of elements. -/

namespace Verif.Elem
open Verif.Py Spec

/-- What the traversal does to the parents. -/
def filled : Option Nat → Forest → Parents → Parents
  | _, .nil, ps => ps
  | top, .cons i ch sib, ps => filled top sib (filled (some i) ch (setParent ps i top))

theorem fillEvents_visit : ∀ (t : Forest) (d : Nat) (top : Option Nat) (rest : List (Option Nat)) (ps : Parents)
    (es : List Event), (rest = [] ∨ top ≠ none) →
    fillEvents ⟨top :: rest, ps⟩ (visit d t ++ es) = fillEvents ⟨top :: rest, filled top t ps⟩ es := by
  intro t
  induction t with
  | nil => intro d top rest ps es _; rfl
  | cons i ch sib ihc ihs =>
    intro d top rest ps es h
    have e : visit d (.cons i ch sib) ++ es =
        .onElement i d :: .onBeforeChildren i d :: (visit (d + 1) ch ++ (.onAfterChildren i d :: (visit d sib ++ es))) := by
      simp [visit]
    have h1 : fillStep ⟨top :: rest, ps⟩ (.onElement i d) = some ⟨top :: rest, setParent ps i top⟩ := by
      cases rest with
      | nil => rfl
      | cons a r =>
        have : top ≠ none := by simpa using h
        simp [fillStep, this]
    rw [e, fillEvents, h1, Option.bind_some, fillEvents, fillStep, Option.bind_some,
      ihc (d + 1) (some i) (top :: rest) _ _ (Or.inr (by simp)), fillEvents, fillStep, Option.bind_some,
      ihs d top rest _ _ h]
    rfl

theorem fillParents_eq (ps : Parents) (top : Option Nat) (t : Forest) : fillParents ps top t = some (filled top t ps) := by
  unfold fillParents
  have := fillEvents_visit t 0 top [] ps [] (Or.inl rfl)
  rw [List.append_nil] at this
  rw [this]
  rfl

theorem filled_other : ∀ (t : Forest) (top : Option Nat) (ps : Parents) (i : Nat), i ∉ ids t → filled top t ps i = ps i := by
  intro t
  induction t with
  | nil => intro _ _ _ _; rfl
  | cons j ch sib ihc ihs =>
    intro top ps i h
    simp only [ids, List.mem_cons, List.mem_append, not_or, List.cons_append] at h
    rw [filled, ihs _ _ _ h.2.2, ihc _ _ _ h.2.1, setParent, if_neg h.1]

theorem at_mem {t : Forest} {path : List Nat} {i : Nat} (h : At t path i) : i ∈ ids t := by
  induction h with
  | here => simp [ids]
  | next _ _ _ ih => simp [ids, ih]
  | down _ _ _ ih => simp [ids, ih]

/-- The enclosing element: the last of the path, or the one given. -/
def lastOr (top : Option Nat) (path : List Nat) : Option Nat :=
  match path.getLast? with
  | some p => some p
  | none => top

theorem filled_at {t : Forest} {path : List Nat} {i : Nat} (h : At t path i) : ∀ (top : Option Nat) (ps : Parents),
    Distinct t → filled top t ps i = some (lastOr top path) := by
  induction h with
  | here i ch sib =>
    intro top ps hd
    unfold Distinct at hd
    simp only [ids, List.cons_append, List.nodup_cons, List.mem_append, not_or] at hd
    rw [filled, filled_other _ _ _ _ hd.1.2, filled_other _ _ _ _ hd.1.1, setParent, if_pos rfl]
    rfl
  | next j ch h ih =>
    intro top ps hd
    unfold Distinct at hd
    simp only [ids, List.cons_append, List.nodup_cons, List.nodup_append] at hd
    rw [filled, ih _ _ hd.2.2.1]
  | @down ch path i j sib h ih =>
    intro top ps hd
    unfold Distinct at hd
    simp only [ids, List.cons_append, List.nodup_cons, List.nodup_append] at hd
    have hi := at_mem h
    have : i ∉ ids sib := fun h' => hd.2.2.2 i hi i h' rfl
    rw [filled, filled_other _ _ _ _ this, ih _ _ hd.2.1]
    cases path with
    | nil => rfl
    | cons a p =>
      unfold lastOr
      rw [List.getLast?_cons_cons]
      cases hl : (a :: p).getLast? with
      | none => simp at hl
      | some x => rfl

/-- Every element of a path is itself in the tree, with the beginning of the path. -/
theorem at_split {t : Forest} : ∀ {path : List Nat} {i : Nat}, At t path i → ∀ (a : List Nat) (j : Nat) (b : List Nat),
    path = a ++ j :: b → At t a j := by
  intro path i h
  induction h with
  | here => intro a j b h; simp at h
  | next k ch _ ih => intro a j b hp; exact .next k ch (ih a j b hp)
  | down k sib _ ih =>
    intro a j b hp
    cases a with
    | nil =>
      simp only [List.nil_append, List.cons.injEq] at hp
      rw [hp.1]
      exact .here _ _ _
    | cons x a =>
      simp only [List.cons_append, List.cons.injEq] at hp
      rw [hp.1]
      exact .down _ sib (ih a j b hp.2)

theorem lastOr_concat (top : Option Nat) (a : List Nat) (j : Nat) : lastOr top (a ++ [j]) = some j := by
  simp [lastOr]

/-- Climbing from an element. -/
theorem chain_at {t : Forest} (hd : Distinct t) (ps : Parents) (hp : ∀ path i, At t path i → ps i = some (lastOr none path)) :
    ∀ (path : List Nat) (i : Nat), At t path i → ∀ n, path.length < n → chain ps n (some i) = some (i :: path.reverse) := by
  intro path
  induction hl : path.length generalizing path with
  | zero =>
    intro i h n hn
    have : path = [] := List.length_eq_zero_iff.1 hl
    subst this
    cases n with
    | zero => omega
    | succ n =>
      rw [chain, hp _ _ h]
      cases n <;> rfl
  | succ k ih =>
    intro i h n hn
    rcases List.eq_nil_or_concat path with rfl | ⟨a, j, rfl⟩
    · simp at hl
    · simp only [List.concat_eq_append] at h hl ⊢
      cases n with
      | zero => omega
      | succ n =>
        have hj : At t a j := at_split h a j [] rfl
        rw [chain, hp _ _ h, lastOr_concat, Option.bind_some]
        have hk : a.length = k := by simpa using hl
        rw [ih a hk j hj n (by omega)]
        simp

theorem at_of_mem {t : Forest} {i : Nat} (h : i ∈ ids t) : ∃ path, At t path i := by
  induction t with
  | nil => simp [ids] at h
  | cons j ch sib ihc ihs =>
    simp only [ids, List.cons_append, List.mem_cons, List.mem_append] at h
    rcases h with rfl | h | h
    · exact ⟨[], .here _ _ _⟩
    · obtain ⟨p, hp⟩ := ihc h
      exact ⟨j :: p, .down j sib hp⟩
    · obtain ⟨p, hp⟩ := ihs h
      exact ⟨p, .next j ch hp⟩

/-- The parents written by the program are the ones of the tree. -/
def Right (t : Forest) (ps : Parents) : Prop := ∀ path i, At t path i → ps i = some (lastOr none path)

theorem right_fill {t : Forest} (hd : Distinct t) (ps : Parents) : Right t (filled none t ps) :=
  fun _ _ h => filled_at h none ps hd

theorem chain_parent {t : Forest} {ps : Parents} (hd : Distinct t) (hr : Right t ps) {path : List Nat} {i : Nat}
    (h : At t path i) {n : Nat} (hn : path.length ≤ n) : chain ps n (lastOr none path) = some path.reverse := by
  rcases List.eq_nil_or_concat path with rfl | ⟨a, j, rfl⟩
  · cases n <;> rfl
  · simp only [List.concat_eq_append] at h hn ⊢
    rw [lastOr_concat, chain_at hd ps hr a j (at_split h a j [] rfl) n (by simp at hn; omega)]
    simp

theorem ancestors_at {t : Forest} {ps : Parents} (hd : Distinct t) (hr : Right t ps) {path : List Nat} {i : Nat}
    (h : At t path i) {n : Nat} (hn : path.length < n) (b : Bool) :
    ancestorsList ps n b i = some (if b then i :: path.reverse else path.reverse) := by
  unfold ancestorsList
  rw [hr _ _ h, Option.bind_some]
  cases b with
  | true => exact chain_at hd ps hr path i h n hn
  | false => exact chain_parent hd hr h (Nat.le_of_lt hn)

theorem inCEnum_iff {t : Forest} {ks : Kinds} {ps : Parents} (hr : Right t ps) {path : List Nat} {i : Nat}
    (h : At t path i) : inCEnum ks ps i = true ↔ ∃ outer, CEnumMember ks path i outer := by
  constructor
  · intro hc
    unfold inCEnum at hc
    split at hc
    · rename_i hk
      split at hc
      · rename_i b hb
        split at hc
        · rename_i hkb
          split at hc
          · rename_i e he
            split at hc
            · rename_i isClass name hke
              rw [hr _ _ h] at hb
              rcases List.eq_nil_or_concat path with rfl | ⟨a, j, rfl⟩
              · simp [lastOr] at hb
              · simp only [List.concat_eq_append] at h hb ⊢
                rw [lastOr_concat] at hb
                simp only [Option.some.injEq] at hb
                subst hb
                have h2 := at_split h a j [] rfl
                rw [hr _ _ h2] at he
                rcases List.eq_nil_or_concat a with rfl | ⟨a', e', rfl⟩
                · simp [lastOr] at he
                · simp only [List.concat_eq_append] at he ⊢
                  rw [lastOr_concat] at he
                  simp only [Option.some.injEq] at he
                  subst he
                  have : isClass = false := by simpa using hc
                  subst this
                  exact ⟨a', e', j, name, hk, hkb, hke, by simp⟩
            · cases hc
          · cases hc
        · cases hc
      · cases hc
    · cases hc
  · rintro ⟨outer, e, b, name, hk, hkb, hke, rfl⟩
    have e1 : outer ++ [e, b] = (outer ++ [e]) ++ [b] := by simp
    rw [e1] at h
    have hb := at_split h (outer ++ [e]) b [] rfl
    unfold inCEnum
    rw [hk, hr _ _ h, lastOr_concat]
    simp only
    rw [hkb]
    simp only
    rw [hr _ _ hb, lastOr_concat]
    simp only
    rw [hke]
    rfl

theorem cppScope_at {t : Forest} {ks : Kinds} {ps : Parents} (hd : Distinct t) (hr : Right t ps) {path : List Nat} {i : Nat}
    (h : At t path i) {n : Nat} (hn : path.length < n) (b : Bool) :
    cppScope ks ps n b i = some (scopesOf ks (if inCEnum ks ps i then dropLast2 (path ++ if b then [i] else [])
      else path ++ if b then [i] else [])) := by
  unfold cppScope
  rw [ancestors_at hd hr h hn b]
  have : (if b then i :: path.reverse else path.reverse).reverse = path ++ if b then [i] else [] := by
    cases b <;> simp
  simp only [Option.map_some, this]
  rfl

end Verif.Elem

namespace Verif.Elem
open Verif.Py Spec

theorem lastOr_none (path : List Nat) : lastOr none path = path.getLast? := by
  unfold lastOr
  cases path.getLast? <;> rfl

theorem visit_on : ∀ (t : Forest) (d i e : Nat),
    Event.onElement i e ∈ visit d t ↔ ∃ path, At t path i ∧ e = d + path.length := by
  intro t
  induction t with
  | nil =>
    intro d i e
    simp only [visit, List.not_mem_nil, false_iff]
    rintro ⟨path, h, _⟩
    cases h
  | cons j ch sib ihc ihs =>
    intro d i e
    simp only [visit, List.cons_append, List.mem_cons, List.mem_append, reduceCtorEq, false_or, Event.onElement.injEq,
      ihc, ihs]
    constructor
    · rintro (⟨rfl, rfl⟩ | ⟨p, hp, rfl⟩ | ⟨p, hp, rfl⟩)
      · exact ⟨[], .here _ _ _, by simp⟩
      · exact ⟨j :: p, .down _ _ hp, by simp; omega⟩
      · exact ⟨p, .next _ _ hp, rfl⟩
    · rintro ⟨p, hp, rfl⟩
      cases hp with
      | here => left; simp
      | next _ _ h => right; right; exact ⟨p, h, rfl⟩
      | down _ _ h => right; left; exact ⟨_, h, by simp; omega⟩

theorem visit_ids : ∀ (t : Forest) (d : Nat), (visit d t).filterMap onId = ids t := by
  intro t
  induction t with
  | nil => intro d; rfl
  | cons j ch sib ihc ihs =>
    intro d
    have e1 : ∀ l, (Event.onElement j d :: l).filterMap onId = j :: l.filterMap onId := fun _ => rfl
    have e2 : ∀ l, (Event.onBeforeChildren j d :: l).filterMap onId = l.filterMap onId := fun _ => rfl
    have e3 : ∀ l, (Event.onAfterChildren j d :: l).filterMap onId = l.filterMap onId := fun _ => rfl
    rw [visit, List.cons_append, e1, List.cons_append, e2, List.filterMap_append, e3, ihc, ihs]
    rfl

/-- The cached scopes are those of the present parents. -/
def CacheRight (ks : Kinds) (fuel : Nat) (w : World) : Prop :=
  ∀ b i s, w.cache b i = some s → cppScope ks w.parents fuel b i = some s

theorem cacheRight_ask {ks : Kinds} {fuel : Nat} {w w' : World} {b : Bool} {i : Nat} {s : List ScopePart}
    (h : CacheRight ks fuel w) (hs : scopeCached ks fuel w b i = some (s, w')) :
    CacheRight ks fuel w' ∧ w'.parents = w.parents ∧ cppScope ks w.parents fuel b i = some s := by
  unfold scopeCached at hs
  split at hs
  · rename_i s' hc
    simp only [Option.some.injEq, Prod.mk.injEq] at hs
    obtain ⟨rfl, rfl⟩ := hs
    exact ⟨h, rfl, h b i _ hc⟩
  · simp only [Option.map_eq_some_iff, Prod.mk.injEq] at hs
    obtain ⟨s', hs', rfl, rfl⟩ := hs
    refine ⟨?_, rfl, hs'⟩
    intro b' j x hx
    simp only at hx
    split at hx
    · rename_i hbj
      obtain ⟨rfl, rfl⟩ := hbj
      simp only [Option.some.injEq] at hx
      rw [← hx]; exact hs'
    · exact h b' j x hx

end Verif.Elem
