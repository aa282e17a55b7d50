import Verif.Re.TypeKind
import Verif.Re.ValueFinal

/-! The rules of the types on a type without template. -/

namespace Verif.Re
open Verif.Py Spec Verif.Inst Verif.Inst.Spec
open Verif.Scope (isWordChar)

/-! ### The pieces of the tokens -/

theorem lexed_suffix {u : Char → Bool} : ∀ {x l : List TTok}, TLexed u (x ++ l) → TLexed u l
  | [], _, h => h
  | .word _ :: _, _, h => lexed_suffix h.2.2.2.2.2
  | .known _ :: _, _, h => lexed_suffix h.2.2.2.2.2
  | .sep _ :: _, _, h => lexed_suffix h.2.2.2.2.2.2

theorem lexed_known {u : Char → Bool} {q : Str} : ∀ {l : List TTok}, TLexed u l → .known q ∈ l → q ∈ knownNames
  | [], _, hm => by cases hm
  | .word _ :: l, h, hm => by
    rcases List.mem_cons.1 hm with e | hm
    · cases e
    · exact lexed_known (l := l) h.2.2.2.2.2 hm
  | .known p :: l, h, hm => by
    rcases List.mem_cons.1 hm with e | hm
    · cases e; exact h.1
    · exact lexed_known (l := l) h.2.2.2.2.2 hm
  | .sep _ :: l, h, hm => by
    rcases List.mem_cons.1 hm with e | hm
    · cases e
    · exact lexed_known (l := l) h.2.2.2.2.2.2 hm

theorem lexed_word {u : Char → Bool} {w : Str} : ∀ {l : List TTok}, TLexed u l → .word w ∈ l → Ident u w ∧ w ∉ reserved ∧ ¬ CharWord w
  | [], _, hm => by cases hm
  | .word _ :: l, h, hm => by
    rcases List.mem_cons.1 hm with e | hm
    · cases e; exact ⟨h.1, h.2.1, h.2.2.1⟩
    · exact lexed_word (l := l) h.2.2.2.2.2 hm
  | .known p :: l, h, hm => by
    rcases List.mem_cons.1 hm with e | hm
    · cases e
    · exact lexed_word (l := l) h.2.2.2.2.2 hm
  | .sep _ :: l, h, hm => by
    rcases List.mem_cons.1 hm with e | hm
    · cases e
    · exact lexed_word (l := l) h.2.2.2.2.2.2 hm

theorem lexed_sep {u : Char → Bool} {c : Char} : ∀ {l : List TTok}, TLexed u l → .sep c ∈ l →
    isWordChar u c = false ∧ (isSpace c = true → c = ' ') ∧ c ≠ '<' ∧ c ≠ '>'
  | [], _, hm => by cases hm
  | .word _ :: l, h, hm => by
    rcases List.mem_cons.1 hm with e | hm
    · cases e
    · exact lexed_sep (l := l) h.2.2.2.2.2 hm
  | .known p :: l, h, hm => by
    rcases List.mem_cons.1 hm with e | hm
    · cases e
    · exact lexed_sep (l := l) h.2.2.2.2.2 hm
  | .sep _ :: l, h, hm => by
    rcases List.mem_cons.1 hm with e | hm
    · cases e; exact ⟨h.1, h.2.1, h.2.2.1, h.2.2.2.1⟩
    · exact lexed_sep (l := l) h.2.2.2.2.2.2 hm

/-- The first characters are a separator. -/
theorem pieces_sep {u : Char → Bool} {c : Char} {Y : List Piece} {l : List TTok} (hl : TLexed u l) (h : tpieces l = .sep c :: Y) :
    ∃ l2, l = .sep c :: l2 ∧ tpieces l2 = Y := by
  cases l with
  | nil => cases h
  | cons t l =>
    rw [tpieces_cons] at h
    cases t with
    | word w => cases h
    | sep d => obtain ⟨h1, h2⟩ := List.cons.inj h; cases h1; exact ⟨l, rfl, h2⟩
    | known p =>
      obtain ⟨x, _, m, e⟩ := known_first p hl.1
      change cut (fun _ => false) p ++ tpieces l = _ at h
      rw [e] at h
      cases h

/-- A word that is in no name. -/
theorem pieces_word {w : Str} {Y : List Piece} : ∀ {l : List TTok} {X : List Piece}, (∀ q, .known q ∈ l → .word w ∉ cut (fun _ => false) q) →
    tpieces l = X ++ .word w :: Y → ∃ l1 l2, l = l1 ++ .word w :: l2 ∧ tpieces l2 = Y
  | [], X, _, h => by cases X <;> cases h
  | t :: l, X, hk, h => by
    have hk' : ∀ q, .known q ∈ l → .word w ∉ cut (fun _ => false) q := fun q hq => hk q (by simp [hq])
    have go : ∀ X', tpieces l = X' ++ .word w :: Y → ∃ l1 l2, t :: l = l1 ++ .word w :: l2 ∧ tpieces l2 = Y := by
      intro X' e
      obtain ⟨l1, l2, e1, e2⟩ := pieces_word hk' e
      exact ⟨t :: l1, l2, by rw [e1]; rfl, e2⟩
    rw [tpieces_cons] at h
    rcases List.append_eq_append_iff.1 h with ⟨a', e1, e2⟩ | ⟨a', e1, e2⟩
    · exact go a' e2
    · cases a' with
      | nil => exact go [] e2.symm
      | cons p a' =>
        obtain ⟨rfl, e3⟩ := List.cons.inj e2
        cases t with
        | word v =>
          change [Piece.word v] = _ at e1
          cases X with
          | nil =>
            obtain ⟨h1, h2⟩ := List.cons.inj e1
            cases h1
            subst h2
            exact ⟨[], l, rfl, e3.symm⟩
          | cons p X =>
            obtain ⟨_, h2⟩ := List.cons.inj e1
            cases X <;> cases h2
        | sep c =>
          change [Piece.sep c] = _ at e1
          cases X with
          | nil => cases e1
          | cons p X =>
            obtain ⟨_, h2⟩ := List.cons.inj e1
            cases X <;> cases h2
        | known q =>
          refine absurd ?_ (hk q (by simp))
          show _ ∈ (TTok.known q).pieces
          rw [e1]
          simp

theorem mem_tpieces {p : Piece} {l : List TTok} (h : p ∈ tpieces l) : ∃ t ∈ l, p ∈ t.pieces := List.mem_flatMap.1 h

/-- A word of a type. -/
theorem word_tpieces {w : Str} {l : List TTok} (h : .word w ∈ tpieces l) : .word w ∈ l ∨ ∃ q, .known q ∈ l ∧ .word w ∈ cut (fun _ => false) q := by
  obtain ⟨t, ht, hp⟩ := mem_tpieces h
  cases t with
  | word v => cases List.mem_singleton.1 hp; exact .inl ht
  | sep c => cases List.mem_singleton.1 hp
  | known q => exact .inr ⟨q, ht, hp⟩

/-! ### `std::string()` -/

def callPieces : List Piece := [.word "std".toList, .sep ':', .sep ':', .word "string".toList, .sep '(', .sep ')']

theorem occ_inert {lp x t X Y : List Piece} (h : inert lp x = true) (ht : TailOk t) (e : x ++ t = X ++ (lp ++ Y)) : ∃ X', t = X' ++ (lp ++ Y) := by
  induction x generalizing X with
  | nil => exact ⟨X, e⟩
  | cons a x ih =>
    rw [inert, Bool.and_eq_true] at h
    cases X with
    | nil => exact absurd ⟨Y, e.symm⟩ (clash_prefix h.1 ht)
    | cons b X => exact ih h.2 (List.cons.inj e).2

theorem no_call {u : Char → Bool} : ∀ {l : List TTok} {X Y : List Piece}, TLexed u l → tpieces l ≠ X ++ (callPieces ++ Y)
  | [], X, Y, _, e => by cases X <;> cases e
  | .word w :: l, X, Y, h, e => by
    rw [tpieces_cons] at e
    cases X with
    | nil =>
      obtain ⟨h1, _⟩ := List.cons.inj e
      cases h1
      exact h.2.1 (by decide +kernel)
    | cons p X => exact no_call (l := l) h.2.2.2.2.2 (List.cons.inj e).2
  | .sep c :: l, X, Y, h, e => by
    rw [tpieces_cons] at e
    cases X with
    | nil => obtain ⟨h1, _⟩ := List.cons.inj e; cases h1
    | cons p X => exact no_call (l := l) h.2.2.2.2.2.2 (List.cons.inj e).2
  | .known q :: l, X, Y, h, e => by
    have hi : ∀ q ∈ knownNames, q = "std::string".toList ∨ inert callPieces (cut (fun _ => false) q) = true := by decide +kernel
    have ht := tail_ok h
    rw [tpieces_cons] at e
    rcases hi q h.1 with h1 | h1
    · subst h1
      have hc : cut (fun _ => false) "std::string".toList =
          .word "std".toList :: [.sep ':', .sep ':', .word "string".toList] := by decide +kernel
      change cut (fun _ => false) "std::string".toList ++ tpieces l = _ at e
      rw [hc] at e
      cases X with
      | nil =>
        have e1 : tpieces l = .sep '(' :: .sep ')' :: Y := by
          obtain ⟨_, e⟩ := List.cons.inj e
          obtain ⟨_, e⟩ := List.cons.inj e
          obtain ⟨_, e⟩ := List.cons.inj e
          exact (List.cons.inj e).2
        obtain ⟨l2, rfl, e2⟩ := pieces_sep (lexed_suffix (x := [_]) h) e1
        obtain ⟨l3, rfl, e3⟩ := pieces_sep (lexed_suffix (x := [_, _]) h) e2
        exact h.2.2.1 rfl l3 rfl
      | cons p X =>
        have e1 := (List.cons.inj e).2
        obtain ⟨X', e2⟩ := occ_inert (lp := callPieces) (x := [.sep ':', .sep ':', .word "string".toList]) (by decide +kernel) ht e1
        exact no_call (l := l) h.2.2.2.2.2 e2
    · obtain ⟨X', e2⟩ := occ_inert h1 ht e
      exact no_call (l := l) h.2.2.2.2.2 e2

/-- `\bstd::string\(\)` -/
def callRe : Re := stdRe "string".toList (.seq (.chr '(') (.seq (.chr ')') .eps))

theorem sub_call {u : Char → Bool} (t : List Tok) {l : List TTok} (hl : TLexed u l) : sub u callRe t (ttext l) = ttext l := by
  refine sub_quiet t (neverEmpty_lits (h := "std".toList) (by decide) _) ?_
  rintro x c y e0 m b' e ⟨c', h⟩
  obtain ⟨m1, m2, k1, rfl, h1, h2⟩ := matches_seq h
  obtain ⟨rfl, _, hb⟩ := matches_wordB h1
  rw [List.append_nil] at h2
  obtain ⟨m3, rfl, h3⟩ := matches_lits _ h2
  obtain ⟨m4, rfl, h4⟩ := matches_lits _ h3
  obtain ⟨m5, rfl, h5⟩ := matches_lits _ h4
  obtain ⟨m6, m7, k2, rfl, h6, h7⟩ := matches_seq h5
  obtain ⟨rfl, _⟩ := matches_chr h6
  obtain ⟨m8, m9, k3, rfl, h8, h9⟩ := matches_seq h7
  obtain ⟨rfl, _⟩ := matches_chr h8
  obtain ⟨rfl, _⟩ := matches_eps h9
  have hx : ¬ EndsInWord u x := fun ha => hb ⟨fun _ => by
    rw [List.append_assoc]
    exact begins_append (stdIdent u).1 (stdIdent u).2, fun _ => ha⟩
  have e2 : ttext l = x ++ ("std".toList ++ ("::".toList ++ ("string".toList ++ ('(' :: ')' :: b')))) := by
    have e3 : c :: y = c :: y ++ [] := (List.append_nil _).symm
    rw [e0, e3, e]
    simp only [List.append_assoc, List.nil_append, List.cons_append]
  have h10 := cut_ttext hl
  rw [e2, cut_two hx, cut_std (stringIdent u) (by rw [begins_cons]; simp [show isWordChar u '(' = false from rfl]), cut_sep rfl, cut_sep rfl] at h10
  exact no_call hl h10.symm

/-! ### `void *` -/

def voidStarRe : Re := .seq .wordB (lits "void".toList (.seq reS0 (.seq (.chr '*') .eps)))

theorem cut_seps {u : Char → Bool} {sp : Str} (h : ∀ c ∈ sp, isWordChar u c = false) (s : Str) : cut u (sp ++ s) = sp.map .sep ++ cut u s := by
  induction sp with
  | nil => rfl
  | cons c sp ih =>
    rw [List.cons_append, cut_sep (h c (by simp)), ih (fun d hd => h d (by simp [hd]))]
    rfl

theorem sub_voidStar {u : Char → Bool} (hu : SpaceApart u) (t : List Tok) {l : List TTok} (hl : TLexed u l)
    (hk : ∀ q, .known q ∈ l → .word "void".toList ∉ cut (fun _ => false) q) : sub u voidStarRe t (ttext l) = ttext l := by
  refine sub_quiet t (neverEmpty_lits (by decide) _) ?_
  rintro x c y e0 m b' e ⟨c', h⟩
  obtain ⟨m1, m2, k1, rfl, h1, h2⟩ := matches_seq h
  obtain ⟨rfl, _, hb⟩ := matches_wordB h1
  rw [List.append_nil] at h2
  obtain ⟨m3, rfl, h3⟩ := matches_lits _ h2
  obtain ⟨m4, m5, k2, rfl, h4, h5⟩ := matches_seq h3
  obtain ⟨hm4, _⟩ := matches_star_space h4
  obtain ⟨m6, m7, k3, rfl, h6, h7⟩ := matches_seq h5
  obtain ⟨rfl, _⟩ := matches_chr h6
  obtain ⟨rfl, _⟩ := matches_eps h7
  have hx : ¬ EndsInWord u x := fun ha => hb ⟨fun _ => by
    rw [List.append_assoc]
    exact begins_append (voidIdent u).1 (voidIdent u).2, fun _ => ha⟩
  have hsep : ∀ c ∈ m4, isWordChar u c = false := fun c hc => hu c (hm4 c hc)
  have e2 : ttext l = x ++ ("void".toList ++ (m4 ++ ('*' :: b'))) := by
    have e3 : c :: y = c :: y ++ [] := (List.append_nil _).symm
    rw [e0, e3, e]
    simp only [List.append_assoc, List.nil_append, List.cons_append]
  have hnb : ¬ BeginsWithWord u (m4 ++ ('*' :: b')) := by
    cases m4 with
    | nil => rw [List.nil_append, begins_cons]; simp [show isWordChar u '*' = false from rfl]
    | cons d m4 => rw [List.cons_append, begins_cons, hsep d (by simp)]; simp
  have h10 := cut_ttext hl
  rw [e2, cut_two hx, cut_word (cut_begins hnb) _ rfl _ (voidIdent u).1 (voidIdent u).2, cut_seps hsep, cut_sep rfl] at h10
  obtain ⟨l1, l2, e3, e4⟩ := pieces_word hk h10.symm
  rw [e3] at hl
  have hl2 := lexed_suffix hl
  have hl3 := lexed_suffix (x := [_]) hl2
  have hv := hl2.2.2.2.2.1 rfl
  cases m4 with
  | nil =>
    obtain ⟨l3, rfl, _⟩ := pieces_sep hl3 e4
    exact (hv l3).1 rfl
  | cons d m4 =>
    obtain ⟨l3, rfl, e5⟩ := pieces_sep hl3 e4
    have hd : d = ' ' := hl3.2.1 (hm4 d (by simp))
    subst hd
    have hl4 := lexed_suffix (x := [_]) hl3
    cases m4 with
    | nil =>
      obtain ⟨l4, rfl, _⟩ := pieces_sep hl4 e5
      exact (hv l4).2 rfl
    | cons d m4 =>
      obtain ⟨l4, rfl, _⟩ := pieces_sep hl4 e5
      have hd : d = ' ' := hl4.2.1 (hm4 d (by simp))
      subst hd
      exact hl3.2.2.2.2.1 rfl l4 rfl

/-! ### One rule -/

def values : List Str := ["int".toList, "float".toList, "None".toList, "str".toList]

theorem tword_value {u : Char → Bool} : ∀ v ∈ values, TWord u v := by
  intro v hv
  have h1 : ∀ v ∈ values, identB v = true ∧ v ∉ reserved ∧ v.take 3 ≠ "cha".toList ∧ v ≠ "void".toList ∧ v ≠ "double".toList := by decide +kernel
  obtain ⟨h1, h2, h3, h4, h5⟩ := h1 v hv
  exact ⟨ident_of_B h1, h2, fun ⟨n, e⟩ => h3 (by rw [e]; rfl), h4, h5⟩

/-- The token that the rule replaces, and by what word. -/
def Kind.key : Kind → Option (TTok × Str)
  | .two A B v => some (.known (A ++ ' ' :: B), v)
  | .word h v => some (.word h, v)
  | .long v => some (.known "long".toList, v)
  | .std K r t => if r = .seq .wordB .eps ∧ t = litTmpl "str".toList then some (.known ("std::".toList ++ K), "str".toList) else none
  | _ => none

def Kind.actT (k : Kind) (t : TTok) : TTok :=
  match k.key with
  | some (x, v) => putT x v t
  | none => t

/-- The names that are left. -/
def Kind.left (k : Kind) (S : List Str) : List Str :=
  match k.key with
  | some (.known p, _) => S.filter (fun q => decide (q ≠ p))
  | _ => S

def asciiWord (c : Char) : Bool := decide (c.toNat < 128) && isWordChar (fun _ => false) c

theorem ascii_word {u : Char → Bool} {c : Char} (h : asciiWord c = true) : isWordChar u c = true := by
  unfold asciiWord at h
  rw [Bool.and_eq_true] at h
  have h1 := of_decide_eq_true h.1
  have h2 := h.2
  unfold isWordChar at h2 ⊢
  rw [if_pos h1] at h2 ⊢
  exact h2

def begB (s : Str) : Bool := s.head?.any asciiWord
def endB (s : Str) : Bool := s.getLast?.any asciiWord

theorem beg_of {u : Char → Bool} {s : Str} (h : begB s = true) : BeginsWithWord u s := by
  unfold begB at h
  rw [Option.any_eq_true] at h
  obtain ⟨c, h1, h2⟩ := h
  exact ⟨c, h1, ascii_word h2⟩

theorem end_of {u : Char → Bool} {s : Str} (h : endB s = true) : EndsInWord u s := by
  unfold endB at h
  rw [Option.any_eq_true] at h
  obtain ⟨c, h1, h2⟩ := h
  exact ⟨c, h1, ascii_word h2⟩

/-- The name is not in the others. -/
def aside (p : Str) (S : List Str) : Bool := S.all (fun q => decide (q = p) || inert (cut (fun _ => false) p) (cut (fun _ => false) q))

/-- The word is in no name. -/
def apartB (h : Str) (S : List Str) : Bool := S.all (fun q => decide (.word h ∉ cut (fun _ => false) q))

/-- The rule acts on tokens (a check). -/
def Kind.ok (S : List Str) : Kind → Bool
  | .two A B v => decide (A ++ ' ' :: B ∈ knownNames) && decide (v ∈ values) && begB A && begB B && endB B && aside (A ++ ' ' :: B) S
  | .word h v => decide (v ∈ values) && identB h && apartB h S
  | .long v => decide (v ∈ values) && aside "long".toList S
  | .const1 => apartB "cha".toList S
  | .const2 => true
  | .std K r t =>
    if r = .seq .wordB .eps ∧ t = litTmpl "str".toList then
      decide ("std::".toList ++ K ∈ knownNames) && endB K && aside ("std::".toList ++ K) S
    else needs '<' r || (decide (K = "string".toList) && decide (r = .seq (.chr '(') (.seq (.chr ')') .eps)))
  | .voidStar => apartB "void".toList S
  | .ext h k _ => identB h && decide (h ∈ reserved) && stopsB k && apartB h S
  | .amp _ => false

theorem apart_of {h : Str} {S : List Str} (ha : apartB h S = true) {l : List TTok} (hS : ∀ q, .known q ∈ l → q ∈ S) :
    ∀ q, .known q ∈ l → .word h ∉ cut (fun _ => false) q := fun q hq =>
  of_decide_eq_true (List.all_eq_true.1 ha q (hS q hq))

theorem aside_of {p : Str} {S : List Str} (ha : aside p S = true) {l : List TTok} (hS : ∀ q, .known q ∈ l → q ∈ S) :
    ∀ q, .known q ∈ l → q = p ∨ inert (cut (fun _ => false) p) (cut (fun _ => false) q) = true := fun q hq => by
  have := List.all_eq_true.1 ha q (hS q hq)
  rw [Bool.or_eq_true] at this
  exact this.imp of_decide_eq_true id

theorem known_char : ∀ q ∈ knownNames, ∀ p ∈ cut (fun _ => false) q, (match p with | .word w => decide (w.take 3 ≠ "cha".toList) | .sep _ => true) = true := by
  decide +kernel

theorem noChar {u : Char → Bool} {l : List TTok} (hl : TLexed u l) : ∀ w, .word w ∈ cut u (ttext l) → ¬ CharWord w := by
  intro w hw
  rw [cut_ttext hl] at hw
  rcases word_tpieces hw with h | ⟨q, hq, h⟩
  · exact (lexed_word hl h).2.2
  · rintro ⟨n, rfl⟩
    exact of_decide_eq_true (known_char q (lexed_known hl hq) _ h) rfl

theorem no_angle {u : Char → Bool} {l : List TTok} (hl : TLexed u l) {c : Char} (hc : c = '<' ∨ c = '>') : c ∉ ttext l := by
  have hk : ∀ q ∈ knownNames, '<' ∉ q ∧ '>' ∉ q := by decide +kernel
  intro hm
  obtain ⟨t, ht, hm⟩ := List.mem_flatMap.1 hm
  cases t with
  | word w =>
    have := (lexed_word hl ht).1.2 c hm
    rcases hc with rfl | rfl <;> cases this
  | known q =>
    have := hk q (lexed_known hl ht)
    rcases hc with rfl | rfl
    · exact this.1 hm
    · exact this.2 hm
  | sep d =>
    cases List.mem_singleton.1 hm
    have := lexed_sep hl ht
    rcases hc with rfl | rfl
    · exact this.2.2.1 rfl
    · exact this.2.2.2 rfl

/-- What holds between the rules. -/
structure Flat (u : Char → Bool) (S : List Str) (l : List TTok) : Prop where
  lexed : TLexed u l
  names : ∀ q, .known q ∈ l → q ∈ S

theorem flat_known {u : Char → Bool} {S : List Str} {l : List TTok} (h : Flat u S l) {p v : Str} (hv : v ∈ values) :
    Flat u (S.filter (fun q => decide (q ≠ p))) (l.map (putT (.known p) v)) := by
  refine ⟨lexed_put (fun c e => by cases e) (tword_value v hv) h.lexed, fun q hq => ?_⟩
  obtain ⟨t, ht, e⟩ := List.mem_map.1 hq
  have := putT_known e
  subst this
  refine List.mem_filter.2 ⟨h.names q ht, decide_eq_true ?_⟩
  rintro rfl
  rw [putT, if_pos rfl] at e
  cases e

theorem flat_word {u : Char → Bool} {S : List Str} {l : List TTok} (h : Flat u S l) {w v : Str} (hv : v ∈ values) :
    Flat u S (l.map (putT (.word w) v)) := by
  refine ⟨lexed_put (fun c e => by cases e) (tword_value v hv) h.lexed, fun q hq => ?_⟩
  obtain ⟨t, ht, e⟩ := List.mem_map.1 hq
  have := putT_known e
  subst this
  exact h.names q ht

theorem map_none {k : Kind} (h : k.key = none) (l : List TTok) : l.map k.actT = l := by
  have : k.actT = id := by funext t; unfold Kind.actT; rw [h]; rfl
  rw [this, List.map_id]

theorem actT_some {k : Kind} {x : TTok} {v : Str} (h : k.key = some (x, v)) : k.actT = putT x v := by
  funext t; unfold Kind.actT; rw [h]

theorem left_none {k : Kind} (h : k.key = none) (S : List Str) : k.left S = S := by unfold Kind.left; rw [h]
theorem left_known {k : Kind} {p v : Str} (h : k.key = some (.known p, v)) (S : List Str) : k.left S = S.filter (fun q => decide (q ≠ p)) := by
  unfold Kind.left; rw [h]
theorem left_word {k : Kind} {p v : Str} (h : k.key = some (.word p, v)) (S : List Str) : k.left S = S := by unfold Kind.left; rw [h]

theorem step_known {u : Char → Bool} (hu : SpaceApart u) {S : List Str} {l : List TTok} (h : Flat u S l) {k : Kind} {p v : Str} (hk : k.key = some (.known p, v))
    (hr : Phrase u k.rule.1 k.rule.2 p v) (hp : p ∈ knownNames) (hv : v ∈ values) (ha : aside p S = true) :
    sub u k.rule.1 k.rule.2 (ttext l) = ttext (l.map k.actT) ∧ Flat u (k.left S) (l.map k.actT) := by
  rw [actT_some hk, left_known hk]
  exact ⟨sub_known hu hr hp h.lexed (aside_of ha h.names), flat_known h hv⟩

theorem step_same {u : Char → Bool} {S : List Str} {l : List TTok} (h : Flat u S l) {k : Kind} (hk : k.key = none)
    (hs : sub u k.rule.1 k.rule.2 (ttext l) = ttext l) :
    sub u k.rule.1 k.rule.2 (ttext l) = ttext (l.map k.actT) ∧ Flat u (k.left S) (l.map k.actT) := by
  rw [map_none hk, left_none hk]
  exact ⟨hs, h⟩

theorem stdRe_word (K : Str) : stdRe K (.seq .wordB .eps) = wordRe ("std::".toList ++ K) := by
  show Re.seq .wordB (lits "std".toList (lits "::".toList (lits K _))) = .seq .wordB (lits ("std::".toList ++ K) _)
  rw [← lits_append, ← lits_append]
  rfl

theorem step_flat {u : Char → Bool} (hu : SpaceApart u) {S : List Str} {l : List TTok} (h : Flat u S l) {k : Kind} (hk : k.ok S = true) :
    sub u k.rule.1 k.rule.2 (ttext l) = ttext (l.map k.actT) ∧ Flat u (k.left S) (l.map k.actT) := by
  cases k with
  | two A B v =>
    unfold Kind.ok at hk
    simp only [Bool.and_eq_true] at hk
    obtain ⟨⟨⟨⟨⟨h1, h2⟩, h3⟩, h4⟩, h5⟩, h6⟩ := hk
    exact step_known hu h rfl (phrase_twoRe hu (beg_of h3) (beg_of h4) (end_of h5) v) (of_decide_eq_true h1) (of_decide_eq_true h2) h6
  | word x v =>
    unfold Kind.ok at hk
    simp only [Bool.and_eq_true] at hk
    obtain ⟨⟨h1, h2⟩, h3⟩ := hk
    rw [actT_some (k := .word x v) rfl, left_word (k := .word x v) rfl]
    exact ⟨sub_tword (ident_of_B h2) h.lexed (apart_of h3 h.names), flat_word h (of_decide_eq_true h1)⟩
  | long v =>
    unfold Kind.ok at hk
    simp only [Bool.and_eq_true] at hk
    exact step_known hu h rfl (phrase_wordRe (beg_of (by decide)) (end_of (by decide)) v) (by decide +kernel) (of_decide_eq_true hk.1) hk.2
  | const1 => exact step_same h rfl (sub_const1 hu _ (noChar h.lexed))
  | const2 => exact step_same h rfl (sub_const2 hu _ (noChar h.lexed))
  | std K r t =>
    rw [Kind.ok] at hk
    by_cases hr : r = .seq .wordB .eps ∧ t = litTmpl "str".toList
    · rw [if_pos hr] at hk
      simp only [Bool.and_eq_true] at hk
      obtain ⟨⟨h1, h2⟩, h3⟩ := hk
      obtain ⟨rfl, rfl⟩ := hr
      refine step_known hu h (p := "std::".toList ++ K) (v := "str".toList) (by rw [Kind.key, if_pos ⟨rfl, rfl⟩]) ?_ (of_decide_eq_true h1)
        (by decide +kernel) h3
      show Phrase u (stdRe K (.seq .wordB .eps)) _ _ _
      rw [stdRe_word]
      exact phrase_wordRe (begins_append' (beg_of (by decide))) (ends_append' (end_of h2)) _
    · rw [if_neg hr, Bool.or_eq_true] at hk
      refine step_same h (by rw [Kind.key, if_neg hr]) ?_
      rcases hk with hk | hk
      · refine sub_needs (c := '<') ?_ t (no_angle h.lexed (.inl rfl))
        exact needs_lits_right "std".toList (needs_lits_right "::".toList (needs_lits_right K hk))
      · rw [Bool.and_eq_true] at hk
        rw [of_decide_eq_true hk.1, of_decide_eq_true hk.2]
        exact sub_call t h.lexed
  | voidStar => exact step_same h rfl (sub_voidStar hu _ h.lexed (apart_of hk h.names))
  | ext x r t =>
    unfold Kind.ok at hk
    simp only [Bool.and_eq_true] at hk
    obtain ⟨⟨⟨h1, h2⟩, h3⟩, h4⟩ := hk
    refine step_same h rfl ?_
    refine sub_absent_word (ident_of_B h1) (headed_of h1 (stops_of hu h3)) (neverEmpty_lits (ident_of_B (u := u) h1).1 _) _ (fun hm => ?_)
    rw [cut_ttext h.lexed] at hm
    rcases word_tpieces hm with h5 | ⟨q, hq, h5⟩
    · exact (lexed_word h.lexed h5).2.1 (of_decide_eq_true h2)
    · exact apart_of h4 h.names q hq h5
  | amp c => cases hk

/-! ### The rules, one after the other -/

def okAll : List Kind → List Str → Bool
  | [], _ => true
  | k :: ks, S => k.ok S && okAll ks (k.left S)

def leftAll (ks : List Kind) (S : List Str) : List Str := ks.foldl (fun S k => k.left S) S

/-- What a token becomes. -/
def stepsT (ks : List Kind) (t : TTok) : TTok := ks.foldl (fun t k => k.actT t) t

theorem pass_flat {u : Char → Bool} (hu : SpaceApart u) : ∀ {ks : List Kind} {S : List Str} {l : List TTok}, Flat u S l → okAll ks S = true →
    passR u (ks.map Kind.rule) (ttext l) = ttext (l.map (stepsT ks)) ∧ Flat u (leftAll ks S) (l.map (stepsT ks))
  | [], S, l, h, _ => by
    have : l.map (stepsT []) = l := List.map_id l
    rw [this]
    exact ⟨rfl, h⟩
  | k :: ks, S, l, h, hk => by
    rw [okAll, Bool.and_eq_true] at hk
    obtain ⟨h1, h2⟩ := step_flat hu h hk.1
    obtain ⟨h3, h4⟩ := pass_flat hu h2 hk.2
    have e : l.map (stepsT (k :: ks)) = (l.map k.actT).map (stepsT ks) := by rw [List.map_map]; rfl
    rw [e]
    exact ⟨by rw [List.map_cons, passR_cons', h1, h3], h4⟩

theorem main_ok : okAll mainKinds knownNames = true := by decide +kernel
theorem main_left : leftAll mainKinds knownNames = headNames := by decide +kernel

def stepT (t : TTok) : TTok := stepsT mainKinds t

theorem key_sep {k : Kind} {x : TTok} {v : Str} (h : k.key = some (x, v)) (c : Char) : x ≠ .sep c := by
  rintro rfl
  cases k with
  | std K r t =>
    rw [Kind.key] at h
    by_cases hr : r = .seq .wordB .eps ∧ t = litTmpl "str".toList
    · rw [if_pos hr] at h; cases h
    · rw [if_neg hr] at h; cases h
  | _ => cases h

theorem stepT_sep (c : Char) : stepT (.sep c) = .sep c := by
  have : ∀ ks : List Kind, stepsT ks (.sep c) = .sep c := by
    intro ks
    induction ks with
    | nil => rfl
    | cons k ks ih =>
      show stepsT ks (k.actT (.sep c)) = _
      have : k.actT (.sep c) = .sep c := by
        unfold Kind.actT
        split
        · next x v e => rw [putT, if_neg (fun e' => key_sep e c e'.symm)]
        · rfl
      rw [this, ih]
  exact this _

theorem stepT_known : ∀ p ∈ knownNames, stepT (.known p) = if p ∈ headNames then .known p else .word (lookupOr knownTypes p) := by decide +kernel

theorem stepT_keys : ∀ q ∈ wordTypes, stepT (.word q.1) = .word (lookupOr wordTypes q.1) := by decide +kernel

/-- A word that is no key. -/
def keyIn (k : Kind) : Bool :=
  match k.key with
  | some (.word h, v) => decide (h ∈ wordTypes.map Prod.fst) || decide (h = v)
  | _ => true

theorem main_keys : ∀ k ∈ mainKinds, keyIn k = true := by
  rw [← List.all_eq_true]
  decide +kernel

theorem stepT_other {w : Str} (hw : w ∉ wordTypes.map Prod.fst) : stepT (.word w) = .word w := by
  have : ∀ ks : List Kind, (∀ k ∈ ks, keyIn k = true) → stepsT ks (.word w) = .word w := by
    intro ks
    induction ks with
    | nil => intro _; rfl
    | cons k ks ih =>
      intro hk
      show stepsT ks (k.actT (.word w)) = _
      have h1 := hk k (by simp)
      have : k.actT (.word w) = .word w := by
        unfold Kind.actT
        unfold keyIn at h1
        split
        · next x v e =>
          rw [e] at h1
          unfold putT
          split
          · next e2 =>
            subst e2
            dsimp only at h1
            rw [Bool.or_eq_true] at h1
            rcases h1 with h1 | h1
            · exact absurd (of_decide_eq_true h1) hw
            · rw [of_decide_eq_true h1]
          · rfl
        · rfl
      rw [this, ih (fun x hx => hk x (by simp [hx]))]
  exact this _ main_keys

theorem lookupOr_not {tbl : List (Str × Str)} {w : Str} (h : w ∉ tbl.map Prod.fst) : lookupOr tbl w = w := by
  unfold lookupOr
  have : tbl.find? (fun q => q.1 = w) = none := by
    rw [List.find?_eq_none]
    intro q hq e
    exact h (List.mem_map.2 ⟨q, hq, of_decide_eq_true e⟩)
  rw [this]
  rfl

theorem stepT_word (w : Str) : stepT (.word w) = .word (lookupOr wordTypes w) := by
  by_cases h : w ∈ wordTypes.map Prod.fst
  · obtain ⟨q, hq, rfl⟩ := List.mem_map.1 h
    exact stepT_keys q hq
  · rw [stepT_other h, lookupOr_not h]

end Verif.Re
