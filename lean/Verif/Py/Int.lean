import Verif.Py.StrLemmas

/-! Python's `str(n)` and `int(s, base)`.

Simplifications: the decimal digits outside ASCII that Python accepts (`int("٣")`), and the limit of 4300
digits on decimal strings, are left out: `pyInt` rejects the former and accepts the latter. -/

namespace Verif.Py

/-- Value of a digit in bases up to 36. -/
def digitVal (c : Char) : Option Nat :=
  let n := c.toNat
  if 48 ≤ n ∧ n ≤ 57 then some (n - 48)
  else if 97 ≤ n ∧ n ≤ 122 then some (n - 87)
  else if 65 ≤ n ∧ n ≤ 90 then some (n - 55)
  else none

/-- Digits in a base, with single underscores between them; the flag says that a digit comes just
before. -/
def digitsAux (base : Nat) : Nat → Bool → Str → Option Nat
  | acc, last, [] => if last then some acc else none
  | acc, last, c :: r =>
    if c = '_' then (if last then digitsAux base acc false r else none)
    else match digitVal c with
      | none => none
      | some d => if d < base then digitsAux base (acc * base + d) true r else none

/-- A non empty sequence of digits. -/
def digits (base : Nat) (s : Str) : Option Nat := digitsAux base 0 false s

/-- The digits after a `0x`, `0o` or `0b` (one underscore is allowed there). -/
def afterPrefix (base : Nat) (s : Str) : Option Nat :=
  match s with
  | '_' :: r => digits base r
  | s => digits base s

/-- The base a prefix stands for. -/
def prefixBase (c : Char) : Option Nat :=
  if c = 'x' ∨ c = 'X' then some 16 else if c = 'o' ∨ c = 'O' then some 8
  else if c = 'b' ∨ c = 'B' then some 2 else none

/-- `int(s, base)` once the blanks and the sign are removed; base 0 is that of Python literals. -/
def unsignedInt (base : Nat) (s : Str) : Option Nat :=
  match s with
  | '0' :: c :: r =>
    match prefixBase c with
    | some b =>
      if base = 0 ∨ base = b then afterPrefix b r
      else digits base s
    | none =>
      if base = 0 then (digits 10 s).filter (· = 0)   -- C octal literals are not Python literals
      else digits base s
  | s => digits (if base = 0 then 10 else base) s

/-- `int(s, base)`; `none` is a `ValueError`. -/
def pyInt (base : Nat) (s : Str) : Option Int :=
  match strip s with
  | '-' :: r => (unsignedInt base r).map (fun (n : Nat) => -(n : Int))
  | '+' :: r => (unsignedInt base r).map (fun (n : Nat) => (n : Int))
  | r => (unsignedInt base r).map (fun (n : Nat) => (n : Int))

/-- The character of a decimal digit. -/
def digitChar (d : Nat) : Char := Char.ofNat (48 + d)

/-- Decimal digits, with fuel. -/
def natStrAux : Nat → Nat → Str → Str
  | 0, _, acc => acc
  | fuel + 1, n, acc =>
    if n < 10 then digitChar n :: acc else natStrAux fuel (n / 10) (digitChar (n % 10) :: acc)

/-- `str(n)` for a natural number. -/
def natStr (n : Nat) : Str := natStrAux (n + 1) n []

/-- `str(n)` -/
def intStr (n : Int) : Str :=
  match n with
  | .ofNat k => natStr k
  | .negSucc k => '-' :: natStr (k + 1)

/-! ### `int(str(n)) == n` -/

theorem digitVal_digitChar : ∀ d, d < 10 → digitVal (digitChar d) = some d ∧ digitChar d ≠ '_' ∧
    isSpace (digitChar d) = false ∧ digitChar d ≠ '-' ∧ digitChar d ≠ '+' := by decide

theorem digitChar_zero_iff : ∀ d, d < 10 → (digitChar d = '0' ↔ d = 0) := by decide

theorem digitChar_prefix : ∀ d, d < 10 → prefixBase (digitChar d) = none := by decide

/-- The characters of `str(n)` are the digits of a list. -/
theorem natStrAux_spec : ∀ (fuel n : Nat) (acc : Str), n < fuel →
    ∃ ds : List Nat, ds ≠ [] ∧ (∀ d ∈ ds, d < 10) ∧ natStrAux fuel n acc = ds.map digitChar ++ acc ∧
      ds.foldl (fun a d => a * 10 + d) 0 = n ∧ (ds.head? = some 0 → n = 0 ∧ ds = [0])
  | 0, _, _, h => by omega
  | fuel + 1, n, acc, h => by
    unfold natStrAux
    by_cases h10 : n < 10
    · rw [if_pos h10]
      refine ⟨[n], by simp, by simpa using h10, rfl, by simp, ?_⟩
      intro hh
      simp at hh
      simp [hh]
    · rw [if_neg h10]
      obtain ⟨ds, h1, h2, h3, h4, h5⟩ := natStrAux_spec fuel (n / 10) (digitChar (n % 10) :: acc) (by omega)
      refine ⟨ds ++ [n % 10], by simp, ?_, ?_, ?_, ?_⟩
      · intro d hd
        rcases List.mem_append.1 hd with hd | hd
        · exact h2 d hd
        · simp at hd; omega
      · rw [h3]; simp
      · rw [List.foldl_append, h4]
        simp only [List.foldl_cons, List.foldl_nil]
        omega
      · intro hh
        have h0 : ds.head? = some 0 := by
          cases ds with
          | nil => exact absurd rfl h1
          | cons a as => simpa using hh
        have := (h5 h0).1
        omega

theorem natStr_spec (n : Nat) : ∃ ds : List Nat, ds ≠ [] ∧ (∀ d ∈ ds, d < 10) ∧ natStr n = ds.map digitChar ∧
    ds.foldl (fun a d => a * 10 + d) 0 = n ∧ (ds.head? = some 0 → n = 0 ∧ ds = [0]) := by
  obtain ⟨ds, h1, h2, h3, h4, h5⟩ := natStrAux_spec (n + 1) n [] (by omega)
  exact ⟨ds, h1, h2, by rw [natStr, h3]; simp, h4, h5⟩

/-- Reading digits. -/
theorem digitsAux_map (base : Nat) (ch : Nat → Char) (hch : ∀ d, d < base → digitVal (ch d) = some d ∧ ch d ≠ '_') :
    ∀ (ds : List Nat) (acc : Nat) (last : Bool), (∀ d ∈ ds, d < base) → (ds = [] → last = true) →
    digitsAux base acc last (ds.map ch) = some (ds.foldl (fun a d => a * base + d) acc) := by
  intro ds
  induction ds with
  | nil => intro acc last _ h; simp [digitsAux, h rfl]
  | cons d ds ih =>
    intro acc last h _
    obtain ⟨h1, h2⟩ := hch d (h d (by simp))
    rw [List.map_cons]
    unfold digitsAux
    rw [if_neg h2, h1]
    simp only []
    rw [if_pos (h d (by simp)), ih _ true (fun x hx => h x (by simp [hx])) (fun _ => rfl)]
    rfl

theorem digits_map (base : Nat) (ch : Nat → Char) (hch : ∀ d, d < base → digitVal (ch d) = some d ∧ ch d ≠ '_')
    (ds : List Nat) (hne : ds ≠ []) (h : ∀ d ∈ ds, d < base) :
    digits base (ds.map ch) = some (ds.foldl (fun a d => a * base + d) 0) :=
  digitsAux_map base ch hch ds 0 false h (fun h => absurd h hne)

theorem strip_ends {s : Str} (h1 : ∀ c, s.head? = some c → isSpace c = false)
    (h2 : ∀ c, s.getLast? = some c → isSpace c = false) : strip s = s := by
  unfold strip
  cases s with
  | nil => rfl
  | cons c cs =>
    rw [lstrip_cons_of_not (h1 c rfl)]
    rcases List.eq_nil_or_concat (c :: cs) with h | ⟨l, x, h⟩
    · cases h
    · rw [h, List.concat_eq_append]
      rw [rstrip_append_of_not]
      apply h2
      rw [h]; simp

theorem strip_digits {ds : List Nat} (h : ∀ d ∈ ds, d < 10) (pre : Str) (hpre : ∀ c ∈ pre, isSpace c = false) :
    strip (pre ++ ds.map digitChar) = pre ++ ds.map digitChar := by
  have key : ∀ c ∈ pre ++ ds.map digitChar, isSpace c = false := by
    intro c hc
    rcases List.mem_append.1 hc with hc | hc
    · exact hpre c hc
    · obtain ⟨d, hd, rfl⟩ := List.mem_map.1 hc
      exact (digitVal_digitChar d (h d hd)).2.2.1
  exact strip_ends (fun c hc => key c (List.mem_of_head? hc)) (fun c hc => key c (List.mem_of_getLast? hc))

theorem unsignedInt_natStr (base : Nat) (hb : base = 0 ∨ base = 10) (n : Nat) : unsignedInt base (natStr n) = some n := by
  obtain ⟨ds, h1, h2, h3, h4, h5⟩ := natStr_spec n
  have hd := digits_map 10 digitChar (fun d hd => ⟨(digitVal_digitChar d hd).1, (digitVal_digitChar d hd).2.1⟩) ds h1 h2
  rw [h4] at hd
  have hbb : (if base = 0 then 10 else base) = 10 := by rcases hb with rfl | rfl <;> rfl
  have hd' : digits (if base = 0 then 10 else base) (ds.map digitChar) = some n := by rw [hbb]; exact hd
  rw [h3]
  cases ds with
  | nil => exact absurd rfl h1
  | cons d ds =>
    by_cases hz : d = 0
    · subst hz
      have h0 := (h5 rfl).2
      rw [h0] at hd' ⊢
      simpa [unsignedInt, digitChar] using hd'
    · have hne : digitChar d ≠ '0' := fun h => hz ((digitChar_zero_iff d (h2 d (by simp))).1 h)
      unfold unsignedInt
      split
      · rename_i c r heq
        rw [List.map_cons] at heq
        exact absurd (List.cons.inj heq).1 hne
      · exact hd'

/-- Reading back a printed integer. -/
theorem pyInt_intStr (base : Nat) (hb : base = 0 ∨ base = 10) (n : Int) : pyInt base (intStr n) = some n := by
  cases n with
  | ofNat k =>
    obtain ⟨ds, h1, h2, h3, _, _⟩ := natStr_spec k
    have hu := unsignedInt_natStr base hb k
    unfold pyInt intStr
    have hs : strip (natStr k) = natStr k := by
      rw [h3]; simpa using strip_digits h2 [] (by simp)
    simp only []
    rw [hs]
    cases ds with
    | nil => exact absurd rfl h1
    | cons d ds =>
      have hd := digitVal_digitChar d (h2 d (by simp))
      rw [h3] at hu ⊢
      rw [List.map_cons] at hu ⊢
      split
      · rename_i r heq; exact absurd (List.cons.inj heq).1 hd.2.2.2.1
      · rename_i r heq; exact absurd (List.cons.inj heq).1 hd.2.2.2.2
      · rw [hu]; rfl
  | negSucc k =>
    obtain ⟨ds, h1, h2, h3, _, _⟩ := natStr_spec (k + 1)
    have hu := unsignedInt_natStr base hb (k + 1)
    unfold pyInt intStr
    have hs : strip ('-' :: natStr (k + 1)) = '-' :: natStr (k + 1) := by
      rw [h3]; exact strip_digits h2 ['-'] (by decide)
    simp only []
    rw [hs]
    simp only []
    rw [hu]
    rfl

end Verif.Py
