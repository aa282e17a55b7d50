import Verif.Keyword.Model
import Verif.Keyword.Spec
import Verif.Name.Lemmas

/-! Lemmas on reserved words, identifiers and prefixes. -/

namespace Verif.Keyword
open Verif.Py Verif.Name Verif.Repl Spec

theorem mem_kwlist (s : Str) : s ∈ kwlist ↔ Reserved s := by
  unfold kwlist Reserved
  rw [List.mem_map]
  constructor
  · rintro ⟨w, hw, rfl⟩
    rw [String.ofList_toList]
    have : ∀ w ∈ ["False", "None", "True", "and", "as", "assert", "async", "await", "break", "class", "continue", "def", "del", "elif",
       "else", "except", "finally", "for", "from", "global", "if", "import", "in", "is", "lambda", "nonlocal", "not", "or",
       "pass", "raise", "return", "try", "while", "with", "yield"], w ∈ ["False", "await", "else", "import", "pass", "None", "break", "except", "in", "raise", "True", "class", "finally",
        "is", "return", "and", "continue", "for", "lambda", "try", "as", "def", "from", "nonlocal", "while", "assert", "del",
        "global", "not", "with", "async", "elif", "if", "or", "yield"] := by decide +kernel
    exact this w hw
  · intro h
    refine ⟨String.ofList s, ?_, String.toList_ofList⟩
    have : ∀ w ∈ ["False", "await", "else", "import", "pass", "None", "break", "except", "in", "raise", "True", "class", "finally",
        "is", "return", "and", "continue", "for", "lambda", "try", "as", "def", "from", "nonlocal", "while", "assert", "del",
        "global", "not", "with", "async", "elif", "if", "or", "yield"], w ∈ ["False", "None", "True", "and", "as", "assert", "async", "await", "break", "class", "continue", "def", "del", "elif",
       "else", "except", "finally", "for", "from", "global", "if", "import", "in", "is", "lambda", "nonlocal", "not", "or",
       "pass", "raise", "return", "try", "while", "with", "yield"] := by decide +kernel
    exact this _ h

theorem kw_underscore : ∀ w ∈ kwlist, w ++ ['_'] ∉ kwlist := by decide +kernel

theorem escape_not_mem (s : Str) : escape s ∉ kwlist := by
  unfold escape
  split
  · exact kw_underscore s ‹_›
  · assumption

theorem letter_iff (c : Char) : Letter c ↔ isLow c = true ∨ isUp c = true ∨ c = '_' := by
  rw [isLow_iff, isUp_iff]; rfl

theorem digit_iff (c : Char) : Digit c ↔ isDig c = true := by
  unfold Digit isDig
  simp only [Char.le_def, UInt32.le_iff_toNat_le, Bool.and_eq_true, decide_eq_true_eq]
  rfl

theorem letter_lowC {c : Char} (h : Letter c) : Letter (lowC c) := by
  rw [letter_iff] at h ⊢
  rcases h with h | h | h
  · rw [lowC_of_not_up (low_not_up h)]; exact .inl h
  · left
    unfold isUp at h
    simp only [Bool.and_eq_true, decide_eq_true_eq] at h
    unfold lowC isUp isLow
    simp only [h, decide_true, Bool.and_self, if_true]
    rw [toNat_ofNat (by omega)]
    simp only [Bool.and_eq_true, decide_eq_true_eq]
    omega
  · subst h; rw [lowC_underscore]; exact .inr (.inr rfl)

theorem digit_lowC {c : Char} (h : Digit c) : lowC c = c := by
  rw [digit_iff] at h
  apply lowC_of_not_up
  unfold isDig at h
  simp only [Bool.and_eq_true, decide_eq_true_eq] at h
  unfold isUp
  simp only [Bool.and_eq_false_iff, decide_eq_false_iff_not]
  omega

/-- Every character of `t` comes from `s` or is an underscore, and the first character is the same. -/
def Grown (s t : Str) : Prop := t.head? = s.head? ∧ ∀ c ∈ t, c ∈ s ∨ c = '_'

theorem Grown.refl (s : Str) : Grown s s := ⟨rfl, fun _ h => .inl h⟩

theorem Grown.trans {a b c : Str} (h1 : Grown a b) (h2 : Grown b c) : Grown a c :=
  ⟨h2.1.trans h1.1, fun x hx => (h2.2 x hx).elim (fun h => h1.2 x h) .inr⟩

theorem Grown.cons {a b : Str} (c : Char) (h : ∀ x ∈ b, x ∈ a ∨ x = '_') : Grown (c :: a) (c :: b) := by
  refine ⟨rfl, fun x hx => ?_⟩
  rcases List.mem_cons.1 hx with rfl | hx
  · exact .inl (by simp)
  · exact (h x hx).imp (fun h => by simp [h]) id

theorem sub1_grown (s : Str) : ∀ b, Grown s (sub1 b s) := by
  induction hn : s.length using Nat.strongRecOn generalizing s with
  | _ n ih =>
    intro b
    match s, hn with
    | [], _ => simp [sub1, Grown]
    | [c], _ => unfold sub1; split <;> first | exact Grown.refl _ | (simp [sub1, Grown])
    | c :: u :: rest, hn =>
      unfold sub1
      have ih1 := ih rest.length (by simp at hn; omega) rest rfl
      have ih2 := ih (u :: rest).length (by simp at hn ⊢; omega) (u :: rest) rfl
      split
      · exact Grown.cons c (ih2 true).2
      · simp only
        split
        · refine Grown.cons c ?_
          intro x hx
          rcases List.mem_cons.1 hx with rfl | hx
          · exact .inr rfl
          · rcases List.mem_cons.1 hx with rfl | hx
            · exact .inl (by simp)
            · exact ((ih1 true).2 x hx).imp (fun h => by simp [h]) id
        · exact Grown.cons c (ih2 false).2

theorem sub2_grown (s : Str) : Grown s (sub2 s) := by
  induction hn : s.length using Nat.strongRecOn generalizing s with
  | _ n ih =>
    unfold sub2
    split
    · rename_i a b u rest
      split
      · rename_i h
        obtain ⟨rfl, rfl, _⟩ := h
        refine Grown.cons '_' ?_
        intro x hx
        rcases List.mem_cons.1 hx with rfl | hx
        · exact .inl (by simp)
        · exact ((ih rest.length (by simp at hn; omega) rest rfl).2 x hx).imp (fun h => by simp [h]) id
      · exact Grown.cons a (ih (b :: u :: rest).length (by simp at hn ⊢; omega) _ rfl).2
    · exact Grown.refl _

theorem sub3_grown (s : Str) : Grown s (sub3 s) := by
  induction hn : s.length using Nat.strongRecOn generalizing s with
  | _ n ih =>
    unfold sub3
    split
    · rename_i a u rest
      split
      · refine Grown.cons a ?_
        intro x hx
        rcases List.mem_cons.1 hx with rfl | hx
        · exact .inr rfl
        · rcases List.mem_cons.1 hx with rfl | hx
          · exact .inl (by simp)
          · exact ((ih rest.length (by simp at hn; omega) rest rfl).2 x hx).imp (fun h => by simp [h]) id
      · exact Grown.cons a (ih (u :: rest).length (by simp at hn ⊢; omega) _ rfl).2
    · exact Grown.refl _

theorem grown_identifier {s t : Str} (h : Grown s t) (hs : Identifier s) : Identifier t := by
  obtain ⟨⟨c, r, rfl, hc⟩, hall⟩ := hs
  refine ⟨?_, fun x hx => ?_⟩
  · have h1 := h.1
    cases t with
    | nil => simp at h1
    | cons d r' => simp only [List.head?_cons, Option.some.injEq] at h1; subst h1; exact ⟨d, r', rfl, hc⟩
  · rcases h.2 x hx with hx | rfl
    · exact hall x hx
    · exact .inl (.inr (.inr rfl))

theorem lower_identifier {s : Str} (hs : Identifier s) : Identifier (lower s) := by
  obtain ⟨⟨c, r, rfl, hc⟩, hall⟩ := hs
  refine ⟨⟨lowC c, lower r, rfl, letter_lowC hc⟩, fun x hx => ?_⟩
  obtain ⟨y, hy, rfl⟩ := List.mem_map.1 hx
  rcases hall y hy with h | h
  · exact .inl (letter_lowC h)
  · rw [digit_lowC h]; exact .inr h

theorem snake_identifier {s : Str} (hs : Identifier s) : Identifier (toSnakeCase s) :=
  lower_identifier (grown_identifier (((sub1_grown s false).trans (sub2_grown _)).trans (sub3_grown _)) hs)

theorem escape_identifier {s : Str} (hs : Identifier s) : Identifier (escape s) := by
  unfold escape
  split
  · obtain ⟨⟨c, r, rfl, hc⟩, hall⟩ := hs
    refine ⟨⟨c, r ++ ['_'], rfl, hc⟩, fun x hx => ?_⟩
    rcases List.mem_append.1 hx with hx | hx
    · exact hall x hx
    · simp only [List.mem_singleton] at hx; subst hx; exact .inl (.inr (.inr rfl))
  · exact hs

theorem convert_identifier (o : Options) {s : Str} (hs : Identifier s) : Identifier (convert o s) := by
  unfold convert
  split
  · exact escape_identifier (snake_identifier hs)
  · exact escape_identifier hs

theorem convert_not_mem (o : Options) (s : Str) : convert o s ∉ kwlist := by
  unfold convert
  split <;> exact escape_not_mem _

/-! ### Prefixes -/

theorem upC_iff (a b : Char) : upC a = upC b ↔ SameLetter a b := by
  have hup : ∀ c : Char, (upC c).toNat = if isLow c then c.toNat - 32 else c.toNat := by
    intro c
    unfold upC
    by_cases h : isLow c = true
    · simp only [h, if_true]
      unfold isLow at h
      simp only [Bool.and_eq_true, decide_eq_true_eq] at h
      exact toNat_ofNat (by omega)
    · simp [h]
  have hinj : upC a = upC b ↔ (upC a).toNat = (upC b).toNat := ⟨fun h => by rw [h], char_toNat_inj⟩
  have heq : a = b ↔ a.toNat = b.toNat := ⟨fun h => by rw [h], char_toNat_inj⟩
  have hA : ∀ c : Char, ('A' ≤ c ∧ c ≤ 'Z') ↔ (65 ≤ c.toNat ∧ c.toNat ≤ 90) := by
    intro c
    simp only [Char.le_def, UInt32.le_iff_toNat_le]
    rfl
  rw [hinj, hup, hup]
  unfold SameLetter
  rw [heq, hA, hA]
  unfold isLow
  by_cases h1 : 97 ≤ a.toNat ∧ a.toNat ≤ 122 <;> by_cases h2 : 97 ≤ b.toNat ∧ b.toNat ≤ 122 <;>
    simp only [h1, h2, Bool.and_eq_true, decide_eq_true_eq, and_self, if_true, if_false] <;>
    omega

theorem upper_iff : ∀ (a b : Str), upper a = upper b ↔ SameText a b := by
  intro a b
  unfold upper SameText
  constructor
  · intro h
    have hl : a.length = b.length := by simpa using congrArg List.length h
    refine ⟨hl, fun i x y hx hy => ?_⟩
    rw [← upC_iff]
    have := congrArg (fun l => l[i]?) h
    simpa [hx, hy] using this
  · rintro ⟨hl, h⟩
    apply List.ext_getElem (by simpa using hl)
    intro i h1 h2
    simp only [List.length_map] at h1 h2
    rw [List.getElem_map, List.getElem_map, upC_iff]
    exact h i _ _ (List.getElem?_eq_getElem h1) (List.getElem?_eq_getElem h2)

theorem upC_underscore {c : Char} : upC c = '_' ↔ c = '_' := by
  have h : upC '_' = '_' := by decide +kernel
  constructor
  · intro hc
    rw [← h, upC_iff] at hc
    rcases hc with hc | ⟨_, hc⟩ | ⟨_, hc⟩
    · exact hc
    · rename_i h1
      exfalso
      have h3 : c.toNat = 63 := by
        have : ('_' : Char).toNat = 95 := by decide
        omega
      have h4 := hc.1
      simp only [Char.le_def, UInt32.le_iff_toNat_le] at h4
      change 65 ≤ c.toNat at h4
      omega
    · exact absurd hc (by decide)
  · rintro rfl; exact h

theorem startsWith_upper (name pre : Str) : startsWith (upper name) (upper pre) = true ↔
    ∃ p short, SameText p pre ∧ name = p ++ short := by
  unfold startsWith
  rw [List.isPrefixOf_iff_prefix]
  constructor
  · rintro ⟨t, ht⟩
    refine ⟨name.take pre.length, name.drop pre.length, ?_, (List.take_append_drop _ _).symm⟩
    rw [← upper_iff]
    have := congrArg (List.take pre.length) ht
    unfold upper at this ⊢
    rw [List.take_append_of_le_length (by simp), ← List.map_take] at this
    rw [List.map_take, ← this, List.take_of_length_le (Nat.le_refl _)]
  · rintro ⟨p, short, hp, rfl⟩
    rw [← upper_iff] at hp
    exact ⟨upper short, by rw [← hp]; simp [upper]⟩

theorem startsWith_upper' (name pre : Str) : startsWith (upper name) (upper pre ++ ['_']) = true ↔
    ∃ p short, SameText p pre ∧ name = p ++ ['_'] ++ short := by
  have h : upper pre ++ ['_'] = upper (pre ++ ['_']) := by
    have : upC '_' = '_' := upC_underscore.2 rfl
    simp [upper, this]
  rw [h, startsWith_upper]
  constructor
  · rintro ⟨p, short, hp, rfl⟩
    have hl : p.length = pre.length + 1 := by simpa using hp.1
    refine ⟨p.take pre.length, short, ?_, ?_⟩
    · rw [← upper_iff] at hp ⊢
      have := congrArg (List.take pre.length) hp
      unfold upper at this ⊢
      rw [List.map_take, this, ← List.map_take, List.take_left' rfl]
    · rw [← upper_iff] at hp
      have := congrArg (List.drop pre.length) hp
      unfold upper at this
      rw [← List.map_drop, ← List.map_drop, List.drop_left' rfl] at this
      have hd : p.drop pre.length = ['_'] := by
        match hpd : p.drop pre.length with
        | [] => rw [hpd] at this; simp at this
        | c :: d :: r => rw [hpd] at this; simp at this
        | [c] =>
          rw [hpd] at this
          simp only [List.map_cons, List.map_nil, List.cons.injEq, and_true] at this
          have h2 : upC '_' = '_' := upC_underscore.2 rfl
          rw [h2] at this
          rw [upC_underscore.1 this]
      have := List.take_append_drop pre.length p
      rw [hd] at this
      rw [this]
  · rintro ⟨p, short, hp, rfl⟩
    refine ⟨p ++ ['_'], short, ?_, rfl⟩
    rw [← upper_iff] at hp ⊢
    unfold upper at hp ⊢
    rw [List.map_append, List.map_append, hp]

theorem dropPrefix_some {pre name short : Str} (h : WithoutPrefix pre name short) : dropPrefix name pre = short := by
  obtain ⟨p, hp, h⟩ := h
  have hl := hp.1
  unfold dropPrefix
  rcases h with rfl | ⟨rfl, hn⟩
  · rw [if_pos ((startsWith_upper' _ _).2 ⟨p, short, hp, rfl⟩)]
    rw [← hl]
    exact List.drop_left' (by simp)
  · rw [if_neg, if_pos ((startsWith_upper _ _).2 ⟨p, short, hp, rfl⟩)]
    · rw [← hl]; exact List.drop_left' rfl
    · rw [startsWith_upper']
      rintro ⟨q, s2, hq, he⟩
      rw [List.append_assoc] at he
      have hqp : p.length = q.length := by rw [hl, hq.1]
      have := (List.append_inj he hqp).2
      rw [this] at hn
      simp at hn

theorem dropPrefix_none {pre name : Str} (h : ¬ ∃ short, WithoutPrefix pre name short) : dropPrefix name pre = name := by
  unfold dropPrefix
  rw [if_neg, if_neg]
  · rw [startsWith_upper]
    rintro ⟨p, short, hp, rfl⟩
    by_cases hs : short.head? = some '_'
    · cases short with
      | nil => simp at hs
      | cons c r =>
        simp only [List.head?_cons, Option.some.injEq] at hs
        subst hs
        exact h ⟨r, p, hp, .inl (by simp)⟩
    · exact h ⟨short, p, hp, .inr ⟨rfl, hs⟩⟩
  · rw [startsWith_upper']
    rintro ⟨p, short, hp, rfl⟩
    exact h ⟨short, p, hp, .inl rfl⟩

theorem dropPrefix_suffix (name pre : Str) : ∃ k, dropPrefix name pre = name.drop k := by
  unfold dropPrefix
  split
  · exact ⟨_, rfl⟩
  · split
    · exact ⟨_, rfl⟩
    · exact ⟨0, rfl⟩

theorem dropPrivate_suffix (o : Options) (enum name : Str) : ∃ k, dropPrivate o enum name = name.drop k := by
  unfold dropPrivate
  split
  · split
    · exact dropPrefix_suffix _ _
    · split
      · exact dropPrefix_suffix _ _
      · exact ⟨0, rfl⟩
  · exact ⟨0, rfl⟩

theorem repair_identifier {value name : Str} (hv : Identifier value) (hn : ∀ c ∈ name, c ∈ value) :
    ∃ r, repairName value name = some r ∧ Identifier r := by
  unfold repairName
  have hall : ∀ c ∈ (if name.length = 0 then value else name), Letter c ∨ Digit c := by
    intro c hc
    split at hc
    · exact hv.2 c hc
    · exact hv.2 c (hn c hc)
  have hne : (if name.length = 0 then value else name) ≠ [] := by
    split
    · obtain ⟨⟨c, r, rfl, _⟩, _⟩ := hv; simp
    · rename_i h; intro h'; rw [h'] at h; simp at h
  generalize (if name.length = 0 then value else name) = w at hall hne
  cases w with
  | nil => exact absurd rfl hne
  | cons c cs =>
    refine ⟨_, rfl, ?_⟩
    by_cases hd : isDig c = true
    · rw [if_pos hd]
      refine ⟨⟨'_', _, rfl, .inr (.inr rfl)⟩, fun x hx => ?_⟩
      rcases List.mem_cons.1 hx with rfl | hx
      · exact .inl (.inr (.inr rfl))
      · exact hall x hx
    · rw [if_neg hd]
      refine ⟨⟨c, cs, rfl, ?_⟩, hall⟩
      rcases hall c (by simp) with h | h
      · exact h
      · exact absurd ((digit_iff c).1 h) hd

end Verif.Keyword
