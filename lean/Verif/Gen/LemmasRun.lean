import Verif.Gen.Lemmas

/-! Lemmas on the writing of the three codes. -/

namespace Verif.Gen
open Verif.Py Spec

variable {C : Type}

def tokP : Str := "litgen_pydef".toList
def tokS : Str := "litgen_stub".toList
def tokG : Str := "litgen_glue_code".toList

/-- The tokens whose regions are written in a file. -/
def written (p s g x : Str) : List Str :=
  (if x = p then [tokP] else []) ++ (if x = s then [tokS] else []) ++ (if x = g then [tokG] else [])

/-- A state of the files that may be reached from `fs0`. -/
structure Inv (fs0 : Fs) (p s g : Str) (F : Str → List Piece) (fs : Fs) : Prop where
  out : ∀ x, x ∈ [p, s, g] → ∃ ps, fs x = some (text ps) ∧ SameBut (written p s g x) (F x) ps ∧ (∀ q ∈ ps, q.WF) ∧
    ∀ l ∈ ps.flatMap Piece.lines, '\n' ∉ l
  rest : ∀ x, x ∉ [p, s, g] → fs x = fs0 x

theorem set_same (fs : Fs) (p : Str) (c : Option Str) : fs.set p c p = c := by simp [Fs.set]
theorem set_ne (fs : Fs) (p x : Str) (c : Option Str) (h : x ≠ p) : fs.set p c x = fs x := by simp [Fs.set, h]

theorem tokP_mem : tokP ∈ tokens := by decide
theorem tokS_mem : tokS ∈ tokens := by decide
theorem tokG_mem : tokG ∈ tokens := by decide

/-- The files after the three codes have been written in files with these pieces. -/
def result (e : Env C) (gen : Generator C) (fs : Fs) (p s g : Str) (ap as ag : List Piece) : Fs :=
  let fs1 := fs.set p (some (text (fillM tokP (pydefCode e gen) ap)))
  let fs2 := fs1.set s (some ((if e.runBlack then e.black else id) (text (fillM tokS (stubCode e gen) as))))
  fs2.set g (some (text (fillM tokG (glueCode e gen) (if g = p then fillM tokP (pydefCode e gen) ag else ag))))

theorem set_set (fs : Fs) (p : Str) (a b : Option Str) : (fs.set p a).set p b = fs.set p b := by
  funext x; unfold Fs.set; split <;> rfl

theorem write_result (e : Env C) (gen : Generator C) (fs : Fs) (p s gl : Str) (ap as ag : List Piece)
    (hsp : s ≠ p) (hsg : s ≠ gluePath p gl)
    (hp : fs p = some (text ap)) (hpw : WellFormed [tokP] ap)
    (hs : fs s = some (text as)) (hsw : WellFormed [tokS] as)
    (hg : fs (gluePath p gl) = some (text ag)) (hgw : WellFormed [tokG] ag)
    (hpg : gluePath p gl = p → ap = ag)
    (hc : NoMarker (pydefCode e gen)) :
    writeGenerated e gen fs p s gl = (result e gen fs p s (gluePath p gl) ap as ag, none) := by
  unfold writeGenerated
  rw [show "litgen_pydef".toList = tokP from rfl, show "litgen_stub".toList = tokS from rfl]
  rw [write_region fs p tokP _ ap tokP_mem hp hpw]
  simp only
  rw [write_region _ s tokS _ as tokS_mem (by rw [set_ne _ _ _ _ hsp]; exact hs) hsw]
  simp only
  have hform : ∀ f : Fs, formatStub e (f.set s (some (text (fillM tokS (stubCode e gen) as)))) s =
      f.set s (some ((if e.runBlack then e.black else id) (text (fillM tokS (stubCode e gen) as)))) := by
    intro f
    unfold formatStub
    cases e.runBlack with
    | false => rfl
    | true =>
      simp only [if_true]
      rw [set_set, set_same]
      rfl
  rw [hform]
  unfold writeGlue
  rw [show "litgen_glue_code".toList = tokG from rfl]
  have hpath : (if gl.length = 0 then p else gl) = gluePath p gl := by
    unfold gluePath
    cases gl with
    | nil => rfl
    | cons c gl => rfl
  simp only [hpath]
  have hag : WellFormed [tokG] (if gluePath p gl = p then fillM tokP (pydefCode e gen) ag else ag) := by
    split
    · exact fill_wellFormed _ _ hc hgw
    · exact hgw
  rw [write_region _ (gluePath p gl) tokG _ _ tokG_mem ?_ hag]
  · rfl
  · rw [set_ne _ _ _ _ (Ne.symm hsg)]
    split
    · rename_i h
      rw [h, set_same, hpg h]
    · rename_i h
      rw [set_ne _ _ _ _ h, hg]

theorem written_p (p s g : Str) (h1 : s ≠ p) : written p s g p = tokP :: (if p = g then [tokG] else []) := by
  unfold written; rw [if_pos rfl, if_neg (Ne.symm h1)]; rfl
theorem written_s (p s g : Str) (h1 : s ≠ p) (h2 : s ≠ g) : written p s g s = [tokS] := by
  unfold written; rw [if_pos rfl, if_neg h1, if_neg h2]; rfl
theorem written_g (p s g : Str) (h2 : s ≠ g) : written p s g g = (if g = p then [tokP] else []) ++ [tokG] := by
  unfold written; rw [if_pos rfl, if_neg (Ne.symm h2), List.append_nil]

/-- Well-formed pieces. -/
def OK (ps : List Piece) : Prop := (∀ q ∈ ps, q.WF) ∧ ∀ l ∈ ps.flatMap Piece.lines, '\n' ∉ l

theorem ok_fill (t code : Str) (hc : NoMarker code) (ps : List Piece) (h : OK ps) : OK (fillM t code ps) :=
  ⟨fill_wf t code (allClear_of_noMarker hc) ps h.1, fill_nl t code ps h.2⟩

theorem wellFormed_of_same {W : List Str} {t : Str} {a b : List Piece} (h : WellFormed [t] a) (hs : SameBut W a b) (hb : OK b) :
    WellFormed [t] b := ⟨hb.1, hb.2, fun u hu => sameBut_regions hs u (h.2.2 u hu)⟩

theorem filter_P : [tokP].filter (· ≠ tokP) = [] := by decide +kernel
theorem filter_PG : [tokP, tokG].filter (· ≠ tokP) = [tokG] := by decide +kernel
theorem filter_G : [tokG].filter (· ≠ tokG) = [] := by decide +kernel
theorem filter_S : [tokS].filter (· ≠ tokS) = [] := by decide +kernel

theorem fill_eq {t : Str} (ht : [t].filter (· ≠ t) = []) (code : Str) {a b : List Piece} (h : SameBut [t] a b) :
    fillM t code a = fillM t code b := by
  have := fill_sameBut t code h
  rw [ht] at this
  exact sameBut_none this

theorem fill_fill_eq (c d : Str) {a b : List Piece} (h : SameBut [tokP, tokG] a b) :
    fillM tokG d (fillM tokP c a) = fillM tokG d (fillM tokP c b) := by
  have := fill_sameBut tokP c h
  rw [filter_PG] at this
  exact fill_eq filter_G d this

theorem result_eq (e : Env C) (gen : Generator C) (fs0 fs : Fs) (p s g : Str) (F : Str → List Piece) (ap as ag : List Piece)
    (hsp : s ≠ p) (hsg : s ≠ g) (h1 : SameBut (written p s g p) (F p) ap) (h2 : SameBut [tokS] (F s) as)
    (h3 : SameBut (written p s g g) (F g) ag) (hrest : ∀ x, x ∉ [p, s, g] → fs x = fs0 x) :
    result e gen fs p s g ap as ag = result e gen fs0 p s g (F p) (F s) (F g) := by
  funext x
  unfold result
  by_cases hxg : x = g
  · subst hxg
    rw [set_same, set_same]
    by_cases hp : x = p
    · subst hp
      rw [if_pos rfl, if_pos rfl]
      rw [written_g _ _ _ hsg, if_pos rfl] at h3
      rw [fill_fill_eq _ _ (sameBut_symm h3)]
    · rw [if_neg hp, if_neg hp]
      rw [written_g _ _ _ hsg, if_neg hp] at h3
      rw [fill_eq filter_G _ (sameBut_symm h3)]
  · rw [set_ne _ _ _ _ hxg, set_ne _ _ _ _ hxg]
    by_cases hxs : x = s
    · subst hxs
      rw [set_same, set_same, fill_eq filter_S _ (sameBut_symm h2)]
    · rw [set_ne _ _ _ _ hxs, set_ne _ _ _ _ hxs]
      by_cases hxp : x = p
      · subst hxp
        rw [set_same, set_same]
        rw [written_p _ _ _ hsp, if_neg hxg] at h1
        rw [fill_eq filter_P _ (sameBut_symm h1)]
      · rw [set_ne _ _ _ _ hxp, set_ne _ _ _ _ hxp]
        exact hrest x (by simp [hxg, hxs, hxp])

theorem result_inv (e : Env C) (gen : Generator C) (fs0 fs : Fs) (p s g : Str) (F : Str → List Piece) (ap as ag : List Piece)
    (hc : CodesClear e gen) (hf : FormatsBodies e (F s))
    (hsp : s ≠ p) (hsg : s ≠ g) (h1 : SameBut (written p s g p) (F p) ap) (h2 : SameBut [tokS] (F s) as)
    (h3 : SameBut (written p s g g) (F g) ag) (o1 : OK ap) (o2 : OK as) (o3 : OK ag) (hrest : ∀ x, x ∉ [p, s, g] → fs x = fs0 x) :
    Inv fs0 p s g F (result e gen fs p s g ap as ag) := by
  refine ⟨fun x hx => ?_, fun x hx => ?_⟩
  · unfold result
    by_cases hxg : x = g
    · subst hxg
      rw [set_same]
      by_cases hp : x = p
      · subst hp
        rw [if_pos rfl]
        have hok := ok_fill tokG _ hc.2.2 _ (ok_fill tokP _ hc.1 ag o3)
        refine ⟨_, rfl, ?_, hok.1, hok.2⟩
        rw [written_g _ _ _ hsg, if_pos rfl] at h3 ⊢
        exact sameBut_trans (sameBut_trans h3 (sameBut_mono (by simp) (sameBut_fill tokP _ ag)))
          (sameBut_mono (by simp) (sameBut_fill tokG _ _))
      · rw [if_neg hp]
        have hok := ok_fill tokG _ hc.2.2 ag o3
        refine ⟨_, rfl, ?_, hok.1, hok.2⟩
        rw [written_g _ _ _ hsg, if_neg hp] at h3 ⊢
        exact sameBut_trans h3 (sameBut_fill tokG _ _)
    · rw [set_ne _ _ _ _ hxg]
      by_cases hxs : x = s
      · subst hxs
        rw [set_same, written_s _ _ _ hsp hsg]
        have hok := ok_fill tokS _ hc.2.1 as o2
        have hsame := sameBut_trans h2 (sameBut_fill tokS (stubCode e gen) as)
        cases hb : e.runBlack with
        | false => exact ⟨_, rfl, hsame, hok.1, hok.2⟩
        | true =>
          obtain ⟨rs, r1, r2, r3, r4⟩ := hf hb _ hsame hok.1 hok.2
          exact ⟨rs, congrArg some r1, r2, r3, r4⟩
      · rw [set_ne _ _ _ _ hxs]
        have hxp : x = p := by simpa [hxs, hxg] using hx
        subst hxp
        rw [set_same]
        have hok := ok_fill tokP _ hc.1 ap o1
        refine ⟨_, rfl, ?_, hok.1, hok.2⟩
        rw [written_p _ _ _ hsp, if_neg hxg] at h1 ⊢
        exact sameBut_trans h1 (sameBut_fill tokP _ _)
  · have := hrest x hx
    simp only [List.mem_cons, List.not_mem_nil, or_false, not_or] at hx
    unfold result
    rw [set_ne _ _ _ _ hx.2.2, set_ne _ _ _ _ hx.2.1, set_ne _ _ _ _ hx.1, this]

theorem inv_init {e : Env C} {fs0 : Fs} {p s gl : Str} {F : Str → List Piece} (ho : Outputs e fs0 p s gl F) :
    Inv fs0 p s (gluePath p gl) F fs0 := by
  refine ⟨fun x hx => ?_, fun _ _ => rfl⟩
  simp only [List.mem_cons, List.not_mem_nil, or_false] at hx
  rcases hx with rfl | rfl | rfl
  · exact ⟨F x, ho.pydef.1, sameBut_refl _ _, ho.pydef.2.1, ho.pydef.2.2.1⟩
  · exact ⟨F x, ho.stub.1, sameBut_refl _ _, ho.stub.2.1, ho.stub.2.2.1⟩
  · exact ⟨F _, ho.glue.1, sameBut_refl _ _, ho.glue.2.1, ho.glue.2.2.1⟩

/-- Writing the codes: no error, the files stay in the reachable states, and the result does not depend on what was written before. -/
theorem write_step {e : Env C} {fs0 : Fs} {p s gl : Str} {F : Str → List Piece} (ho : Outputs e fs0 p s gl F)
    (gen : Generator C) (hc : CodesClear e gen) (fs : Fs) (hi : Inv fs0 p s (gluePath p gl) F fs) :
    (writeGenerated e gen fs p s gl).2 = none ∧ Inv fs0 p s (gluePath p gl) F (writeGenerated e gen fs p s gl).1 ∧
    writeGenerated e gen fs p s gl = writeGenerated e gen fs0 p s gl := by
  obtain ⟨h1, h2, h3, hsp, hsg, hf⟩ := ho
  obtain ⟨as, s1, s2, s3⟩ := hi.out s (by simp)
  rw [written_s p s _ hsp hsg] at s2
  have hr0 := write_result e gen fs0 p s gl (F p) (F s) (F (gluePath p gl)) hsp hsg h1.1 h1.2 h2.1 h2.2 h3.1 h3.2 (fun h => by rw [h]) hc.1
  by_cases hg : gluePath p gl = p
  · obtain ⟨ap, p1, p2, p3⟩ := hi.out p (by simp)
    have p2' : SameBut (written p s (gluePath p gl) (gluePath p gl)) (F (gluePath p gl)) ap := by
      have e : ∀ x, x = p → SameBut (written p s x p) (F p) ap → SameBut (written p s x x) (F x) ap := by rintro x rfl h; exact h
      exact e _ hg p2
    have hr := write_result e gen fs p s gl ap as ap hsp hsg p1 (wellFormed_of_same h1.2 p2 p3) s1 (wellFormed_of_same h2.2 s2 s3)
      (by rw [hg]; exact p1) (wellFormed_of_same h3.2 p2' p3) (fun _ => rfl) hc.1
    rw [hr, hr0]
    exact ⟨rfl, result_inv e gen fs0 fs p s _ F ap as ap hc hf hsp hsg p2 s2 p2' p3 s3 p3 hi.rest,
      by rw [result_eq e gen fs0 fs p s _ F ap as ap hsp hsg p2 s2 p2' hi.rest]⟩
  · obtain ⟨ap, p1, p2, p3⟩ := hi.out p (by simp)
    obtain ⟨ag, g1, g2, g3⟩ := hi.out (gluePath p gl) (by simp)
    have hr := write_result e gen fs p s gl ap as ag hsp hsg p1 (wellFormed_of_same h1.2 p2 p3) s1 (wellFormed_of_same h2.2 s2 s3)
      g1 (wellFormed_of_same h3.2 g2 g3) (fun h => absurd h hg) hc.1
    rw [hr, hr0]
    exact ⟨rfl, result_inv e gen fs0 fs p s _ F ap as ag hc hf hsp hsg p2 s2 g2 p3 s3 g3 hi.rest,
      by rw [result_eq e gen fs0 fs p s _ F ap as ag hsp hsg p2 s2 g2 hi.rest]⟩

/-- Every state of the generator while it processes the headers has codes without markers. -/
theorem run_files {e : Env C} {fs0 : Fs} {p s gl : Str} {F : Str → List Piece} (ho : Outputs e fs0 p s gl F) :
    ∀ (hs : List Str) (gen gen' : Generator C) (fs : Fs), Inv fs0 p s (gluePath p gl) F fs →
      (∀ h ∈ hs, h ∉ [p, s, gluePath p gl]) → processAll e fs0 gen hs = some gen' →
      (∀ pre, pre ≠ [] → pre <+: hs → ∀ g, processAll e fs0 gen pre = some g → CodesClear e g) →
      hs ≠ [] → runFiles e gen fs hs p s gl = ((gen', (writeGenerated e gen' fs0 p s gl).1), none) ∧
        Inv fs0 p s (gluePath p gl) F (writeGenerated e gen' fs0 p s gl).1 := by
  intro hs
  induction hs with
  | nil => intro _ _ _ _ _ _ _ h; exact absurd rfl h
  | cons h hs ih =>
    intro gen gen' fs hi hh hpa hcl _
    have hfh : fs h = fs0 h := hi.rest h (hh h (by simp))
    unfold processAll at hpa
    cases hc : fs0 h with
    | none => rw [hc] at hpa; simp at hpa
    | some code =>
      rw [hc] at hpa
      simp only at hpa
      have hpf : processFile e gen fs h = some (processCode e gen code h) := by unfold processFile; rw [hfh, hc]; rfl
      have hclr : CodesClear e (processCode e gen code h) :=
        hcl [h] (by simp) (List.prefix_iff_eq_take.2 (by simp)) _ (by simp [processAll, hc])
      obtain ⟨w1, w2, w3⟩ := write_step ho (processCode e gen code h) hclr fs hi
      unfold runFiles
      rw [hpf]
      simp only [w1]
      cases hs with
      | nil =>
        rw [processAll] at hpa
        obtain rfl := Option.some.inj hpa
        refine ⟨by rw [runFiles, w3], by rw [← w3]; exact w2⟩
      | cons h' hs =>
        exact ih (processCode e gen code h) gen' _ w2 (fun x hx => hh x (List.mem_cons_of_mem _ hx)) hpa
          (fun pre hne hpre g hg => hcl (h :: pre) (by simp) (List.cons_prefix_cons.2 ⟨rfl, hpre⟩) g
            (by unfold processAll; rw [hc]; exact hg)) (by simp)

end Verif.Gen
