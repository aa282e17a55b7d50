import Verif.Gen.Spec
import Verif.Markers.Lemmas
import Verif.Py.StrLemmas

/-! Lemmas on files with several kinds of regions. -/

namespace Verif.Gen
open Verif.Py Spec
open Markers (ins fillCum Clear write_wf clear_ins)
open Markers.Spec (opening closing Mentions indented leading regions)

/-- The file as the writer sees it for one token. -/
def view (t : Str) (ps : List Piece) : List Markers.Spec.Piece :=
  ps.flatMap fun
    | .outside l => [.outside l]
    | .region u o b c => if u = t then [.region o b c] else (o :: b ++ [c]).map .outside

/-- What the writer makes of the regions of one token. -/
def fillM (t : Str) : Str → List Piece → List Piece
  | _, [] => []
  | code, .outside l :: ps => .outside l :: fillM t code ps
  | code, .region u o b c :: ps =>
    if u = t then .region u o (lines (ins true o code)) c :: fillM t (ins true o code) ps
    else .region u o b c :: fillM t code ps

theorem flatMap_outside (ls : List Str) : (ls.map Markers.Spec.Piece.outside).flatMap Markers.Spec.Piece.lines = ls := by
  induction ls with
  | nil => rfl
  | cons l ls ih => rw [List.map_cons, List.flatMap_cons, ih]; rfl

theorem view_lines (t : Str) (ps : List Piece) : (view t ps).flatMap Markers.Spec.Piece.lines = ps.flatMap Piece.lines := by
  induction ps with
  | nil => rfl
  | cons p ps ih =>
    unfold view at ih ⊢
    rw [List.flatMap_cons, List.flatMap_append, ih, List.flatMap_cons]
    congr 1
    cases p with
    | outside l => rfl
    | region u o b c =>
      simp only
      split
      · simp [Markers.Spec.Piece.lines, Piece.lines]
      · rw [flatMap_outside]; rfl

theorem fillCum_outside (code : Str) (ls : List Str) (ps : List Markers.Spec.Piece) :
    fillCum true code (ls.map .outside ++ ps) = ls.map .outside ++ fillCum true code ps := by
  induction ls with
  | nil => rfl
  | cons l ls ih => simp [fillCum, ih]

theorem view_fill (t code : Str) (ps : List Piece) : view t (fillM t code ps) = fillCum true code (view t ps) := by
  induction ps generalizing code with
  | nil => rfl
  | cons p ps ih =>
    cases p with
    | outside l =>
      have := ih code
      unfold view at this ⊢
      rw [fillM, List.flatMap_cons, List.flatMap_cons, this]
      rfl
    | region u o b c =>
      unfold fillM
      by_cases h : u = t
      · rw [if_pos h]
        have := ih (ins true o code)
        unfold view at this ⊢
        rw [List.flatMap_cons, List.flatMap_cons, this]
        simp only [h, if_true]
        rfl
      · rw [if_neg h]
        have := ih code
        unfold view at this ⊢
        rw [List.flatMap_cons, List.flatMap_cons, this]
        simp only [h, if_false]
        rw [fillCum_outside]

theorem tokens_distinct : ∀ t ∈ tokens, ∀ u ∈ tokens, (u ≠ t → opening t ≠ opening u ∧ closing t ≠ closing u) ∧
    opening t ≠ closing u ∧ closing t ≠ opening u := by decide +kernel

theorem view_wf (t : Str) (ht : t ∈ tokens) (ps : List Piece) (h : ∀ p ∈ ps, p.WF) : ∀ q ∈ view t ps, q.WF t := by
  intro q hq
  unfold view at hq
  obtain ⟨p, hp, hq'⟩ := List.mem_flatMap.1 hq
  clear hq
  have hq := hq'
  clear hq'
  have hw := h p hp
  cases p with
  | outside l =>
    rw [List.mem_singleton.1 hq]
    exact hw t ht
  | region u o b c =>
    obtain ⟨hu, ho, hb, hc⟩ := hw
    have hd := tokens_distinct t ht u hu
    simp only at hq
    split at hq
    · rename_i e
      subst e
      rw [List.mem_singleton.1 hq]
      exact ⟨ho.1, (ho.2 u ht).2 hd.2.2, fun l hl => hb l hl u ht, (hc.2 u ht).1 hd.2.1, hc.1⟩
    · rename_i e
      obtain ⟨l, hl, rfl⟩ := List.mem_map.1 hq
      have hd1 := hd.1 e
      rw [List.cons_append, List.mem_cons, List.mem_append, List.mem_singleton] at hl
      rcases hl with rfl | hl | rfl
      · exact ⟨(ho.2 t ht).1 hd1.1, (ho.2 t ht).2 hd.2.2⟩
      · exact hb l hl t ht
      · exact ⟨(hc.2 t ht).1 hd.2.1, (hc.2 t ht).2 hd1.2⟩

theorem regions_outside (ls : List Str) (ps : List Markers.Spec.Piece) : regions (ls.map .outside ++ ps) = regions ps := by
  induction ls with
  | nil => rfl
  | cons l ls ih => simp [regions, ih]

theorem view_regions (t : Str) (ps : List Piece) (h : ∃ o b c, Piece.region t o b c ∈ ps) : 0 < regions (view t ps) := by
  induction ps with
  | nil => obtain ⟨o, b, c, h⟩ := h; simp at h
  | cons p ps ih =>
    obtain ⟨o, b, c, h⟩ := h
    unfold view
    rw [List.flatMap_cons]
    cases p with
    | outside l =>
      rcases List.mem_cons.1 h with h | h
      · simp at h
      · have := ih ⟨o, b, c, h⟩
        simpa [regions, view] using this
    | region u o' b' c' =>
      simp only
      split
      · simp [regions]
      · rename_i hne
        rcases List.mem_cons.1 h with h | h
        · injection h with h; exact absurd h.symm hne
        · rw [regions_outside]; exact ih ⟨o, b, c, h⟩

theorem text_lines (ps : List Piece) (hne : ps.flatMap Piece.lines ≠ []) (h : ∀ l ∈ ps.flatMap Piece.lines, '\n' ∉ l) :
    lines (text ps) = ps.flatMap Piece.lines := lines_unlines hne h

theorem write_region (fs : Fs) (path t code : Str) (ps : List Piece) (ht : t ∈ tokens) (hf : fs path = some (text ps))
    (hwf : WellFormed [t] ps) : writeRegion fs path t code = (fs.set path (some (text (fillM t code ps))), none) := by
  obtain ⟨h1, h2, h3⟩ := hwf
  have hreg := view_regions t ps (h3 t (by simp))
  have hne : ps.flatMap Piece.lines ≠ [] := by
    rw [← view_lines t]
    exact Markers.flatMap_lines_ne_nil (Markers.regions_pos_ne_nil hreg)
  have := write_wf t code (text ps) true (view t ps) (view_wf t ht ps h1) hreg (by rw [text_lines ps hne h2, view_lines])
  unfold writeRegion
  rw [hf, this]
  simp only
  have e : Markers.Spec.fileText (fillCum true code (view t ps)) = text (fillM t code ps) := by
    unfold Markers.Spec.fileText text
    rw [← view_fill, view_lines]
  rw [e]

/-! ### Regions -/

theorem sameBut_refl (W : List Str) (ps : List Piece) : SameBut W ps ps := by
  induction ps with
  | nil => exact .nil
  | cons p ps ih =>
    cases p with
    | outside l => exact .outside l _ _ ih
    | region t o b c => exact .same t o b c _ _ ih

theorem sameBut_symm {W : List Str} {a b : List Piece} (h : SameBut W a b) : SameBut W b a := by
  induction h with
  | nil => exact .nil
  | outside l _ _ _ ih => exact .outside l _ _ ih
  | same t o b c _ _ _ ih => exact .same t o b c _ _ ih
  | region t o b b' c _ _ ht _ ih => exact .region t o b' b c _ _ ht ih

theorem sameBut_trans {W : List Str} {a b c : List Piece} (h : SameBut W a b) (h' : SameBut W b c) : SameBut W a c := by
  induction h generalizing c with
  | nil => exact h'
  | outside l _ _ _ ih =>
    cases h' with
    | outside _ _ qs h' => exact .outside l _ _ (ih h')
  | same t o b d _ _ _ ih =>
    cases h' with
    | same _ _ _ _ _ qs h' => exact .same t o b d _ _ (ih h')
    | region _ _ _ b' _ _ qs ht h' => exact .region t o b b' d _ _ ht (ih h')
  | region t o b b' d _ _ ht _ ih =>
    cases h' with
    | same _ _ _ _ _ qs h' => exact .region t o b b' d _ _ ht (ih h')
    | region _ _ _ b'' _ _ qs _ h' => exact .region t o b b'' d _ _ ht (ih h')

theorem sameBut_mono {W V : List Str} {a b : List Piece} (hs : ∀ t ∈ W, t ∈ V) (h : SameBut W a b) : SameBut V a b := by
  induction h with
  | nil => exact .nil
  | outside l _ _ _ ih => exact .outside l _ _ ih
  | same t o b c _ _ _ ih => exact .same t o b c _ _ ih
  | region t o b b' c _ _ ht _ ih => exact .region t o b b' c _ _ (hs t ht) ih

theorem sameBut_none {a b : List Piece} (h : SameBut [] a b) : a = b := by
  induction h with
  | nil => rfl
  | outside l _ _ _ ih => rw [ih]
  | same t o b c _ _ _ ih => rw [ih]
  | region t o b b' c _ _ ht _ _ => simp at ht

theorem sameBut_fill (t code : Str) (ps : List Piece) : SameBut [t] ps (fillM t code ps) := by
  induction ps generalizing code with
  | nil => exact .nil
  | cons p ps ih =>
    cases p with
    | outside l => exact .outside l _ _ (ih code)
    | region u o b c =>
      unfold fillM
      split
      · rename_i h
        exact .region u o b _ c _ _ (by simp [h]) (ih _)
      · exact .same u o b c _ _ (ih code)

theorem fill_sameBut {W : List Str} (t code : Str) {a b : List Piece} (h : SameBut W a b) :
    SameBut (W.filter (· ≠ t)) (fillM t code a) (fillM t code b) := by
  induction h generalizing code with
  | nil => exact .nil
  | outside l _ _ _ ih => exact .outside l _ _ (ih code)
  | same u o b c _ _ _ ih =>
    unfold fillM
    split
    · exact .same u o _ c _ _ (ih _)
    · exact .same u o b c _ _ (ih code)
  | region u o b b' c _ _ ht _ ih =>
    unfold fillM
    split
    · exact .same u o _ c _ _ (ih _)
    · rename_i hne
      exact .region u o b b' c _ _ (List.mem_filter.2 ⟨ht, by simpa using hne⟩) (ih code)

theorem sameBut_regions {W : List Str} {a b : List Piece} (h : SameBut W a b) (t : Str) (hr : ∃ o b c, Piece.region t o b c ∈ a) :
    ∃ o x c, Piece.region t o x c ∈ b := by
  induction h with
  | nil => obtain ⟨_, _, _, h⟩ := hr; simp at h
  | outside l _ _ _ ih =>
    obtain ⟨o, x, c, h⟩ := hr
    rcases List.mem_cons.1 h with h | h
    · simp at h
    · obtain ⟨o, x, c, h⟩ := ih ⟨o, x, c, h⟩
      exact ⟨o, x, c, List.mem_cons_of_mem _ h⟩
  | same u o b c _ _ _ ih =>
    obtain ⟨o', x, c', h⟩ := hr
    rcases List.mem_cons.1 h with h | h
    · exact ⟨o', x, c', by rw [h]; exact List.mem_cons_self⟩
    · obtain ⟨o, x, c, h⟩ := ih ⟨o', x, c', h⟩
      exact ⟨o, x, c, List.mem_cons_of_mem _ h⟩
  | region u o b b' c _ _ _ _ ih =>
    obtain ⟨o', x, c', h⟩ := hr
    rcases List.mem_cons.1 h with h | h
    · injection h with h
      exact ⟨o, b', c, by rw [h]; exact List.mem_cons_self⟩
    · obtain ⟨o, x, c, h⟩ := ih ⟨o', x, c', h⟩
      exact ⟨o, x, c, List.mem_cons_of_mem _ h⟩

/-! ### Codes without markers -/

def AllClear (code : Str) : Prop := ∀ t ∈ tokens, Clear (opening t) code ∧ Clear (closing t) code

theorem allClear_of_noMarker {code : Str} (h : NoMarker code) : AllClear code := fun t ht =>
  ⟨fun _ hl hm => (h t ht).1 (Markers.mentions_mono (Markers.mem_lines_infix hl) hm),
   fun _ hl hm => (h t ht).2 (Markers.mentions_mono (Markers.mem_lines_infix hl) hm)⟩

theorem allClear_ins {code : Str} (h : AllClear code) (o : Str) : AllClear (ins true o code) := fun t ht =>
  ⟨clear_ins rfl (h t ht).1, clear_ins rfl (h t ht).2⟩

theorem fill_wf (t code : Str) (hc : AllClear code) (ps : List Piece) (h : ∀ p ∈ ps, p.WF) : ∀ p ∈ fillM t code ps, p.WF := by
  induction ps generalizing code with
  | nil => intro p hp; simp [fillM] at hp
  | cons q ps ih =>
    have hq := h q (by simp)
    have hps := fun p hp => h p (List.mem_cons_of_mem q hp)
    intro p hp
    cases q with
    | outside l =>
      rw [fillM] at hp
      rcases List.mem_cons.1 hp with rfl | hp
      · exact hq
      · exact ih code hc hps p hp
    | region u o b c =>
      rw [fillM] at hp
      split at hp
      · rcases List.mem_cons.1 hp with rfl | hp
        · obtain ⟨h1, h2, _, h4⟩ := hq
          exact ⟨h1, h2, fun l hl t ht => ⟨(allClear_ins hc o t ht).1 l hl, (allClear_ins hc o t ht).2 l hl⟩, h4⟩
        · exact ih _ (allClear_ins hc o) hps p hp
      · rcases List.mem_cons.1 hp with rfl | hp
        · exact hq
        · exact ih code hc hps p hp

theorem fill_nl (t code : Str) (ps : List Piece) (h : ∀ l ∈ ps.flatMap Piece.lines, '\n' ∉ l) :
    ∀ l ∈ (fillM t code ps).flatMap Piece.lines, '\n' ∉ l := by
  induction ps generalizing code with
  | nil => intro l hl; simp [fillM] at hl
  | cons q ps ih =>
    rw [List.flatMap_cons] at h
    have h1 := fun l hl => h l (List.mem_append_left _ hl)
    have h2 := fun l hl => h l (List.mem_append_right _ hl)
    intro l hl
    cases q with
    | outside x =>
      rw [fillM, List.flatMap_cons] at hl
      rcases List.mem_append.1 hl with hl | hl
      · exact h1 l hl
      · exact ih code h2 l hl
    | region u o b c =>
      rw [fillM] at hl
      split at hl
      · rw [List.flatMap_cons] at hl
        rcases List.mem_append.1 hl with hl | hl
        · simp only [Piece.lines, List.cons_append, List.mem_cons, List.mem_append, List.not_mem_nil, or_false] at hl h1
          rcases hl with rfl | hl | rfl
          · exact h1 l (.inl rfl)
          · exact not_mem_of_mem_lines hl
          · exact h1 l (.inr (.inr rfl))
        · exact ih _ h2 l hl
      · rw [List.flatMap_cons] at hl
        rcases List.mem_append.1 hl with hl | hl
        · exact h1 l hl
        · exact ih code h2 l hl

theorem fill_wellFormed (t code : Str) (hc : NoMarker code) {needed : List Str} {ps : List Piece} (h : WellFormed needed ps) :
    WellFormed needed (fillM t code ps) :=
  ⟨fill_wf t code (allClear_of_noMarker hc) ps h.1, fill_nl t code ps h.2.1,
   fun u hu => sameBut_regions (sameBut_fill t code ps) u (h.2.2 u hu)⟩

end Verif.Gen
