import Verif.Props.C49
import Verif.Spec.Cell

/-! C104: the irregularity of a cell and the terrain around it. -/

namespace Itm.Props
open Itm Spec

theorem upper_ge {x : List ℝ} {b hi : ℝ} (h : UpperDecile x b) (hc : ((x.length : ℝ) - 1) / 10 + 1 ≤ x.countP (fun y => decide (hi ≤ y))) : hi ≤ b := by
  by_contra hn
  push Not at hn
  have := List.countP_mono_left (l := x) (p := fun y => decide (hi ≤ y)) (q := fun y => decide (b < y))
    (fun y _ hy => by simp only [decide_eq_true_eq] at *; exact hn.trans_le hy)
  have : (x.countP (fun y => decide (hi ≤ y)) : ℝ) ≤ x.countP (fun y => decide (b < y)) := by exact_mod_cast this
  linarith [h.2]

theorem lower_le {x : List ℝ} {a lo : ℝ} (h : LowerDecile x a) (hc : ((x.length : ℝ) - 1) / 10 + 1 ≤ x.countP (fun y => decide (y ≤ lo))) : a ≤ lo := by
  by_contra hn
  push Not at hn
  have := List.countP_mono_left (l := x) (p := fun y => decide (y ≤ lo)) (q := fun y => decide (y < a))
    (fun y _ hy => by simp only [decide_eq_true_eq] at *; exact hy.trans_lt hn)
  have : (x.countP (fun y => decide (y ≤ lo)) : ℝ) ≤ x.countP (fun y => decide (y < a)) := by exact_mod_cast this
  linarith [h.2]

theorem raw_of {x : Pixel ℝ} {c : ℝ} (h : x.height = some c) : x.raw = c := by unfold Pixel.raw; rw [h]; rfl

theorem raw_gap {x : Pixel ℝ} (h : x.height = none) : x.raw = -9999 := by
  unfold Pixel.raw; rw [h]; show (-9999.0 : ℝ) = -9999; norm_num

theorem count_raw (w : List (Pixel ℝ)) (P : ℝ → Bool) : (w.map Pixel.raw).countP P = w.countP (fun x => P x.raw) := by
  rw [List.countP_map]; rfl

/-- What the function measures: the rounded distance between deciles of everything in the rectangle, gaps counting as 9999 metres below sea level. -/
theorem C104_window {w : List (Pixel ℝ)} (hw : w ≠ []) :
    ∃ n a b, terrainArea w = .ok n ∧ LowerDecile (w.map Pixel.raw) a ∧ UpperDecile (w.map Pixel.raw) b ∧ a ≤ b ∧ NearestInt (b - a) n :=
  C51_deciles (by simpa using hw)

/-- **C104** Where the rectangle holds nothing but measured pixels of the cell, the irregularity is that of the cell.
Full statement: the irregularity is always that of the measured pixels of the cell. False, see `C104_refuted` and `C104_gaps_refuted`. -/
theorem C104_partial {w : List (Pixel ℝ)} (h : foreign w = 0) (hw : w ≠ []) :
    ∃ n a b, terrainArea w = .ok n ∧ LowerDecile (cellHeights w) a ∧ UpperDecile (cellHeights w) b ∧ a ≤ b ∧ NearestInt (b - a) n := by
  have e : cellHeights w = w.map Pixel.raw := by
    unfold foreign at h
    unfold cellHeights
    rw [List.countP_eq_zero] at h
    clear hw
    induction w with
    | nil => rfl
    | cons x w ih =>
      have h0 := h x (by simp)
      obtain ⟨t, i⟩ := x
      cases t <;> cases i <;> simp at h0
      rw [List.filterMap_cons, List.map_cons, ih fun y hy => h y (List.mem_cons_of_mem _ hy)]
      rfl
  rw [e]
  exact C104_window hw

/-- Few foreign pixels do little harm: while they are at most a tenth, the irregularity stays below the range of the heights in the cell. -/
theorem C104_few {w : List (Pixel ℝ)} (hw : w ≠ []) (h : (foreign w : ℝ) ≤ ((w.length : ℝ) - 1) / 10) {lo hi : ℝ} (hr : ∀ y ∈ cellHeights w, lo ≤ y ∧ y ≤ hi) :
    ∃ n, terrainArea w = .ok n ∧ 0 ≤ n ∧ (n : ℝ) ≤ hi - lo + 1 / 2 := by
  obtain ⟨n, a, b, e, ha, hb, hab, hn⟩ := C104_window hw
  have good : ∀ x ∈ w, (!x.inside || x.height.isNone) = false → lo ≤ x.raw ∧ x.raw ≤ hi := by
    intro x hx hg
    obtain ⟨t, i⟩ := x
    cases t <;> cases i <;> simp at hg
    exact hr _ (by unfold cellHeights; rw [List.mem_filterMap]; exact ⟨_, hx, rfl⟩)
  have l : (w.map Pixel.raw).length = w.length := by simp
  have h1 : lo ≤ a := by
    by_contra hc
    push Not at hc
    have := ha.1
    rw [count_raw, l] at this
    have m := List.countP_mono_left (l := w) (p := fun x => decide (x.raw ≤ a)) (q := fun x => !x.inside || x.height.isNone) (fun x hx hy => by
      by_contra k
      have := (good x hx (Bool.eq_false_iff.2 k)).1
      simp only [decide_eq_true_eq] at hy
      linarith)
    have m : (w.countP (fun x => decide (x.raw ≤ a)) : ℝ) ≤ foreign w := by exact_mod_cast m
    linarith
  have h2 : b ≤ hi := by
    by_contra hc
    push Not at hc
    have := hb.1
    rw [count_raw, l] at this
    have m := List.countP_mono_left (l := w) (p := fun x => decide (b ≤ x.raw)) (q := fun x => !x.inside || x.height.isNone) (fun x hx hy => by
      by_contra k
      have := (good x hx (Bool.eq_false_iff.2 k)).2
      simp only [decide_eq_true_eq] at hy
      linarith)
    have m : (w.countP (fun x => decide (b ≤ x.raw)) : ℝ) ≤ foreign w := by exact_mod_cast m
    linarith
  have hn' := abs_le.1 hn
  refine ⟨n, e, ?_, by linarith⟩
  have : (-1 : ℝ) < n := by linarith
  have : (-1 : ℤ) < n := by exact_mod_cast this
  omega

/-- More than a tenth do any harm: whatever the cell looks like, the irregularity is at least the difference of two heights that more than a
tenth of the pixels of the rectangle are above and below. -/
theorem C104_many {w : List (Pixel ℝ)} (hw : w ≠ []) {lo hi : ℝ} (h1 : ((w.length : ℝ) - 1) / 10 + 1 ≤ w.countP (fun x => decide (hi ≤ x.raw)))
    (h2 : ((w.length : ℝ) - 1) / 10 + 1 ≤ w.countP (fun x => decide (x.raw ≤ lo))) :
    ∃ n, terrainArea w = .ok n ∧ hi - lo - 1 / 2 ≤ n := by
  obtain ⟨n, a, b, e, ha, hb, hab, hn⟩ := C104_window hw
  have l : (w.map Pixel.raw).length = w.length := by simp
  have u := upper_ge hb (hi := hi) (by rw [count_raw, l]; exact h1)
  have v := lower_le ha (lo := lo) (by rw [count_raw, l]; exact h2)
  have hn' := abs_le.1 hn
  exact ⟨n, e, by linarith⟩

/-- Gaps in more than a tenth of the rectangle: an irregularity of ten kilometres. -/
theorem C104_gaps {w : List (Pixel ℝ)} (h1 : ((w.length : ℝ) - 1) / 10 + 1 ≤ w.countP (fun x => x.height.isNone)) {c : ℝ}
    (h2 : ((w.length : ℝ) - 1) / 10 + 1 ≤ w.countP (fun x => decide (c ≤ x.raw))) : ∃ n, terrainArea w = .ok n ∧ 9998 + c ≤ n := by
  have hw : w ≠ [] := by rintro rfl; norm_num at h1
  obtain ⟨n, e, h⟩ := C104_many hw (lo := -9999) h2 (h1.trans (by
    exact_mod_cast List.countP_mono_left fun x _ hx => by
      rw [raw_gap (Option.isNone_iff_eq_none.1 hx)]; simp))
  exact ⟨n, e, by linarith⟩

/-- Two heights: `k` pixels at `lo`, `m` at `hi`, each more than a tenth. -/
theorem two_heights {w : List (Pixel ℝ)} {lo : ℝ} {H : ℕ} (hw : w ≠ []) (h : ∀ x ∈ w, x.raw = lo ∨ x.raw = lo + H)
    (h1 : ((w.length : ℝ) - 1) / 10 + 1 ≤ w.countP (fun x => decide (lo + H ≤ x.raw)))
    (h2 : ((w.length : ℝ) - 1) / 10 + 1 ≤ w.countP (fun x => decide (x.raw ≤ lo))) : terrainArea w = .ok (H : ℤ) := by
  obtain ⟨n, e, g⟩ := C104_many hw h1 h2
  have H0 : (0 : ℝ) ≤ H := Nat.cast_nonneg H
  have b := (C51_range (lo := lo) (hi := lo + H) e (fun y hy => by
    obtain ⟨x, hx, rfl⟩ := List.mem_map.1 hy
    rcases h x hx with k | k <;> rw [k] <;> linarith) (fun y hy => by
    obtain ⟨x, hx, rfl⟩ := List.mem_map.1 hy
    rcases h x hx with k | k <;> rw [k] <;> linarith)).2
  have r : PyNum.roundInt (lo + H - lo : ℝ) = (H : ℤ) := by
    rw [show (lo + H - lo : ℝ) = ((H : ℤ) : ℝ) by push_cast; ring]; exact round_int H
  rw [r] at b
  have g' : ((H : ℤ) : ℝ) - 1 < n := by push_cast; linarith
  have : (H : ℤ) - 1 < n := by exact_mod_cast g'
  rw [e, show n = (H : ℤ) by omega]

/-- **C104** (refuted) A flat cell may get any irregularity: eight tenths of the rectangle are a flat cell, entirely measured, and the
corners (of a disc they make 21 percent) decide. -/
theorem C104_refuted (H : ℕ) : ∃ w : List (Pixel ℝ), (∀ x ∈ w, x.height.isSome) ∧ (∀ y ∈ cellHeights w, y = 0) ∧ 8 * w.length ≤ 10 * (cellHeights w).length ∧
    terrainArea w = .ok (H : ℤ) := by
  refine ⟨List.replicate 8 ⟨some 0, true⟩ ++ List.replicate 2 ⟨some H, false⟩, ?_, ?_, ?_, ?_⟩
  · intro x hx; simp only [List.mem_append, List.mem_replicate] at hx; rcases hx with ⟨-, rfl⟩ | ⟨-, rfl⟩ <;> rfl
  · intro y hy
    simp [cellHeights] at hy
    exact hy
  · simp [cellHeights]
  · refine two_heights (lo := 0) (by simp) ?_ ?_ ?_
    · intro x hx; simp only [List.mem_append, List.mem_replicate] at hx
      rcases hx with ⟨-, rfl⟩ | ⟨-, rfl⟩
      · left; rfl
      · right; rw [zero_add]; rfl
    · rw [List.countP_append, List.countP_replicate (n := 2), if_pos (by rw [decide_eq_true_eq, zero_add]; exact le_refl (H : ℝ))]
      simp only [List.length_append, List.length_replicate]
      push_cast
      have : (0 : ℝ) ≤ (List.replicate 8 (⟨some 0, true⟩ : Pixel ℝ)).countP (fun x => decide (0 + (H : ℝ) ≤ x.raw)) := Nat.cast_nonneg _
      linarith
    · rw [List.countP_append, List.countP_replicate (n := 8), if_pos (by rw [decide_eq_true_eq]; exact le_refl (0 : ℝ))]
      simp only [List.length_append, List.length_replicate]
      push_cast
      have : (0 : ℝ) ≤ (List.replicate 2 (⟨some (H : ℝ), false⟩ : Pixel ℝ)).countP (fun x => decide (x.raw ≤ 0)) := Nat.cast_nonneg _
      linarith

/-- **C104** (refuted) Nor do gaps count as unknown: a cell that is flat where it is measured, with gaps in a fifth of its pixels and no other
pixel in the rectangle, gets its height above -9999 metres as irregularity. -/
theorem C104_gaps_refuted (c : ℕ) : ∃ w : List (Pixel ℝ), (∀ x ∈ w, x.inside = true) ∧ (∀ y ∈ cellHeights w, y = c) ∧ 8 * w.length ≤ 10 * (cellHeights w).length ∧
    terrainArea w = .ok ((9999 + c : ℕ) : ℤ) := by
  have r : (⟨none, true⟩ : Pixel ℝ).raw = -9999 := raw_gap rfl
  have r' : (⟨some (c : ℝ), true⟩ : Pixel ℝ).raw = c := rfl
  have e : (-9999 : ℝ) + ((9999 + c : ℕ) : ℝ) = c := by push_cast; ring
  refine ⟨List.replicate 8 ⟨some c, true⟩ ++ List.replicate 2 ⟨none, true⟩, ?_, ?_, ?_, ?_⟩
  · intro x hx; simp only [List.mem_append, List.mem_replicate] at hx; rcases hx with ⟨-, rfl⟩ | ⟨-, rfl⟩ <;> rfl
  · intro y hy
    simp [cellHeights] at hy
    exact hy
  · simp [cellHeights]
  · refine two_heights (lo := -9999) (by simp) ?_ ?_ ?_
    · intro x hx; simp only [List.mem_append, List.mem_replicate] at hx
      rw [e]
      rcases hx with ⟨-, rfl⟩ | ⟨-, rfl⟩
      · right; exact r'
      · left; exact r
    · rw [e, List.countP_append, List.countP_replicate (n := 8), if_pos (by rw [decide_eq_true_eq, r'])]
      simp only [List.length_append, List.length_replicate]
      push_cast
      have : (0 : ℝ) ≤ (List.replicate 2 (⟨none, true⟩ : Pixel ℝ)).countP (fun x => decide ((c : ℝ) ≤ x.raw)) := Nat.cast_nonneg _
      linarith
    · rw [List.countP_append, List.countP_replicate (n := 2), if_pos (by rw [decide_eq_true_eq, r])]
      simp only [List.length_append, List.length_replicate]
      push_cast
      have : (0 : ℝ) ≤ (List.replicate 8 (⟨some (c : ℝ), true⟩ : Pixel ℝ)).countP (fun x => decide (x.raw ≤ -9999)) := Nat.cast_nonneg _
      linarith

/-- So the file of the area program may be the one of any irregularity, though the cell is flat. -/
theorem C104_program_refuted (fmt : ℝ → List Char) (fmtI : Int → List Char) (p : PropSt ℝ) (H : ℕ) :
    ∃ w : List (Pixel ℝ), (∀ x ∈ w, x.height.isSome) ∧ (∀ y ∈ cellHeights w, y = 0) ∧ cellHeights w ≠ [] ∧
      areaProgramAt fmt fmtI p w = (do
        let (rows, _) ← itmlogicArea gridDefault ⟨2, 2⟩ (areaUser (H : ℤ) p)
        csvWriter (rows.map (AreaRow.dict fmt fmtI))) := by
  obtain ⟨w, h1, h2, h3, h4⟩ := C104_refuted H
  refine ⟨w, h1, h2, ?_, ?_⟩
  · intro h
    rw [h] at h3
    have : w = [] := List.length_eq_zero_iff.1 (by simp at h3; rw [h3]; rfl)
    subst this
    unfold terrainArea at h4
    rw [List.map_nil, C51_empty] at h4
    cases h4
  · unfold areaProgramAt areaProgram
    unfold terrainArea at h4
    rw [h4, ok_bind]

/-! ### Examples -/

/-- A rectangle that is all cell. -/
example : ∃ n a b, terrainArea [(⟨some 100, true⟩ : Pixel ℝ), ⟨some 130, true⟩] = .ok n ∧ LowerDecile [100, 130] a ∧ UpperDecile [100, 130] b ∧ a ≤ b ∧ NearestInt (b - a) n := by
  simpa [cellHeights] using C104_partial (w := [(⟨some 100, true⟩ : Pixel ℝ), ⟨some 130, true⟩]) (by simp [foreign]) (by simp)

/-- Twenty pixels of a cell between 100 and 130 metres and one peak outside. -/
example : ∃ n, terrainArea (⟨some 4000, false⟩ :: List.replicate 10 (⟨some 100, true⟩ : Pixel ℝ) ++ List.replicate 10 ⟨some 130, true⟩) = .ok n ∧ 0 ≤ n ∧ (n : ℝ) ≤ 130 - 100 + 1 / 2 := by
  refine C104_few (by simp) ?_ ?_
  · simp [foreign, List.countP_cons, List.countP_append, List.countP_replicate]; norm_num
  · intro y hy
    simp [cellHeights] at hy
    rcases hy with rfl | rfl <;> norm_num

/-- A fifth of the rectangle is sea without data. -/
example : ∃ n, terrainArea (List.replicate 8 (⟨some 20, true⟩ : Pixel ℝ) ++ List.replicate 2 ⟨none, false⟩) = .ok n ∧ (9998 + 20 : ℝ) ≤ n := by
  refine C104_gaps ?_ ?_
  · simp [List.countP_append, List.countP_replicate]; norm_num
  · rw [List.countP_append, List.countP_replicate (n := 8), if_pos (by rw [decide_eq_true_eq]; exact le_refl (20 : ℝ))]
    simp only [List.length_append, List.length_replicate]
    push_cast
    have : (0 : ℝ) ≤ (List.replicate 2 (⟨none, false⟩ : Pixel ℝ)).countP (fun x => decide ((20 : ℝ) ≤ x.raw)) := Nat.cast_nonneg _
    linarith

end Itm.Props
