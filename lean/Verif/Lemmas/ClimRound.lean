import Verif.Lemmas.CoefRound

/-! The climate table in rounding arithmetic. -/

namespace Itm.Props
open Itm Spec
variable {α : Type} [PyNum α] {R : Rounding α}

/-- The constants of a climate in both arithmetics. -/
structure ClimNear (R : Rounding α) (c : Climate α) (c' : Climate ℝ) : Prop where
  v : CurvConst R c.cv1 c.cv2 c.yv1 c.yv2 c.yv3 c'.cv1 c'.cv2 c'.yv1 c'.yv2 c'.yv3
  sm : CurvConst R c.csm1 c.csm2 c.ysm1 c.ysm2 c.ysm3 c'.csm1 c'.csm2 c'.ysm1 c'.ysm2 c'.ysm3
  sp : CurvConst R c.csp1 c.csp2 c.ysp1 c.ysp2 c.ysp3 c'.csp1 c'.csp2 c'.ysp1 c'.ysp2 c'.ysp3
  smb : c'.csm1 + c'.csm2 ≤ 200
  spb : c'.csp1 + c'.csp2 ≤ 200
  sp1 : 2 ≤ c'.csp1
  sp3 : c'.ysp1 ≤ 6.4e5
  csd1 : Near R c.csd1 c'.csd1 2e-15
  csdb : 0.8 ≤ c'.csd1 ∧ c'.csd1 ≤ 1.52
  zd : Near R c.zd c'.zd 3e-14
  zdb : 1.2 ≤ c'.zd ∧ c'.zd ≤ 20
  cfm1 : NB R c.cfm1 c'.cfm1 1 2e-15
  cfm2 : NB R c.cfm2 c'.cfm2 0.31 1e-15
  cfm3 : NB R c.cfm3 c'.cfm3 2 3e-15
  cfp1 : NB R c.cfp1 c'.cfp1 1 2e-15
  cfp2 : NB R c.cfp2 c'.cfp2 0.31 1e-15
  cfp3 : NB R c.cfp3 c'.cfp3 2 3e-15
  cfm1n : 0.9 ≤ c'.cfm1
  cfp1n : 0.9 ≤ c'.cfp1
  cfm2n : 0 ≤ c'.cfm2
  cfp2n : 0 ≤ c'.cfp2

theorem lit_rel (R : Rounding α) {m : ℕ} {s : Bool} {k : ℕ} (h1 : (1 : ℝ) ≤ (OfScientific.ofScientific m s k : ℝ))
    (h2 : (OfScientific.ofScientific m s k : ℝ) ≤ 1e50) :
    Near R (OfScientific.ofScientific m s k : α) (OfScientific.ofScientific m s k : ℝ) (1.1e-15 * (OfScientific.ofScientific m s k : ℝ)) := by
  refine Near.lit R (M := (OfScientific.ofScientific m s k : ℝ)) (by rw [abs_of_nonneg (by linarith)]) (h2.trans (by norm_num)) ?_
  generalize (OfScientific.ofScientific m s k : ℝ) = x at *
  norm_num at *
  linarith

theorem curvConst_lit (R : Rounding α) {m1 m2 m3 m4 m5 : ℕ} {s1 s2 s3 s4 s5 : Bool} {k1 k2 k3 k4 k5 : ℕ}
    (h1 : |(OfScientific.ofScientific m1 s1 k1 : ℝ)| ≤ 11) (h2 : |(OfScientific.ofScientific m2 s2 k2 : ℝ)| ≤ 858)
    (h3 : (8e4 : ℝ) ≤ OfScientific.ofScientific m3 s3 k3) (h3' : (OfScientific.ofScientific m3 s3 k3 : ℝ) ≤ 1e50)
    (h4 : |(OfScientific.ofScientific m4 s4 k4 : ℝ)| ≤ 3.2e5)
    (h5 : (9e4 : ℝ) ≤ OfScientific.ofScientific m5 s5 k5) (h5' : |(OfScientific.ofScientific m5 s5 k5 : ℝ)| ≤ 2e5)
    (h2n : (0 : ℝ) ≤ OfScientific.ofScientific m2 s2 k2) :
    CurvConst R (OfScientific.ofScientific m1 s1 k1 : α) (OfScientific.ofScientific m2 s2 k2) (OfScientific.ofScientific m3 s3 k3)
      (OfScientific.ofScientific m4 s4 k4) (OfScientific.ofScientific m5 s5 k5) (OfScientific.ofScientific m1 s1 k1)
      (OfScientific.ofScientific m2 s2 k2) (OfScientific.ofScientific m3 s3 k3) (OfScientific.ofScientific m4 s4 k4)
      (OfScientific.ofScientific m5 s5 k5) ∧
    CurvConst R (-OfScientific.ofScientific m1 s1 k1 : α) (OfScientific.ofScientific m2 s2 k2) (OfScientific.ofScientific m3 s3 k3)
      (OfScientific.ofScientific m4 s4 k4) (OfScientific.ofScientific m5 s5 k5) (-OfScientific.ofScientific m1 s1 k1)
      (OfScientific.ofScientific m2 s2 k2) (OfScientific.ofScientific m3 s3 k3) (OfScientific.ofScientific m4 s4 k4)
      (OfScientific.ofScientific m5 s5 k5) := by
  have a1 := NB.lit (α := α) R h1 (by norm_num) (g := 2e-14) (by norm_num)
  have a2 := NB.lit (α := α) R h2 (by norm_num) (g := 1e-12) (by norm_num)
  have a3 := lit_rel (α := α) R (le_trans (by norm_num) h3) h3'
  have a4 := NB.lit (α := α) R h4 (by norm_num) (g := 4e-10) (by norm_num)
  have a5 := NB.lit (α := α) R h5' (by norm_num) (g := 3e-10) (by norm_num)
  exact ⟨⟨a1, a2, h2n, a3, h3, a4, a5, h5⟩, ⟨a1.neg, a2, h2n, a3, h3, a4, a5, h5⟩⟩

macro "curv_const" : tactic => `(tactic| first
  | exact (curvConst_lit _ (by norm_num) (by norm_num) (by norm_num) (by norm_num) (by norm_num) (by norm_num) (by norm_num) (by norm_num)).1
  | exact (curvConst_lit _ (by norm_num) (by norm_num) (by norm_num) (by norm_num) (by norm_num) (by norm_num) (by norm_num) (by norm_num)).2)

macro "clim_near" : tactic => `(tactic|
  exact ⟨by curv_const, by curv_const, by curv_const, by norm_num, by norm_num, by norm_num, by norm_num,
    Near.lit _ (M := 1.6) (by norm_num) (by norm_num) (by norm_num), by norm_num,
    Near.lit _ (M := 20) (by norm_num) (by norm_num) (by norm_num), by norm_num,
    NB.lit _ (by norm_num) (by norm_num) (by norm_num), NB.lit _ (by norm_num) (by norm_num) (by norm_num),
    NB.lit _ (by norm_num) (by norm_num) (by norm_num), NB.lit _ (by norm_num) (by norm_num) (by norm_num),
    NB.lit _ (by norm_num) (by norm_num) (by norm_num), NB.lit _ (by norm_num) (by norm_num) (by norm_num),
    by norm_num, by norm_num, by norm_num, by norm_num⟩)

theorem climates_near (R : Rounding α) : List.Forall₂ (ClimNear R) (climates : List (Climate α)) (climates : List (Climate ℝ)) := by
  unfold climates
  refine .cons ?_ (.cons ?_ (.cons ?_ (.cons ?_ (.cons ?_ (.cons ?_ (.cons ?_ .nil))))))
  · clim_near
  · clim_near
  · clim_near
  · clim_near
  · clim_near
  · clim_near
  · clim_near

theorem climate_round (R : Rounding α) {k : ℤ} (h1 : 1 ≤ k) (h7 : k ≤ 7) :
    ∃ c c', pyGet (climates : List (Climate α)) (k - 1) = .ok c ∧ pyGet (climates : List (Climate ℝ)) (k - 1) = .ok c' ∧
      ClimNear R c c' := by
  have h := climates_near R
  unfold climates at h ⊢
  simp only [List.forall₂_cons] at h
  obtain ⟨a1, a2, a3, a4, a5, a6, a7, -⟩ := h
  obtain rfl | rfl | rfl | rfl | rfl | rfl | rfl : k = 1 ∨ k = 2 ∨ k = 3 ∨ k = 4 ∨ k = 5 ∨ k = 6 ∨ k = 7 := by omega
  · exact ⟨_, _, rfl, rfl, a1⟩
  · exact ⟨_, _, rfl, rfl, a2⟩
  · exact ⟨_, _, rfl, rfl, a3⟩
  · exact ⟨_, _, rfl, rfl, a4⟩
  · exact ⟨_, _, rfl, rfl, a5⟩
  · exact ⟨_, _, rfl, rfl, a6⟩
  · exact ⟨_, _, rfl, rfl, a7⟩

end Itm.Props
