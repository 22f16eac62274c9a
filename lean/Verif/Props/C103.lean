import Verif.Lemmas.AdiffRound
import Verif.Lemmas.Binary64

/-! C103: the diffraction attenuation at one distance survives rounding. -/

namespace Itm.Props
open Itm Spec
variable {α : Type} [PyNum α]

/-- On links of ordinary size beyond the horizons, diffraction attenuation computed in rounding arithmetic exists, leaves the state as it is and is within 0.05 dB of
exact arithmetic on the same numbers. It is within 0.0001 dB unless an obstacle is where the knife-edge formulas change. -/
theorem C103_diffraction (R : Rounding α) (d : α) (v : DiffData α) (p : PropSt α) (p' : PropSt ℝ) (hp : v.In p) (hp' : (v.map R.val).In p')
    (hd : R.fin d) (hv : v.All R.fin) (ho : (v.map R.val).Ordinary (R.val d)) :
    ∃ a b, adiff d p = .ok (a, p) ∧ adiff (R.val d) p' = .ok (b, p') ∧ R.fin a ∧ |R.val a - b| ≤ 0.05 ∧
      ((v.map R.val).Clear (R.val d) → |R.val a - b| ≤ 1e-4) := by
  obtain ⟨a, b, e1, e2, n, h⟩ := adiff_round R hp hp' hd hv ho
  exact ⟨a, b, e1, e2, n.fin, n.err, h⟩

/-- Doubles make two distances of one link comparable: whatever the exact attenuations differ by, the doubles differ by up to 0.1 dB more or less. -/
theorem C103_distances (R : Rounding α) (d e : α) (v : DiffData α) (p : PropSt α) (p' : PropSt ℝ) (hp : v.In p) (hp' : (v.map R.val).In p')
    (hd : R.fin d) (he : R.fin e) (hv : v.All R.fin) (ho : (v.map R.val).Ordinary (R.val d)) (ho' : (v.map R.val).Ordinary (R.val e)) :
    ∃ a b x y, adiff d p = .ok (a, p) ∧ adiff e p = .ok (b, p) ∧ adiff (R.val d) p' = .ok (x, p') ∧ adiff (R.val e) p' = .ok (y, p') ∧
      |(R.val b - R.val a) - (y - x)| ≤ 0.1 := by
  obtain ⟨a, x, e1, e2, n, -⟩ := adiff_round R hp hp' hd hv ho
  obtain ⟨b, y, e3, e4, m, -⟩ := adiff_round R hp hp' he hv ho'
  refine ⟨a, b, x, y, e1, e3, e2, e4, ?_⟩
  have h1 := abs_le.1 n.err
  have h2 := abs_le.1 m.err
  rw [abs_le]
  constructor <;> norm_num at * <;> linarith

/-! ### Example -/

/-- A link of 50 km over hilly terrain at about 240 MHz, in doubles. -/
example {M : Libm} (h : M.Accurate) (p : PropSt (DoubleOf M)) (p' : PropSt ℝ)
    (v : DiffData (DoubleOf M)) (hv : v = ⟨15000.0, 12000.0, 1.2e-7, 5.0, 90.0, 0.005, 27000.0, 0.02, 2.0, 30000.0, 6.0, 20.0, 400.0⟩)
    (hp : v.In p) (hp' : (v.map Double.val).In p') :
    ∃ (a : DoubleOf M) (b : ℝ), adiff 50000.0 p = .ok (a, p) ∧ adiff 50000.0 p' = .ok (b, p') ∧ Double.Finite a ∧ |Double.val a - b| ≤ 1e-4 := by
  obtain ⟨f0, v0⟩ := Near.lit_int (ieee h) (m := 500000) (s := true) (k := 1) 50000 (by norm_num) (by norm_num)
  obtain ⟨f1, v1⟩ := Near.lit_int (ieee h) (m := 150000) (s := true) (k := 1) 15000 (by norm_num) (by norm_num)
  obtain ⟨f2, v2⟩ := Near.lit_int (ieee h) (m := 120000) (s := true) (k := 1) 12000 (by norm_num) (by norm_num)
  have n3 := (NB.lit (ieee h) (m := 12) (s := true) (k := 8) (X := 1) (g := 2e-15) (by norm_num) (by norm_num) (by norm_num))
  obtain ⟨f4, v4⟩ := Near.lit_int (ieee h) (m := 50) (s := true) (k := 1) 5 (by norm_num) (by norm_num)
  obtain ⟨f5, v5⟩ := Near.lit_int (ieee h) (m := 900) (s := true) (k := 1) 90 (by norm_num) (by norm_num)
  have n6 := (NB.lit (ieee h) (m := 5) (s := true) (k := 3) (X := 1) (g := 2e-15) (by norm_num) (by norm_num) (by norm_num))
  obtain ⟨f7, v7⟩ := Near.lit_int (ieee h) (m := 270000) (s := true) (k := 1) 27000 (by norm_num) (by norm_num)
  have n8 := (NB.lit (ieee h) (m := 2) (s := true) (k := 2) (X := 1) (g := 2e-15) (by norm_num) (by norm_num) (by norm_num))
  obtain ⟨f9, v9⟩ := Near.lit_int (ieee h) (m := 20) (s := true) (k := 1) 2 (by norm_num) (by norm_num)
  obtain ⟨f10, v10⟩ := Near.lit_int (ieee h) (m := 300000) (s := true) (k := 1) 30000 (by norm_num) (by norm_num)
  obtain ⟨f11, v11⟩ := Near.lit_int (ieee h) (m := 60) (s := true) (k := 1) 6 (by norm_num) (by norm_num)
  obtain ⟨f12, v12⟩ := Near.lit_int (ieee h) (m := 200) (s := true) (k := 1) 20 (by norm_num) (by norm_num)
  obtain ⟨f13, v13⟩ := Near.lit_int (ieee h) (m := 4000) (s := true) (k := 1) 400 (by norm_num) (by norm_num)
  have g3 := abs_le.1 n3.err
  have g6 := abs_le.1 n6.err
  have g8 := abs_le.1 n8.err
  subst hv
  have hg : (DiffData.map (ieee h).val (⟨15000.0, 12000.0, 1.2e-7, 5.0, 90.0, 0.005, 27000.0, 0.02, 2.0, 30000.0, 6.0, 20.0, 400.0⟩ : DiffData (DoubleOf M))).gap
      ((ieee h).val 50000.0) = 23000 := by
    simp only [DiffData.gap, DiffData.map, v0, v7]; norm_num
  have ha : 0.0109 ≤ (DiffData.map (ieee h).val (⟨15000.0, 12000.0, 1.2e-7, 5.0, 90.0, 0.005, 27000.0, 0.02, 2.0, 30000.0, 6.0, 20.0, 400.0⟩ : DiffData (DoubleOf M))).angle
      ((ieee h).val 50000.0) := by
    simp only [DiffData.angle, DiffData.map, v0]; clear * - g3 g6; norm_num at *; linarith
  have ha' : (DiffData.map (ieee h).val (⟨15000.0, 12000.0, 1.2e-7, 5.0, 90.0, 0.005, 27000.0, 0.02, 2.0, 30000.0, 6.0, 20.0, 400.0⟩ : DiffData (DoubleOf M))).angle
      ((ieee h).val 50000.0) ≤ 0.0111 := by
    simp only [DiffData.angle, DiffData.map, v0]; clear * - g3 g6; norm_num at *; linarith
  have hs := pow_le_pow_left₀ (le_trans (by norm_num) ha) ha' 2
  have hs0 := sq_nonneg ((DiffData.map (ieee h).val (⟨15000.0, 12000.0, 1.2e-7, 5.0, 90.0, 0.005, 27000.0, 0.02, 2.0, 30000.0, 6.0, 20.0, 400.0⟩ : DiffData (DoubleOf M))).angle
      ((ieee h).val 50000.0))
  obtain ⟨a, b, e1, e2, f, -, n⟩ := C103_diffraction (ieee h) 50000.0 _ p p' hp hp' f0
    ⟨f1, f2, n3.fin, f4, f5, n6.fin, f7, n8.fin, f9, f10, f11, f12, f13⟩ (by
      refine ⟨?_, ?_, ?_, ?_, ?_, ?_, ?_, ?_, ?_, ?_, ?_, ?_, ?_, ?_, ?_⟩
      · rw [v0]; norm_num
      · rw [hg]; simp only [DiffData.map, v7]; norm_num
      · simp only [DiffData.map, v1]; norm_num
      · simp only [DiffData.map, v2]; norm_num
      · simp only [DiffData.map]; clear * - g3; norm_num at *; constructor <;> linarith
      · simp only [DiffData.map]; rw [abs_le]; clear * - g6; norm_num at *; constructor <;> linarith
      · clear * - ha ha'; norm_num at *; constructor <;> linarith
      · simp only [DiffData.map, v4]; norm_num
      · rw [hg]
        generalize DiffData.angle _ _ = t at *
        simp only [DiffData.map, v4]
        clear * - ha ha' hs
        norm_num at *; constructor <;> linarith
      · simp only [DiffData.map]; clear * - g8; norm_num at *; constructor <;> linarith
      · simp only [DiffData.map, v5]; norm_num
      · simp only [DiffData.map, v9]; norm_num
      · simp only [DiffData.map, v10]; norm_num
      · simp only [DiffData.map, v13]; norm_num
      · simp only [DiffData.map, v12, v11]; norm_num)
  rw [v0] at e2
  refine ⟨a, b, e1, e2, f, n ?_⟩
  unfold DiffData.Clear DiffData.fresnel
  rw [hg]
  generalize DiffData.angle _ _ = t at *
  simp only [DiffData.map, v1, v2, v4]
  clear * - hs hs0
  constructor <;> rw [le_abs] <;> right <;> norm_num at * <;> linarith

end Itm.Props
