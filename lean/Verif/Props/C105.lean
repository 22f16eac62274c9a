import Verif.Lemmas.ScatRound
import Verif.Lemmas.Binary64

/-! C105: the scatter attenuation at one distance survives rounding. -/

namespace Itm.Props
open Itm Spec
variable {α : Type} [PyNum α]

/-- On links of ordinary size away from the jumps of the formulas, scatter attenuation computed in rounding arithmetic exists and is within 0.0001 dB of the value of the
formulas at the same numbers, which is what exact arithmetic returns. -/
theorem C105_scatter (R : Rounding α) (d : α) (v : ScatData α) (p : PropSt α) (p' : PropSt ℝ) (hp : v.In p) (hp' : (v.map R.val).In p')
    (hd : R.fin d) (hv : v.All R.fin) (ho : (v.map R.val).Ordinary (R.val d)) (hc : (v.map R.val).Clear (R.val d)) :
    ∃ q q', ascat d p = .ok q ∧ ascat (R.val d) p' = .ok q' ∧ R.fin q.ascat1 ∧ q'.ascat1 = (v.map R.val).att (R.val d) ∧
      |R.val q.ascat1 - (v.map R.val).att (R.val d)| ≤ 1e-4 := by
  obtain ⟨q, q', e1, e2, e3, n⟩ := ascat_round R hp hp' hd hv ho hc
  exact ⟨q, q', e1, e2, n.fin, e3, n.err⟩

/-- The fresh frequency gain is within 0.00006 dB of the formula, also where the formulas jump: the correction for efficiencies below one sets in continuously, and the gain is
continuous in the efficiency and in the scatter parameters. -/
theorem C105_gain (R : Rounding α) (d : α) (v : ScatData α) (p : PropSt α) (p' : PropSt ℝ) (hp : v.In p) (hp' : (v.map R.val).In p')
    (hm : R.val v.h0s < 0) (hd : R.fin d) (hv : v.All R.fin) (ho : (v.map R.val).Ordinary (R.val d)) :
    ∃ s s' g, p.sprep = some s ∧ p'.sprep = some s' ∧ ascatH0 d p s = .ok g ∧ ascatH0 (R.val d) p' s' = .ok ((v.map R.val).gain (R.val d)) ∧ R.fin g ∧
      |R.val g - (v.map R.val).gain (R.val d)| ≤ 6e-5 := by
  obtain ⟨s, hs, -, -, -, es⟩ := hp.2.2.2.2.2.2.2.2
  obtain ⟨s', hs', -, -, -, es'⟩ := hp'.2.2.2.2.2.2.2.2
  obtain ⟨zf, zv⟩ := fin_zero R
  obtain ⟨g, g1, g2, n⟩ := gainC_round hp hp' hs hs' hd hv ho
  have ge0 : (0.0 : α) ≤ v.h0s ↔ 0 ≤ R.val v.h0s := by rw [R.le _ _ zf hv.2.2.2.2.2.2.2.2.2.2.2, zv]
  refine ⟨s, s', g, hs, hs', ?_, ?_, n.fin, n.err⟩
  · rw [ascatH0_gain, g1, ok_bind, if_neg (fun k => absurd (ge0.1 (es ▸ k.2)) (not_le.2 hm)), pure_ok]
  · rw [ascatH0_gain, g2, ok_bind, if_neg (fun k => ?_), pure_ok]
    have := k.2
    rw [es', zero_lit] at this
    exact absurd this (not_le.2 hm)

/-! ### Example -/

/-- A link of 250 km at about 480 MHz, in doubles. -/
example {M : Libm} (h : M.Accurate) (p : PropSt (DoubleOf M)) (p' : PropSt ℝ)
    (v : ScatData (DoubleOf M)) (hv : v = ⟨20.0, 10.0, -0.001, -0.001, 1.2e-7, 10.0, 301.0, -0.006, 3000.0, 0.5, 0.1, -15.0⟩)
    (hp : v.In p) (hp' : (v.map Double.val).In p') :
    ∃ q q', ascat 250000.0 p = .ok q ∧ ascat 250000.0 p' = .ok q' ∧ Double.Finite q.ascat1 ∧ |Double.val q.ascat1 - q'.ascat1| ≤ 1e-4 := by
  obtain ⟨f0, v0⟩ := Near.lit_int (ieee h) (m := 2500000) (s := true) (k := 1) 250000 (by norm_num) (by norm_num)
  obtain ⟨f1, v1⟩ := Near.lit_int (ieee h) (m := 200) (s := true) (k := 1) 20 (by norm_num) (by norm_num)
  obtain ⟨f2, v2⟩ := Near.lit_int (ieee h) (m := 100) (s := true) (k := 1) 10 (by norm_num) (by norm_num)
  have n3 := (NB.lit (ieee h) (m := 1) (s := true) (k := 3) (X := 1) (g := 2e-15) (by norm_num) (by norm_num) (by norm_num)).neg
  have n5 := (NB.lit (ieee h) (m := 12) (s := true) (k := 8) (X := 1) (g := 2e-15) (by norm_num) (by norm_num) (by norm_num))
  obtain ⟨f7, v7⟩ := Near.lit_int (ieee h) (m := 3010) (s := true) (k := 1) 301 (by norm_num) (by norm_num)
  have n8 := (NB.lit (ieee h) (m := 6) (s := true) (k := 3) (X := 1) (g := 2e-15) (by norm_num) (by norm_num) (by norm_num)).neg
  obtain ⟨f9, v9⟩ := Near.lit_int (ieee h) (m := 30000) (s := true) (k := 1) 3000 (by norm_num) (by norm_num)
  have n10 := (NB.lit (ieee h) (m := 5) (s := true) (k := 1) (X := 1) (g := 2e-15) (by norm_num) (by norm_num) (by norm_num))
  have n11 := (NB.lit (ieee h) (m := 1) (s := true) (k := 1) (X := 1) (g := 2e-15) (by norm_num) (by norm_num) (by norm_num))
  obtain ⟨f12, v12⟩ := Near.lit_int (ieee h) (m := 150) (s := true) (k := 1) 15 (by norm_num) (by norm_num)
  have n12 := (Near.of_eq f12 v12).neg
  have g3 := abs_le.1 n3.err
  have g5 := abs_le.1 n5.err
  have g8 := abs_le.1 n8.err
  have g10 := abs_le.1 n10.err
  have g11 := abs_le.1 n11.err
  have g12 := abs_le.1 n12.err
  have ha : 0.0279 ≤ (v.map (ieee h).val).angle ((ieee h).val 250000.0) ∧ (v.map (ieee h).val).angle ((ieee h).val 250000.0) ≤ 0.0281 := by
    subst hv; simp only [ScatData.angle, ScatData.map, v0]; clear * - g3 g5; norm_num at *; constructor <;> linarith
  have hb : 0.0239 ≤ (v.map (ieee h).val).bend ((ieee h).val 250000.0) ∧ (v.map (ieee h).val).bend ((ieee h).val 250000.0) ≤ 0.0241 := by
    subst hv; simp only [ScatData.bend, ScatData.map, v0]; clear * - g5 g8; norm_num at *; constructor <;> linarith
  have w : (v.map (ieee h).val).wn = 10 := by subst hv; simp only [ScatData.map, v2]; norm_num
  have h0 : (v.map (ieee h).val).he0 = 20 := by subst hv; simp only [ScatData.map, v1]; norm_num
  have h1 : (v.map (ieee h).val).he1 = 10 := by subst hv; simp only [ScatData.map, v2]; norm_num
  have neg : (v.map (ieee h).val).h0s < 0 := by subst hv; simp only [ScatData.map]; clear * - g12; norm_num at *; linarith
  obtain ⟨q, q', e1, e2, f, e3, n⟩ := C105_scatter (ieee h) 250000.0 v p p' hp hp' f0
    (by subst hv; exact ⟨f1, f2, n3.fin, n3.fin, n5.fin, f2, f7, n8.fin, f9, n10.fin, n11.fin, n12.fin⟩) (by
      refine ⟨?_, ?_, ?_, ?_, ?_, ?_, ?_, ?_, ?_, ?_, ?_, ?_, ?_, ?_, ?_⟩
      · rw [v0]; norm_num
      · subst hv; simp only [ScatData.map, v0, v9]; norm_num
      · subst hv; simp only [ScatData.map, abs_le]; clear * - g3 g8; norm_num at *; refine ⟨⟨?_, ?_⟩, ?_, ?_⟩ <;> linarith
      · subst hv; simp only [ScatData.map]; clear * - g5; norm_num at *; constructor <;> linarith
      · clear * - ha; norm_num at *; constructor <;> linarith
      · clear * - hb; norm_num at *; constructor <;> linarith
      · rw [w]; norm_num
      · rw [h0]; norm_num
      · rw [h1]; norm_num
      · unfold ScatData.ray; rw [w, h0]; clear * - ha; norm_num at *; constructor <;> linarith
      · unfold ScatData.ray; rw [w, h1]; clear * - ha; norm_num at *; constructor <;> linarith
      · subst hv; simp only [ScatData.map]; clear * - g10; norm_num at *; constructor <;> linarith
      · subst hv; simp only [ScatData.map, abs_le]; clear * - g11; norm_num at *; constructor <;> linarith
      · subst hv; simp only [ScatData.map, v7]; norm_num
      · subst hv; simp only [ScatData.map, abs_le]; clear * - g12; norm_num at *; constructor <;> linarith)
    (by
      rw [v0] at hb
      refine ⟨?_, ?_, fun k => absurd neg (not_lt.2 k)⟩ <;> rw [v0, le_abs]
      · right; clear * - hb; norm_num at *; linarith
      · right; clear * - hb; norm_num at *; linarith)
  rw [v0] at e2
  refine ⟨q, q', e1, e2, f, ?_⟩
  rw [e3]
  exact n

end Itm.Props
