import Verif.Lemmas.Siting
import Verif.Props.C59

/-! C94: antenna height, siting and roughness in area mode. -/

namespace Itm.Props
open Itm Itm.Spec

/-- What `qlra` computes for positive heights and curvature. -/
theorem qlra_real {kst : Pair ℤ} {p q : PropSt ℝ} (hg0 : 0 < p.hg.x0) (hg1 : 0 < p.hg.x1) (hκ : 0 < p.gme) (hd : 0 ≤ p.dh) (h : qlra kst p = .ok q) :
    (q.he.x0 = sitedHeight kst.x0 p.hg.x0 p.dh ∧ q.he.x1 = sitedHeight kst.x1 p.hg.x1 p.dh) ∧ (p.hg.x0 ≤ q.he.x0 ∧ p.hg.x1 ≤ q.he.x1) ∧
    (q.dl.x0 = roughHorizon p.gme p.dh q.he.x0 ∧ q.dl.x1 = roughHorizon p.gme p.dh q.he.x1) ∧
    (q.the.x0 = roughAngle p.gme p.dh q.he.x0 ∧ q.the.x1 = roughAngle p.gme p.dh q.he.x1) := by
  obtain ⟨he0, he1, q', e, hq', ⟨b0, -⟩, ⟨b1, -⟩, -⟩ := C38_total (kst := kst) hg0 hg1 hκ hd
  have hh := C38_heights h
  rw [h, ok_inj] at e
  subst e
  refine ⟨hh, ?_, ?_, ?_⟩ <;> rw [hq']
  · exact ⟨b0, b1⟩
  · exact ⟨rfl, rfl⟩
  · exact ⟨rfl, rfl⟩

/-- **C94** (height) Within the limits of the model (antennas of at least 0.5 m) raising the antennas lowers no effective height, shortens no horizon
distance and raises no horizon angle, whatever the siting and the roughness. -/
theorem C94_height {kst : Pair ℤ} {p q q' : PropSt ℝ} {h0 h1 : ℝ} (hg0 : 0.5 ≤ p.hg.x0) (hg1 : 0.5 ≤ p.hg.x1) (hκ : 0 < p.gme) (hd : 0 ≤ p.dh)
    (r0 : p.hg.x0 ≤ h0) (r1 : p.hg.x1 ≤ h1) (h : qlra kst p = .ok q) (h' : qlra kst { p with hg := ⟨h0, h1⟩ } = .ok q') :
    (q.he.x0 ≤ q'.he.x0 ∧ q.he.x1 ≤ q'.he.x1) ∧ (q.dl.x0 ≤ q'.dl.x0 ∧ q.dl.x1 ≤ q'.dl.x1) ∧ (q'.the.x0 ≤ q.the.x0 ∧ q'.the.x1 ≤ q.the.x1) := by
  have p0 : 0 < p.hg.x0 := by norm_num at hg0; linarith
  have p1 : 0 < p.hg.x1 := by norm_num at hg1; linarith
  obtain ⟨⟨a0, a1⟩, ⟨b0, b1⟩, ⟨c0, c1⟩, ⟨d0, d1⟩⟩ := qlra_real p0 p1 hκ hd h
  obtain ⟨⟨a0', a1'⟩, -, ⟨c0', c1'⟩, ⟨d0', d1'⟩⟩ := qlra_real (p := { p with hg := ⟨h0, h1⟩ }) (p0.trans_le r0) (p1.trans_le r1) hκ hd h'
  have e0 : q.he.x0 ≤ q'.he.x0 := by rw [a0, a0']; exact sited_mono hg0 r0
  have e1 : q.he.x1 ≤ q'.he.x1 := by rw [a1, a1']; exact sited_mono hg1 r1
  refine ⟨⟨e0, e1⟩, ⟨?_, ?_⟩, ?_, ?_⟩
  · rw [c0, c0']; exact horizon_mono hκ hd e0
  · rw [c1, c1']; exact horizon_mono hκ hd e1
  · rw [d0, d0']; exact angle_mono hκ hd (by linarith) e0
  · rw [d1, d1']; exact angle_mono hκ hd (by linarith) e1

/-- **C94** (siting) More careful siting shortens no horizon distance and raises no horizon angle. -/
theorem C94_siting {kst kst' : Pair ℤ} {p q q' : PropSt ℝ} (hg0 : 0 < p.hg.x0) (hg1 : 0 < p.hg.x1) (hκ : 0 < p.gme) (hd : 0 ≤ p.dh)
    (h0 : kst.x0 ≤ kst'.x0) (h1 : kst.x1 ≤ kst'.x1) (h02 : kst'.x0 ≤ 2) (h12 : kst'.x1 ≤ 2) (h : qlra kst p = .ok q) (h' : qlra kst' p = .ok q') :
    (q.dl.x0 ≤ q'.dl.x0 ∧ q.dl.x1 ≤ q'.dl.x1) ∧ (q'.the.x0 ≤ q.the.x0 ∧ q'.the.x1 ≤ q.the.x1) := by
  obtain ⟨-, ⟨b0, b1⟩, ⟨c0, c1⟩, ⟨d0, d1⟩⟩ := qlra_real hg0 hg1 hκ hd h
  obtain ⟨-, -, ⟨c0', c1'⟩, ⟨d0', d1'⟩⟩ := qlra_real hg0 hg1 hκ hd h'
  obtain ⟨e0, e1⟩ := C38_siting_qlra hg0 hg1 hκ hd h0 h1 h02 h12 h h'
  refine ⟨⟨?_, ?_⟩, ?_, ?_⟩
  · rw [c0, c0']; exact horizon_mono hκ hd e0
  · rw [c1, c1']; exact horizon_mono hκ hd e1
  · rw [d0, d0']; exact angle_mono hκ hd (by linarith) e0
  · rw [d1, d1']; exact angle_mono hκ hd (by linarith) e1

/-- **C94** (roughness) Rougher ground lowers no effective height; if both antennas are sited at random it extends no horizon distance and lowers no
horizon angle. -/
theorem C94_rough {kst : Pair ℤ} {p q q' : PropSt ℝ} {dh : ℝ} (hg0 : 0 < p.hg.x0) (hg1 : 0 < p.hg.x1) (hκ : 0 < p.gme) (hd : 0 ≤ p.dh)
    (hr : p.dh ≤ dh) (h : qlra kst p = .ok q) (h' : qlra kst { p with dh := dh } = .ok q') :
    (q.he.x0 ≤ q'.he.x0 ∧ q.he.x1 ≤ q'.he.x1) ∧ (kst.x0 ≤ 0 → q'.dl.x0 ≤ q.dl.x0 ∧ q.the.x0 ≤ q'.the.x0) ∧
      (kst.x1 ≤ 0 → q'.dl.x1 ≤ q.dl.x1 ∧ q.the.x1 ≤ q'.the.x1) := by
  obtain ⟨⟨a0, a1⟩, ⟨b0, b1⟩, ⟨c0, c1⟩, ⟨d0, d1⟩⟩ := qlra_real hg0 hg1 hκ hd h
  obtain ⟨⟨a0', a1'⟩, -, ⟨c0', c1'⟩, ⟨d0', d1'⟩⟩ := qlra_real (p := { p with dh := dh }) hg0 hg1 hκ (hd.trans hr) h'
  refine ⟨⟨?_, ?_⟩, fun k => ?_, fun k => ?_⟩
  · rw [a0, a0']; exact sited_rough hg0 hr
  · rw [a1, a1']; exact sited_rough hg1 hr
  · have e : q'.he.x0 = q.he.x0 := by rw [a0, a0']; simp [sitedHeight, k]
    rw [c0', d0', c0, d0, e]
    exact ⟨horizon_rough hr, angle_rough hκ hd hr (by linarith)⟩
  · have e : q'.he.x1 = q.he.x1 := by rw [a1, a1']; simp [sitedHeight, k]
    rw [c1', d1', c1, d1, e]
    exact ⟨horizon_rough hr, angle_rough hκ hd hr (by linarith)⟩

/-- **C94** (limits) Below the limits the effective height is not monotone: very carefully sited over ground of irregularity 0.2 m, an antenna of 0.2 m is
given a smaller effective height and a nearer horizon than one of 0.1 m. -/
theorem C94_limit {p : PropSt ℝ} (hκ : 0 < p.gme) : ∃ q q' : PropSt ℝ, qlra ⟨2, 2⟩ { p with dh := 0.2, hg := ⟨0.1, 10⟩ } = .ok q ∧
    qlra ⟨2, 2⟩ { p with dh := 0.2, hg := ⟨0.2, 10⟩ } = .ok q' ∧ q'.he.x0 + 0.1 < q.he.x0 ∧ q'.dl.x0 < q.dl.x0 := by
  obtain ⟨-, -, q, e, -⟩ := C38_total (kst := ⟨2, 2⟩) (p := { p with dh := 0.2, hg := ⟨0.1, 10⟩ }) (by norm_num) (by norm_num) hκ (by norm_num)
  obtain ⟨-, -, q', e', -⟩ := C38_total (kst := ⟨2, 2⟩) (p := { p with dh := 0.2, hg := ⟨0.2, 10⟩ }) (by norm_num) (by norm_num) hκ (by norm_num)
  obtain ⟨⟨a0, -⟩, ⟨b0, -⟩, ⟨c0, -⟩, -⟩ := qlra_real (p := { p with dh := 0.2, hg := ⟨0.1, 10⟩ }) (by norm_num) (by norm_num) hκ (by norm_num) e
  obtain ⟨⟨a0', -⟩, ⟨b0', -⟩, ⟨c0', -⟩, -⟩ := qlra_real (p := { p with dh := 0.2, hg := ⟨0.2, 10⟩ }) (by norm_num) (by norm_num) hκ (by norm_num) e'
  have v0 : q.he.x0 = 0.1 + (1 + 9 * Real.sin (0.3141593 * 0.1)) * Real.exp (-1) := by
    rw [a0]
    unfold sitedHeight
    norm_num
  have v0' : q'.he.x0 = 0.2 + (1 + 9 * Real.sin (0.3141593 * 0.2)) * Real.exp (-2) := by
    rw [a0']
    unfold sitedHeight
    norm_num
  have s1 : 0.0314 ≤ Real.sin (0.3141593 * 0.1) := by
    have := Real.sin_gt_sub_cube (x := 0.3141593 * 0.1) (by norm_num)
    norm_num at this ⊢
    linarith
  have s2 : Real.sin (0.3141593 * 0.2) ≤ 0.3141593 * 0.2 := Real.sin_le (by norm_num)
  have e2 : Real.exp (-2) = Real.exp (-1) * Real.exp (-1) := by rw [← Real.exp_add]; norm_num
  have e1 : 0.367 ≤ Real.exp (-1) ∧ Real.exp (-1) ≤ 0.369 := by
    have u := Real.exp_neg_one_gt_d9
    have v := Real.exp_neg_one_lt_d9
    norm_num at u v ⊢
    constructor <;> linarith
  have lt : q'.he.x0 + 0.1 < q.he.x0 := by
    rw [v0, v0', e2]
    obtain ⟨u, v⟩ := e1
    have k1 : (1 + 9 * 0.0314) * 0.367 ≤ (1 + 9 * Real.sin (0.3141593 * 0.1)) * Real.exp (-1) :=
      mul_le_mul (by linarith) u (by norm_num) (by have : (0 : ℝ) ≤ 0.0314 := by norm_num
                                                   linarith)
    have k2 : Real.exp (-1) * Real.exp (-1) ≤ 0.369 * 0.369 := mul_le_mul v v (Real.exp_pos _).le (by norm_num)
    have k3 : (1 + 9 * Real.sin (0.3141593 * 0.2)) * (Real.exp (-1) * Real.exp (-1)) ≤ (1 + 9 * (0.3141593 * 0.2)) * (0.369 * 0.369) :=
      mul_le_mul (by linarith) k2 (by positivity) (by norm_num)
    norm_num at *
    linarith
  refine ⟨q, q', e, e', lt, ?_⟩
  have g : q'.he.x0 < q.he.x0 := by norm_num at lt; linarith
  have p0' : 0 < q'.he.x0 := by norm_num at b0'; linarith
  rw [c0, c0']
  refine lt_of_le_of_ne (horizon_mono hκ (by norm_num) g.le) ?_
  intro eq
  unfold roughHorizon smoothReach at eq
  have m : max q'.he.x0 5 = max q.he.x0 5 := by
    have u1 : q.he.x0 ≤ 5 := by
      rw [v0]
      have := Real.sin_le (x := 0.3141593 * 0.1) (by norm_num)
      have := mul_le_mul (show 1 + 9 * Real.sin (0.3141593 * 0.1) ≤ 2 by norm_num at this ⊢; linarith) e1.2 (Real.exp_pos _).le (by norm_num)
      norm_num at *; linarith
    rw [max_eq_right u1, max_eq_right (g.le.trans u1)]
  rw [m] at eq
  have eq2 := mul_right_cancel₀ (Real.exp_pos _).ne' eq
  have lt2 : 2 * q'.he.x0 / p.gme < 2 * q.he.x0 / p.gme := by gcongr
  have := Real.sqrt_lt_sqrt (by positivity) lt2
  dsimp only at eq2
  linarith

/-- antennas of 2 and 10 m against 3 and 10 m, carefully sited over hills -/
example (p : PropSt ℝ) : ∃ q q', qlra ⟨1, 0⟩ { p with dh := 90, gme := 157e-9, hg := ⟨2, 10⟩ } = .ok q ∧
    qlra ⟨1, 0⟩ { p with dh := 90, gme := 157e-9, hg := ⟨3, 10⟩ } = .ok q' ∧ q.dl.x0 ≤ q'.dl.x0 ∧ q'.the.x0 ≤ q.the.x0 := by
  obtain ⟨-, -, q, e, -⟩ := C38_total (kst := ⟨1, 0⟩) (p := { p with dh := 90, gme := 157e-9, hg := ⟨2, 10⟩ }) (by norm_num) (by norm_num) (by norm_num) (by norm_num)
  obtain ⟨-, -, q', e', -⟩ := C38_total (kst := ⟨1, 0⟩) (p := { p with dh := 90, gme := 157e-9, hg := ⟨3, 10⟩ }) (by norm_num) (by norm_num) (by norm_num) (by norm_num)
  have := C94_height (p := { p with dh := 90, gme := 157e-9, hg := ⟨2, 10⟩ }) (h0 := 3) (h1 := 10) (by norm_num) (by norm_num) (by norm_num) (by norm_num)
    (by norm_num) (by norm_num) e e'
  exact ⟨q, q', e, e', this.2.1.1, this.2.2.1⟩

/-- random against very careful siting of the first antenna, and rougher ground under both sited at random -/
example (p : PropSt ℝ) : (∃ q q', qlra ⟨0, 0⟩ { p with dh := 90, gme := 157e-9, hg := ⟨2, 10⟩ } = .ok q ∧
      qlra ⟨2, 0⟩ { p with dh := 90, gme := 157e-9, hg := ⟨2, 10⟩ } = .ok q' ∧ q.dl.x0 ≤ q'.dl.x0) ∧
    ∃ q q', qlra ⟨0, 0⟩ { p with dh := 90, gme := 157e-9, hg := ⟨2, 10⟩ } = .ok q ∧
      qlra ⟨0, 0⟩ { p with dh := 200, gme := 157e-9, hg := ⟨2, 10⟩ } = .ok q' ∧ q'.dl.x1 ≤ q.dl.x1 := by
  obtain ⟨-, -, q, e, -⟩ := C38_total (kst := ⟨0, 0⟩) (p := { p with dh := 90, gme := 157e-9, hg := ⟨2, 10⟩ }) (by norm_num) (by norm_num) (by norm_num) (by norm_num)
  obtain ⟨-, -, q', e', -⟩ := C38_total (kst := ⟨2, 0⟩) (p := { p with dh := 90, gme := 157e-9, hg := ⟨2, 10⟩ }) (by norm_num) (by norm_num) (by norm_num) (by norm_num)
  obtain ⟨-, -, r, f, -⟩ := C38_total (kst := ⟨0, 0⟩) (p := { p with dh := 200, gme := 157e-9, hg := ⟨2, 10⟩ }) (by norm_num) (by norm_num) (by norm_num) (by norm_num)
  have s := C94_siting (p := { p with dh := 90, gme := 157e-9, hg := ⟨2, 10⟩ }) (by norm_num) (by norm_num) (by norm_num) (by norm_num)
    (by norm_num) (by norm_num) (by norm_num) (by norm_num) e e'
  have t := C94_rough (p := { p with dh := 90, gme := 157e-9, hg := ⟨2, 10⟩ }) (dh := 200) (by norm_num) (by norm_num) (by norm_num) (by norm_num) (by norm_num) e f
  exact ⟨⟨q, q', e, e', s.1.1⟩, q, r, e, f, (t.2.2 le_rfl).1⟩

end Itm.Props
