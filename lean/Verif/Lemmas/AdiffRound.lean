import Verif.Lemmas.DiffRound
import Verif.Lemmas.WeightRound
import Verif.Lemmas.DiffReal
import Verif.Spec.DiffData

/-! The diffraction attenuation at one distance in rounding arithmetic. -/

namespace Itm
open Itm.Spec
variable {α : Type} [PyNum α] {R : Rounding α}

namespace RL
variable {a : α} {x r t : ℝ}

theorem sq_rel (h : RL R a x r) (hr : r ≤ 1 / 100) (h1 : 1e-40 ≤ x ^ 2) (h2 : x ≤ 1e20) (ht : 2.1 * r + 3e-15 ≤ t) : RL R (npow a 2) (x ^ 2) t := by
  have hp := h.pos
  have r0 := h.nonneg
  have n : NR R a x 1e20 r 0 := ⟨h.fin, by rw [abs_of_pos hp, add_zero]; exact h.err, by rw [abs_of_pos hp]; exact h2⟩
  have rr : r * r ≤ 1 / 100 * r := mul_le_mul_of_nonneg_right hr r0
  have n2 := n.sq (Z := 1e40) (r' := 2.05 * r + 2e-15) (t' := 1e-99) r0 le_rfl (by norm_num; linarith) (by norm_num) (by norm_num at *; linarith)
    (by norm_num at *; linarith) (by norm_num)
  have x2 : 0 < x ^ 2 := by positivity
  refine ⟨n2.fin, n2.err.trans ?_, h1, (le_abs_self _).trans n2.bound⟩
  rw [abs_of_pos x2]
  have := mul_le_mul_of_nonneg_right ht x2.le
  have := mul_nonneg r0 x2.le
  norm_num at *
  linarith

/-- The cube root by `**`. -/
theorem third (h : RL R a x r) (hr : r ≤ 1 / 100) (h1 : 1 ≤ x) (ht : r + 4e-13 ≤ t) :
    pyPow a Itm.third = .ok (PyNum.rpow a Itm.third) ∧ RL R (PyNum.rpow a Itm.third) (x ^ (1 / 3 : ℝ)) t := by
  have hx := h.pos
  have r0 := h.nonneg
  have hva := h.val_pos (by linarith)
  have ha := h.fin
  obtain ⟨f0, v0⟩ := fin_zero R
  refine ⟨?_, ?_⟩
  · unfold pyPow
    rw [if_neg (by rw [R.lt _ _ ha f0, v0]; exact not_lt.2 hva.le), if_neg]
    rintro ⟨k, -⟩
    rw [pyEq_round ha f0, v0] at k
    exact hva.ne' k
  have o1 := Near.lit_int R (m := 10) (s := true) (k := 1) 1 (by norm_num) (by norm_num)
  have o3 := Near.lit_int R (m := 30) (s := true) (k := 1) 3 (by norm_num) (by norm_num)
  have v1 : R.val (1.0 : α) = 1 := by rw [o1.2]; norm_num
  have v3 : R.val (3.0 : α) = 3 := by rw [o3.2]; norm_num
  obtain ⟨ft, vt⟩ := R.div (1.0 : α) 3.0 o1.1 o3.1 (by rw [v3]; norm_num) (by rw [v1, v3]; exact le_roundBig (by rw [abs_of_pos] <;> norm_num))
  rw [v1, v3] at vt
  have hth : |R.val (Itm.third : α) - 1 / 3| ≤ 4e-16 := by
    change |R.val ((1.0 : α) / 3.0) - 1 / 3| ≤ 4e-16
    rw [vt]
    refine (Near.rnd_err R (M := 1 / 3) (by rw [abs_of_pos (by norm_num)]) (by norm_num)).trans (by norm_num)
  change R.fin (Itm.third : α) at ft
  generalize (Itm.third : α) = k at *
  clear vt v1 v3 o1 o3
  have hl := Props.log_size h.lo h.hi
  have hld : |Real.log (R.val a) - Real.log x| ≤ 1.1 * r := by
    rw [← Real.log_div hva.ne' hx.ne', abs_le]
    have hb : 1 - r ≤ R.val a / x ∧ R.val a / x ≤ 1 + r := by
      rw [le_div_iff₀ hx, div_le_iff₀ hx]; exact ⟨h.ge, h.le⟩
    constructor
    · have h3 := Real.one_sub_inv_le_log_of_pos (div_pos hva hx)
      have h4 : (R.val a / x)⁻¹ ≤ 1 + 1.1 * r := by
        refine (inv_anti₀ (by linarith) hb.1).trans ?_
        rw [inv_le_iff_one_le_mul₀ (by linarith)]
        nlinarith
      linarith
    · have h3 := Real.log_le_sub_one_of_pos (div_pos hva hx)
      linarith [hb.2]
  have hdelta : |R.val k * Real.log (R.val a) - Real.log x / 3| ≤ 0.4 * r + 1e-13 := by
    rw [show R.val k * Real.log (R.val a) - Real.log x / 3 =
      (R.val k - 1 / 3) * Real.log (R.val a) + (Real.log (R.val a) - Real.log x) / 3 by ring]
    have hla : |Real.log (R.val a)| ≤ 101 := by
      have := abs_sub_abs_le_abs_sub (Real.log (R.val a)) (Real.log x)
      linarith
    refine (abs_add_le _ _).trans ?_
    rw [abs_mul, abs_div, abs_of_pos (by norm_num : (0 : ℝ) < 3)]
    have h5 : |R.val k - 1 / 3| * |Real.log (R.val a)| ≤ 4e-16 * 101 := mul_le_mul hth hla (abs_nonneg _) (by norm_num)
    have h6 : |Real.log (R.val a) - Real.log x| / 3 ≤ 1.1 * r / 3 := by gcongr
    refine (add_le_add h5 h6).trans ?_
    clear * - r0
    norm_num
    linarith
  have ex : x ^ (1 / 3 : ℝ) = Real.exp (Real.log x / 3) := by rw [Real.rpow_def_of_pos hx]; congr 1; ring
  have ea : R.val a ^ R.val k = Real.exp (R.val k * Real.log (R.val a)) := by rw [Real.rpow_def_of_pos hva]; congr 1; ring
  have hpow : |R.val a ^ R.val k - x ^ (1 / 3 : ℝ)| ≤ (0.8 * r + 2e-13) * x ^ (1 / 3 : ℝ) := by
    rw [ea, ex]
    have e2 : Real.exp (R.val k * Real.log (R.val a)) - Real.exp (Real.log x / 3) =
        Real.exp (Real.log x / 3) * (Real.exp (R.val k * Real.log (R.val a) - Real.log x / 3) - 1) := by
      rw [mul_sub, ← Real.exp_add, mul_one]; congr 2; ring
    rw [e2, abs_mul, abs_of_pos (Real.exp_pos _), mul_comm]
    refine mul_le_mul_of_nonneg_right ?_ (Real.exp_pos _).le
    refine (Real.abs_exp_sub_one_le (hdelta.trans (by norm_num; linarith))).trans ?_
    clear * - hdelta
    norm_num at *
    linarith
  have y1 : 1 ≤ x ^ (1 / 3 : ℝ) := Real.one_le_rpow h1 (by norm_num)
  have y2 : x ^ (1 / 3 : ℝ) ≤ 1e40 := by
    refine le_trans ?_ h.hi
    exact (Real.rpow_le_rpow_of_exponent_le h1 (by norm_num : (1 / 3 : ℝ) ≤ 1)).trans (Real.rpow_one x).le
  generalize x ^ (1 / 3 : ℝ) = y at *
  have hyb : R.val a ^ R.val k ≤ 2 * y := by
    have := (abs_le.1 hpow).2
    have hh : (0.8 * r + 2e-13) * y ≤ 1 * y := mul_le_mul_of_nonneg_right (by norm_num; linarith) (by linarith)
    linarith
  obtain ⟨f, hr'⟩ := R.rpow a k ha ft hva (le_roundBig (hyb.trans (by norm_num at y2 ⊢; linarith)))
  have hp0 := Real.rpow_nonneg hva.le (R.val k)
  have h7 : roundEps * R.val a ^ R.val k ≤ 1e-15 * (2 * y) := mul_le_mul roundEps_le hyb hp0 (by norm_num)
  have h8 := roundTiny_le
  refine ⟨f, ?_, le_trans (by norm_num) y1, y2⟩
  have h9 := abs_sub_le (R.val (PyNum.rpow a k)) (R.val a ^ R.val k) y
  have h10 := mul_le_mul_of_nonneg_right ht (by linarith : 0 ≤ y)
  have h11 := mul_nonneg r0 (by linarith : 0 ≤ y)
  clear * - h7 h8 h9 h10 h11 hr' hpow y1
  norm_num at *
  linarith

end RL

namespace Props

/-- The knife-edge attenuation for a parameter that has been computed. -/
theorem knife_rel (R : Rounding α) {v : α} {x : ℝ} (h : RL R v x 2e-10) (h2 : x ≤ 1e12) (hq : 1e-40 ≤ √x) :
    ∃ a b, aknfe v = .ok a ∧ aknfe x = .ok b ∧ NB R a b 500 0.0191 ∧ (1e-6 ≤ |x - 5.76| → |R.val a - b| ≤ 1e-8) := by
  have hp := h.pos
  have hf := h.fin
  have hv := h.val_pos (by norm_num)
  obtain ⟨lf, le⟩ := lit_knife R
  obtain ⟨f0, v0⟩ := fin_zero R
  have c0 : ¬ v ≤ (0.0 : α) := by rw [R.le v _ hf f0, v0]; exact not_le.2 hv
  have c0' : ¬ x ≤ (0.0 : ℝ) := by rw [zero_lit]; exact not_le.2 hp
  have herr := abs_le.1 h.err
  rw [abs_le] at le
  -- both formulas
  have low : x ≤ 6 →
      (do let v2 := if v ≤ 0.0 then 0.00001 else v
          let s ← mathSqrt v2
          pure (6.02 + 9.11 * s - 1.27 * v2) : Py α) = .ok (6.02 + 9.11 * PyNum.sqrt v - 1.27 * v) ∧
      (do let v2 := if x ≤ 0.0 then 0.00001 else x
          let s ← mathSqrt v2
          pure (6.02 + 9.11 * s - 1.27 * v2) : Py ℝ) = .ok (6.02 + 9.11 * √x - 1.27 * x) ∧
      NB R (6.02 + 9.11 * PyNum.sqrt v - 1.27 * v) (6.02 + 9.11 * √x - 1.27 * x) 50 9e-9 := by
    intro k
    have sq : √x ≤ 2.5 := Real.sqrt_le_iff.2 ⟨by norm_num, k.trans (by norm_num)⟩
    obtain ⟨s, e⟩ := h.sqrt (t := 2.1e-10) (by norm_num) (by norm_num) hq (sq.trans (by norm_num))
    have hs : NB R (PyNum.sqrt v) (√x) 2.5 6e-10 := ⟨⟨s.fin, s.err.trans (by norm_num at *; linarith)⟩, by rw [abs_of_nonneg (Real.sqrt_nonneg _)]; exact sq⟩
    have hx : NB R v x 6 1.2e-9 := ⟨⟨hf, h.err.trans (by norm_num at *; linarith)⟩, by rw [abs_of_pos hp]; exact k⟩
    have l1 : NB R (6.02 : α) (6.02 : ℝ) 6.02 7e-15 := NB.lit R (by norm_num) (by norm_num) (by norm_num)
    have l2 : NB R (9.11 : α) (9.11 : ℝ) 9.11 1e-14 := NB.lit R (by norm_num) (by norm_num) (by norm_num)
    have l3 : NB R (1.27 : α) (1.27 : ℝ) 1.27 2e-15 := NB.lit R (by norm_num) (by norm_num) (by norm_num)
    have m1 : NB R (9.11 * PyNum.sqrt v) (9.11 * √x) 30 5.6e-9 := l2.mul hs (by norm_num) (by norm_num) (by norm_num)
    have m2 : NB R (1.27 * v) (1.27 * x) 8 1.7e-9 := l3.mul hx (by norm_num) (by norm_num) (by norm_num)
    have s1 : NB R (6.02 + 9.11 * PyNum.sqrt v) (6.02 + 9.11 * √x) 40 5.7e-9 := l1.add m1 (by norm_num) (by norm_num) (by norm_num)
    rw [if_neg c0, if_neg c0']
    dsimp only
    rw [e, ok_bind, mathSqrt_ok hp.le, ok_bind, pure_ok, pure_ok]
    exact ⟨rfl, rfl, s1.sub m2 (by norm_num) (by norm_num) (by norm_num)⟩
  have high : (do let l ← npLog v; pure (12.953 + 4.343 * l) : Py α) = .ok (12.953 + 4.343 * PyNum.log v) ∧
      (do let l ← npLog x; pure (12.953 + 4.343 * l) : Py ℝ) = .ok (12.953 + 4.343 * Real.log x) ∧
      NB R (12.953 + 4.343 * PyNum.log v) (12.953 + 4.343 * Real.log x) 500 9e-9 := by
    obtain ⟨e, n⟩ := RL.log (g := 5e-10) h (by norm_num) (by norm_num)
    have l1 : NB R (12.953 : α) (12.953 : ℝ) 13 2e-14 := NB.lit R (by norm_num) (by norm_num) (by norm_num)
    have l2 : NB R (4.343 : α) (4.343 : ℝ) 4.343 6e-15 := NB.lit R (by norm_num) (by norm_num) (by norm_num)
    have m : NB R (4.343 * PyNum.log v) (4.343 * Real.log x) 440 3e-9 := l2.mul n (by norm_num) (by norm_num) (by norm_num)
    rw [e, ok_bind, npLog_ok hp, ok_bind, pure_ok, pure_ok]
    exact ⟨rfl, rfl, l1.add m (by norm_num) (by norm_num) (by norm_num)⟩
  unfold aknfe
  by_cases hc : 1e-6 ≤ |x - 5.76|
  · by_cases k : x < 5.76
    · have c : v < (5.76 : α) := by
        rw [R.lt v _ hf lf]
        rw [abs_of_neg (by linarith)] at hc
        clear low high
        norm_num at *; linarith [le.1, herr.2]
      obtain ⟨e1, e2, n⟩ := low (k.le.trans (by norm_num))
      rw [if_pos c, if_pos k, e1, e2]
      exact ⟨_, _, rfl, rfl, (n.mono (by norm_num)).tight (n.bound.trans (by norm_num)), fun _ => n.err.trans (by norm_num)⟩
    · have c : ¬ v < (5.76 : α) := by
        rw [R.lt v _ hf lf]
        rw [abs_of_nonneg (by linarith)] at hc
        clear low high
        norm_num at *; linarith [le.2, herr.1]
      obtain ⟨e1, e2, n⟩ := high
      rw [if_neg c, if_neg k, e1, e2]
      exact ⟨_, _, rfl, rfl, n.mono (by norm_num), fun _ => n.err.trans (by norm_num)⟩
  have hc' : |x - 5.76| ≤ 1e-6 := (not_le.1 hc).le
  obtain ⟨e1, e2, n1⟩ := low (by have := (abs_le.1 hc').2; norm_num at *; linarith)
  obtain ⟨e3, e4, n2⟩ := high
  have g := knife_gap hc' e2 e4
  by_cases k : x < 5.76 <;> by_cases c : v < (5.76 : α)
  · rw [if_pos c, if_pos k, e1, e2]; exact ⟨_, _, rfl, rfl, (n1.mono (by norm_num)).tight (n1.bound.trans (by norm_num)), fun h => absurd h hc⟩
  · rw [if_neg c, if_pos k, e3, e2]
    exact ⟨_, _, rfl, rfl, ⟨⟨n2.fin, (abs_sub_le _ _ _).trans (le_trans (add_le_add n2.err ((abs_sub_comm _ _).trans_le g)) (by norm_num))⟩, n1.bound.trans (by norm_num)⟩, fun h => absurd h hc⟩
  · rw [if_pos c, if_neg k, e1, e4]
    exact ⟨_, _, rfl, rfl, ⟨⟨n1.fin, (abs_sub_le _ _ _).trans (le_trans (add_le_add n1.err g) (by norm_num))⟩, n2.bound⟩, fun h => absurd h hc⟩
  · rw [if_neg c, if_neg k, e3, e4]; exact ⟨_, _, rfl, rfl, n2.mono (by norm_num), fun h => absurd h hc⟩

/-- One obstacle. -/
theorem obstacle_rel {q ds dl : α} {q' ds' dl' : ℝ} (hq : RL R q q' 1.2e-10) (q1 : 1e-13 ≤ q') (q2 : q' ≤ 1e8) (hs : RL R ds ds' 2e-15) (s1 : 1 ≤ ds') (s2 : ds' ≤ 1e7)
    (hl : RL R dl dl' 0) (l1 : 1 ≤ dl') (l2 : dl' ≤ 1e7) :
    ∃ v a b, (q * dl) /! (ds + dl) = .ok v ∧ (q' * dl') /! (ds' + dl') = .ok (q' * dl' / (ds' + dl')) ∧ aknfe v = .ok a ∧
      aknfe (q' * dl' / (ds' + dl')) = .ok b ∧ NB R a b 500 0.0191 ∧ (1e-6 ≤ |q' * dl' / (ds' + dl') - 5.76| → |R.val a - b| ≤ 1e-8) := by
  have p1 : 1e-13 * 1 ≤ q' * dl' := mul_le_mul q1 l1 (by norm_num) (by linarith)
  have p2 : q' * dl' ≤ 1e8 * 1e7 := mul_le_mul q2 l2 (by linarith) (by norm_num)
  have m : RL R (q * dl) (q' * dl') 1.3e-10 := hq.mul hl (by norm_num) (by norm_num) (le_trans (by norm_num) p1) (p2.trans (by norm_num)) (by norm_num)
  have s : RL R (ds + dl) (ds' + dl') 4e-15 := hs.add (hl.mono (by norm_num)) (by norm_num) (by norm_num at *; linarith) (by norm_num)
  have sp := s.pos
  have v1 : 1e-21 ≤ q' * dl' / (ds' + dl') := by
    rw [le_div_iff₀ sp]
    refine le_trans ?_ p1
    norm_num at *; linarith
  have v2 : q' * dl' / (ds' + dl') ≤ 1e8 := by
    rw [div_le_iff₀ sp]
    have : q' * dl' ≤ 1e8 * dl' := mul_le_mul_of_nonneg_right q2 (by linarith)
    norm_num at *; linarith
  obtain ⟨d, e⟩ := m.div s (t := 2e-10) (by norm_num) (by norm_num) (le_trans (by norm_num) v1) (v2.trans (by norm_num)) (by norm_num)
  obtain ⟨a, b, e1, e2, n⟩ := knife_rel R d (v2.trans (by norm_num)) (Real.le_sqrt_of_sq_le (le_trans (by norm_num) v1))
  exact ⟨_, a, b, e, pyDiv_ok sp.ne', e1, e2, n⟩

set_option maxHeartbeats 1000000 in
theorem parts_round (R : Rounding α) {d : α} {p : PropSt α} {p' : PropSt ℝ} {v : DiffData α} (hp : v.In p) (hp' : (v.map R.val).In p') (hd : R.fin d)
    (hv : v.All R.fin) (ho : (v.map R.val).Ordinary (R.val d)) :
    ∃ a k a' k', adiffParts d p = .ok (a, k) ∧ adiffParts (R.val d) p' = .ok (a', k') ∧ NB R a a' 1e5 5e-5 ∧ NB R k k' 1000 0.039 ∧
      ((v.map R.val).Clear (R.val d) → |R.val k - k'| ≤ 3e-8) := by
  obtain ⟨i1, i2, i3, i4, i5, ⟨h, i6, i7, i8⟩, c, i9, i10, -, -, -, i11, i12⟩ := hp
  obtain ⟨j1, j2, j3, j4, j5, ⟨h', j6, j7, j8⟩, c', j9, j10, -, -, -, j11, j12⟩ := hp'
  obtain ⟨f1, f2, f3, f4, f5, f6, f7, f8, -, -, -, f12, f13⟩ := hv
  have o1 := ho.dist
  have o2 := ho.horizons
  have o3 := ho.horizon0
  have o4 := ho.horizon1
  have o5 := ho.curvature
  have o6 := ho.elevation
  have o7 := ho.bend
  have o8 := ho.wave
  have o9 := ho.waves
  have o10 := ho.ground
  have o11 := ho.height
  have o12 := ho.consts.1
  unfold DiffData.Clear DiffData.fresnel
  simp only [DiffData.angle, DiffData.gap, DiffData.map] at *
  clear ho
  -- angle
  have dg : NB R (d * v.gme) (R.val d * R.val v.gme) 2 3e-15 :=
    (NB.self hd (X := 1e7) (by rw [abs_of_nonneg (by linarith)]; exact o1.2)).mul (NB.self f3 (X := 2e-7) (by rw [abs_of_nonneg o5.1]; exact o5.2)) (by norm_num) (by norm_num) (by norm_num)
  have tn : Near R (v.tha + d * v.gme) (R.val v.tha + R.val d * R.val v.gme) 4.1e-15 := by
    refine (Near.self f6).add dg.toNear (M := 1.01) ?_ (by norm_num) (by norm_num)
    rw [abs_of_nonneg (le_trans (by norm_num) o7.1)]
    have := o7.2
    clear * - this
    norm_num at *; linarith
  have th : RL R (v.tha + d * v.gme) (R.val v.tha + R.val d * R.val v.gme) 5e-11 := by
    refine ⟨tn.fin, tn.err.trans ?_, le_trans (by norm_num) o7.1, o7.2.trans (by norm_num)⟩
    clear * - o7
    norm_num at *; linarith
  clear tn dg
  -- gap
  have ds2 : R.val d - R.val v.dla ≤ 1e7 := by linarith
  have ds : RL R (d - v.dla) (R.val d - R.val v.dla) 2e-15 := by
    obtain ⟨f, e⟩ := R.sub d v.dla hd f7 (le_roundBig (by rw [abs_of_nonneg (by linarith)]; exact ds2.trans (by norm_num)))
    exact RL.of_rnd f e (r := 0) (by simp) (le_trans (by norm_num) o2.2) (ds2.trans (by norm_num)) (by norm_num) (by norm_num)
  have wn : RL R v.wn (R.val v.wn) 0 := RL.self f4 (le_trans (by norm_num) o8.1) (o8.2.trans (by norm_num))
  have r0 : RL R v.dl0 (R.val v.dl0) 0 := RL.self f1 (le_trans (by norm_num) o3.1) (o3.2.trans (by norm_num))
  have r1 : RL R v.dl1 (R.val v.dl1) 0 := RL.self f2 (le_trans (by norm_num) o4.1) (o4.2.trans (by norm_num))
  have rq : RL R v.qk (R.val v.qk) 0 := RL.self f8 (le_trans (by norm_num) o10.1) (o10.2.trans (by norm_num))
  have eT : h'.tha + R.val d * p'.gme = R.val v.tha + R.val d * R.val v.gme := by rw [j7, j3]
  have eD : R.val d - h'.dla = R.val d - R.val v.dla := by rw [j8]
  generalize R.val v.tha + R.val d * R.val v.gme = T at *
  generalize R.val d - R.val v.dla = D at *
  have Tp := th.pos
  have Wp := wn.pos
  have Dp := ds.pos
  generalize R.val v.wn = W at *
  have T2 : T ^ 2 ≤ 1 := pow_le_one₀ Tp.le o7.2
  have T1 : 1e-8 ≤ T ^ 2 := le_trans (by norm_num) (pow_le_pow_left₀ (by norm_num) o7.1 2)
  -- Fresnel parameter
  have l1 : RL R (0.0795775 : α) (0.0795775 : ℝ) 1.5e-15 := RL.lit R (by norm_num) (by norm_num)
  have b1 : 0.0795775 * W ≤ 1e3 := by have := o8.2; clear * - this; norm_num at *; linarith
  have b1' : 7e-4 ≤ 0.0795775 * W := by have := o8.1; clear * - this; norm_num at *; linarith
  have q1 : RL R (0.0795775 * v.wn) (0.0795775 * W) 4e-15 := l1.mul wn (by norm_num) (by norm_num) (le_trans (by norm_num) b1') (b1.trans (by norm_num)) (by norm_num)
  have b2 : 0.0795775 * W * D ≤ 1e3 * 1e7 := mul_le_mul b1 ds2 Dp.le (by norm_num)
  have b2' : 7e-4 * 1 ≤ 0.0795775 * W * D := mul_le_mul b1' o2.2 (by norm_num) (le_trans (by norm_num) b1')
  have q2 : RL R (0.0795775 * v.wn * (d - v.dla)) (0.0795775 * W * D) 1e-14 := q1.mul ds (by norm_num) (by norm_num) (le_trans (by norm_num) b2') (b2.trans (by norm_num)) (by norm_num)
  have t2 : RL R (npow (v.tha + d * v.gme) 2) (T ^ 2) 1.1e-10 := th.sq_rel (by norm_num) (le_trans (by norm_num) T1) (o7.2.trans (by norm_num)) (by norm_num)
  have b3 : 0.0795775 * W * D * T ^ 2 ≤ 1e8 := by
    have e : 0.0795775 * W * D * T ^ 2 = 0.0795775 * (D * W * T ^ 2) := by ring
    rw [e]
    have := o9.2
    clear * - this
    norm_num at *; linarith
  have b3' : 7e-4 * 1 * 1e-8 ≤ 0.0795775 * W * D * T ^ 2 := mul_le_mul b2' T1 (by norm_num) (le_trans (by norm_num) b2')
  have q3 : RL R (0.0795775 * v.wn * (d - v.dla) * npow (v.tha + d * v.gme) 2) (0.0795775 * W * D * T ^ 2) 1.2e-10 :=
    q2.mul t2 (by norm_num) (by norm_num) (le_trans (by norm_num) b3') (b3.trans (by norm_num)) (by norm_num)
  obtain ⟨v0, k0, k0', e1, e2, e3, e4, n0, s0⟩ := obstacle_rel q3 (le_trans (by norm_num) b3') b3 ds o2.2 ds2 r0 o3.1 o3.2
  obtain ⟨v1, k1, k1', e5, e6, e7, e8, n1, s1⟩ := obstacle_rel q3 (le_trans (by norm_num) b3') b3 ds o2.2 ds2 r1 o4.1 o4.2
  -- rounded earth
  have a1 : 1 ≤ D / T := by rw [le_div_iff₀ Tp]; linarith [o2.2, o7.2]
  have a2 : D / T ≤ 1e11 := by
    rw [div_le_iff₀ Tp]
    have := mul_le_mul_of_nonneg_left o7.1 (by norm_num : (0 : ℝ) ≤ 1e11)
    clear * - this ds2
    norm_num at *; linarith
  obtain ⟨a, ea⟩ := ds.div th (t := 6e-11) (by norm_num) (by norm_num) (le_trans (by norm_num) a1) (a2.trans (by norm_num)) (by norm_num)
  have w1 : 1 ≤ D / T * W := by rw [div_mul_eq_mul_div, le_div_iff₀ Tp, one_mul]; exact o9.1
  have w2 : D / T * W ≤ 1e11 * 1e4 := mul_le_mul a2 o8.2 Wp.le (by norm_num)
  have aw := a.mul wn (t := 7e-11) (by norm_num) (by norm_num) (le_trans (by norm_num) w1) (w2.trans (by norm_num)) (by norm_num)
  obtain ⟨ew, wa⟩ := aw.third (t := 8e-11) (by norm_num) w1 (by norm_num)
  have ew' : pyPow (D / T * W) (third : ℝ) = .ok ((D / T * W) ^ (1 / 3 : ℝ)) := by rw [pyPow_third (by linarith), third_real]
  have y1 : 1 ≤ (D / T * W) ^ (1 / 3 : ℝ) := Real.one_le_rpow w1 (by norm_num)
  have y3 : (D / T * W) ^ (1 / 3 : ℝ) * T ≤ 1e3 := by
    have e : ((D / T * W) ^ (1 / 3 : ℝ) * T) ^ 3 = D * W * T ^ 2 := by
      rw [mul_pow, ← Real.rpow_natCast, ← Real.rpow_mul (by linarith)]
      norm_num
      field_simp
    by_contra hc
    push Not at hc
    have h3 := pow_lt_pow_left₀ hc (by norm_num) (by norm_num : 3 ≠ 0)
    rw [e] at h3
    have := o9.2
    clear * - this h3
    norm_num at *; linarith
  have y2 : (D / T * W) ^ (1 / 3 : ℝ) ≤ 1e7 := by
    have := mul_le_mul_of_nonneg_left o7.1 (by linarith : 0 ≤ (D / T * W) ^ (1 / 3 : ℝ))
    clear * - this y3
    norm_num at *; linarith
  generalize (D / T * W) ^ (1 / 3 : ℝ) = Y at *
  have Yp : 0 < Y := by linarith
  have g1 : R.val v.qk / Y ≤ 1 := by rw [div_le_one Yp]; linarith
  have g2 : 1e-14 ≤ R.val v.qk / Y := by
    rw [le_div_iff₀ Yp]
    have := o10.1
    clear * - this y2
    norm_num at *; linarith
  obtain ⟨pk, ep⟩ := rq.div wa (t := 9e-11) (by norm_num) (by norm_num) (le_trans (by norm_num) g2) (g1.trans (by norm_num)) (by norm_num)
  have l2 : NB R (1.607 : α) (1.607 : ℝ) 1.607 2e-15 := NB.lit R (by norm_num) (by norm_num) (by norm_num)
  have pn : NB R (v.qk / PyNum.rpow ((d - v.dla) / (v.tha + d * v.gme) * v.wn) third) (R.val v.qk / Y) 1 9.1e-11 := by
    refine ⟨⟨pk.fin, pk.err.trans ?_⟩, by rw [abs_of_pos pk.pos]; exact g1⟩
    clear * - g1
    norm_num at *; linarith
  have sn := l2.sub pn (Z := 3) (g := 9.2e-11) (by norm_num) (by norm_num) (by norm_num)
  have z1 : 0.6 ≤ 1.607 - R.val v.qk / Y := by clear * - g1; norm_num at *; linarith
  have z2 : 1.607 - R.val v.qk / Y ≤ 1.607 := by have := pk.pos; linarith
  have sr : RL R (1.607 - v.qk / PyNum.rpow ((d - v.dla) / (v.tha + d * v.gme) * v.wn) third) (1.607 - R.val v.qk / Y) 1.6e-10 := by
    refine ⟨sn.fin, sn.err.trans ?_, le_trans (by norm_num) z1, z2.trans (by norm_num)⟩
    clear * - z1
    norm_num at *; linarith
  have l3 : RL R (151.0 : α) (151.0 : ℝ) 1.5e-15 := RL.lit R (by norm_num) (by norm_num)
  have u1 : 90 ≤ (1.607 - R.val v.qk / Y) * 151.0 := by clear * - z1; norm_num at *; linarith
  have u2 : (1.607 - R.val v.qk / Y) * 151.0 ≤ 243 := by clear * - z2; norm_num at *; linarith
  have m1 := sr.mul l3 (t := 1.7e-10) (by norm_num) (by norm_num) (le_trans (by norm_num) u1) (u2.trans (by norm_num)) (by norm_num)
  obtain ⟨U, hU⟩ : ∃ U, (1.607 - R.val v.qk / Y) * 151.0 = U := ⟨_, rfl⟩
  rw [hU] at m1 u1 u2
  have u3 : 90 * 1 ≤ U * Y := mul_le_mul u1 y1 (by norm_num) (by linarith)
  have u4 : U * Y ≤ 243 * 1e7 := mul_le_mul u2 y2 Yp.le (by norm_num)
  have m2 := m1.mul wa (t := 2.6e-10) (by norm_num) (by norm_num) (le_trans (by norm_num) u3) (u4.trans (by norm_num)) (by norm_num)
  have u5 : 90 * 1 * 1e-4 ≤ U * Y * T := mul_le_mul u3 o7.1 (by norm_num) (by linarith)
  have u6 : U * Y * T ≤ 243 * 1e3 := by
    rw [mul_assoc]; exact mul_le_mul u2 y3 (mul_pos Yp Tp).le (by norm_num)
  have m3 := m2.mul th (t := 3.2e-10) (by norm_num) (by norm_num) (le_trans (by norm_num) u5) (u6.trans (by norm_num)) (by norm_num)
  have m4 : NR R _ (U * Y * T) 243e3 3.2e-10 0 := ⟨m3.fin, by rw [abs_of_pos m3.pos, add_zero]; exact m3.err, by rw [abs_of_pos m3.pos]; exact u6.trans (by norm_num)⟩
  have xh : NR R v.xht (R.val v.xht) 1e6 0 0 := NR.self f13 (by rw [abs_of_nonneg o11.1]; exact o11.2)
  have qn := m4.add xh (Z := 1.3e6) (r' := 3.3e-10) (t' := 1e-99) m3.pos.le o11.1 (by norm_num) (by norm_num) le_rfl le_rfl (by norm_num) (by norm_num) (by norm_num) (by norm_num)
  have Qp : 9e-3 ≤ U * Y * T + R.val v.xht := le_trans (by norm_num) (le_trans u5 (le_add_of_nonneg_right o11.1))
  have Qb : U * Y * T + R.val v.xht ≤ 1.3e6 := (le_abs_self _).trans qn.bound
  have qe : 3.3e-10 * |U * Y * T + R.val v.xht| + 1e-99 ≤ 3.4e-10 * (U * Y * T + R.val v.xht) := by
    rw [abs_of_pos (lt_of_lt_of_le (by norm_num) Qp)]
    clear * - Qp
    norm_num at *; linarith
  have qr := RL.mk (R := R) (r := 3.4e-10) qn.fin (qn.err.trans qe) (le_trans (by norm_num) Qp) (Qb.trans (by norm_num))
  have qb := qn.toNB (g := 4.4e-4) (by norm_num) (by norm_num)
  obtain ⟨el, ln⟩ := RL.log (g := 7e-10) qr (by norm_num) (by norm_num)
  have l4 : NB R (0.05751 : α) (0.05751 : ℝ) 0.05751 6e-17 := NB.lit R (by norm_num) (by norm_num) (by norm_num)
  have l5 : NB R (4.343 : α) (4.343 : ℝ) 4.343 6e-15 := NB.lit R (by norm_num) (by norm_num) (by norm_num)
  have m5 := l4.mul qb (Z := 7.5e4) (g := 2.6e-5) (by norm_num) (by norm_num) (by norm_num)
  have m6 := l5.mul ln (Z := 440) (g := 4e-9) (by norm_num) (by norm_num) (by norm_num)
  have m7 := m5.sub m6 (Z := 7.6e4) (g := 2.7e-5) (by norm_num) (by norm_num) (by norm_num)
  have m8 := m7.sub (NB.self f12 o12) (Z := 1e5) (g := 5e-5) (by norm_num) (by norm_num) (by norm_num)
  have kn := n0.add n1 (Z := 1000) (g := 0.039) (by norm_num) (by norm_num) (by norm_num)
  refine ⟨_, _, _, _, ?_, ?_, m8, kn, fun hc => ?_⟩
  · unfold adiffParts
    simp only [i6, i9, need, ok_bind, i1, i2, i3, i4, i7, i8, i10, i11, i12]
    rw [e1, ok_bind, e3, ok_bind, e5, ok_bind, e7, ok_bind, ea, ok_bind, ew, ok_bind, ep, ok_bind, el, ok_bind, pure_ok]
  · unfold adiffParts
    simp only [j6, j9, need, ok_bind, j1, j2, j4, j10, j11, j12, eT, eD, npow_real]
    rw [e2, ok_bind, e4, ok_bind, e6, ok_bind, e8, ok_bind, pyDiv_ok Tp.ne', ok_bind, ew', ok_bind, pyDiv_ok Yp.ne', ok_bind, hU, npLog_ok qr.pos, ok_bind, pure_ok]
  · have a0 := s0 hc.1
    have a1 := s1 hc.2
    have k0n : NB R k0 k0' 500 1e-8 := ⟨⟨n0.fin, a0⟩, n0.bound⟩
    have k1n : NB R k1 k1' 500 1e-8 := ⟨⟨n1.fin, a1⟩, n1.bound⟩
    exact (k0n.add k1n (Z := 1000) (g := 3e-8) (by norm_num) (by norm_num) (by norm_num)).err

theorem adiff_round (R : Rounding α) {d : α} {p : PropSt α} {p' : PropSt ℝ} {v : DiffData α} (hp : v.In p) (hp' : (v.map R.val).In p') (hd : R.fin d)
    (hv : v.All R.fin) (ho : (v.map R.val).Ordinary (R.val d)) :
    ∃ a b, adiff d p = .ok (a, p) ∧ adiff (R.val d) p' = .ok (b, p') ∧ NB R a b 2e5 0.05 ∧ ((v.map R.val).Clear (R.val d) → |R.val a - b| ≤ 1e-4) := by
  obtain ⟨a, k, a', k', e1, e2, na, nk, hc⟩ := parts_round R hp hp' hd hv ho
  obtain ⟨-, -, -, i4, i5, -, c, i9, -, i10, i11, i12, -, -⟩ := hp
  obtain ⟨-, -, -, j4, j5, -, c', j9, -, j10, j11, j12, -, -⟩ := hp'
  obtain ⟨-, -, -, f4, f5, -, -, -, f9, f10, f11, -, -⟩ := hv
  have o1 := ho.dist
  have o2 := ho.wave
  have o3 := ho.blend
  have o4 := ho.offset
  have o5 := ho.terrain
  have o6 := ho.consts.2
  simp only [DiffData.map] at j4 j5 j10 j11 j12 o2 o3 o4 o5 o6
  rw [← i4] at f4 j4 o2
  rw [← i5] at f5 j5 o5
  rw [← i10] at f9 j10 o3
  rw [← i11] at f10 j11 o4
  rw [← i12] at f11 j12 o6
  obtain ⟨w, w', e3, e4, nw, w0, w1⟩ := weight_round R i9 j9 hd o1.1 o1.2 f9 j10 o3.1 o3.2 f10 j11 o4.1 o4.2 f5 j5 o5.1 o5.2 f4 j4 (le_trans (by norm_num) o2.1) o2.2
  have z := fin_zero R
  have q1 : ¬ pyEq d 0.0 := by rw [pyEq_round hd z.1, z.2]; intro h; rw [h] at o1; norm_num at o1
  have q2 : ¬ pyEq (R.val d) 0.0 := by rw [pyEq_real]; intro h; rw [h] at o1; norm_num at o1
  have l1 : NB R (1.0 : α) (1.0 : ℝ) 1 2e-15 := NB.lit R (by norm_num) (by norm_num) (by norm_num)
  have wb : NB R w w' 1 1e-10 := ⟨nw, by rw [abs_of_pos w0]; exact w1⟩
  have m1 := na.mul wb (Z := 1e5) (g := 6.1e-5) (by norm_num) (by norm_num) (by norm_num)
  have m2' := l1.sub wb (Z := 2) (g := 1.1e-10) (by norm_num) (by norm_num) (by norm_num)
  have m2 : NB R (1.0 - w) (1.0 - w') 1 1.1e-10 := ⟨m2'.toNear, by rw [show (1.0 : ℝ) = 1 by norm_num, abs_le]; constructor <;> linarith⟩
  have af : NB R c.afo (R.val c.afo) 1e4 0 := NB.self f11 o6
  have fin := fun {g g' : ℝ} (nk : NB R k k' 1000 g) (h0 : 0 ≤ g) (h1 : g ≤ 1) (h : g + 7e-5 ≤ g') =>
    (m1.add (m2.mul nk (Z := 1000) (g := g + 1e-6) (by norm_num) (by norm_num at *; linarith) (by norm_num at *; linarith)) (Z := 1.1e5) (g := g + 6.3e-5) (by norm_num) (by norm_num at *; linarith) (by norm_num at *; linarith)).add
      af (Z := 2e5) (g := g') (by norm_num) (by norm_num at *; linarith) (by norm_num at *; linarith)
  refine ⟨_, _, ?_, ?_, fin (g' := 0.05) nk (by norm_num) (by norm_num) (by norm_num), fun h => ?_⟩
  · unfold adiff
    rw [if_neg q1, e1, ok_bind]
    dsimp only
    rw [e3, ok_bind, i9]
    rfl
  · unfold adiff
    rw [if_neg q2, e2, ok_bind]
    dsimp only
    rw [e4, ok_bind, j9, ← j12]
    rfl
  · exact (fin (g := 3e-8) (g' := 1e-4) ⟨⟨nk.fin, hc h⟩, nk.bound⟩ (by norm_num) (by norm_num) (by norm_num)).err

end Props
end Itm
