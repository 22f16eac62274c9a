import Verif.Lemmas.VarRound

/-! The set of coefficients in rounding arithmetic. -/

namespace Itm.Props
open Itm Spec
variable {α : Type} [PyNum α] {R : Rounding α}

/-- Two sets of coefficients that differ by rounding only. -/
structure VarClose (zd : ℝ) (v : VarC ℝ) (zd' : ℝ) (v' : VarC ℝ) : Prop where
  zd : |zd - zd'| ≤ 3e-14
  vmd : |v.vmd - v'.vmd| ≤ 3e-8
  sgtm : |v.sgtm - v'.sgtm| ≤ 3e-8
  sgtp : |v.sgtp - v'.sgtp| ≤ 3e-8
  sgtd : |v.sgtd - v'.sgtd| ≤ 3e-8
  tgtd : |v.tgtd - v'.tgtd| ≤ 3.5e-8 * zd'
  sgl : |v.sgl - v'.sgl| ≤ 3e-8
  vs0 : |√v.vs0 - √v'.vs0| ≤ 3e-8

theorem curv_abs {c1 c2 x1 x2 x3 : α} {c1' c2' x1' x2' x3' : ℝ} (hc : CurvConst R c1 c2 x1 x2 x3 c1' c2' x1' x2' x3') (d : ℝ) :
    |curv c1' c2' x1' x2' x3' d| ≤ 869 := by
  unfold curv
  simp only [npow_real]
  have e : (1.0 : ℝ) = 1 := by norm_num
  rw [e]
  have hn := hc.c2n
  have h1 := hc.c1.bound
  have h2 := hc.c2.bound
  rw [abs_of_nonneg hn] at h2
  have h3 : |c1' + c2' / (1 + ((d - x2') / x3') ^ 2)| ≤ 869 := by
    refine (abs_add_le _ _).trans ?_
    rw [abs_of_nonneg (by positivity : 0 ≤ c2' / (1 + ((d - x2') / x3') ^ 2))]
    have : c2' / (1 + ((d - x2') / x3') ^ 2) ≤ c2' := div_le_self hn (by nlinarith [sq_nonneg ((d - x2') / x3')])
    linarith
  rw [mul_div_assoc, abs_mul]
  have h4 : |(d / x1') ^ 2 / (1 + (d / x1') ^ 2)| ≤ 1 := by
    rw [abs_of_nonneg (by positivity), div_le_one (by positivity)]
    linarith
  calc _ ≤ (869 : ℝ) * 1 := mul_le_mul h3 h4 (abs_nonneg _) (by norm_num)
    _ = 869 := by norm_num

theorem curv_lower {c1 c2 x1 x2 x3 d : ℝ} (h1 : 2 ≤ c1) (h2 : 0 ≤ c2) (h3 : 8e4 ≤ x1) (h3' : x1 ≤ 6.4e5) (hd : 90 ≤ d) :
    3.8e-8 ≤ curv c1 c2 x1 x2 x3 d := by
  unfold curv
  simp only [npow_real]
  have e : (1.0 : ℝ) = 1 := by norm_num
  rw [e]
  have hx : 0 < x1 := lt_of_lt_of_le (by norm_num) h3
  have hW : 1.4e-4 ≤ d / x1 := by rw [le_div_iff₀ hx]; norm_num at *; linarith
  have h4 : 0 ≤ c2 / (1 + ((d - x2) / x3) ^ 2) := by positivity
  generalize c2 / (1 + ((d - x2) / x3) ^ 2) = A at *
  generalize d / x1 = W at *
  have hW2 : 1.96e-8 ≤ W ^ 2 := by
    have := mul_le_mul hW hW (by norm_num) (by norm_num at *; linarith)
    rw [pow_two]; norm_num at *; linarith
  have h5 : 1.9e-8 ≤ W ^ 2 / (1 + W ^ 2) := by
    rw [le_div_iff₀ (by positivity)]
    norm_num at *
    linarith
  rw [mul_div_assoc]
  calc (3.8e-8 : ℝ) = 2 * 1.9e-8 := by norm_num
    _ ≤ (c1 + A) * (W ^ 2 / (1 + W ^ 2)) := mul_le_mul (by linarith) h5 (by norm_num) (by linarith)

theorem vs0_round (ws : Bool) {de : α} {d : ℝ} (hd : NB R de d 1.1e7 2e-7) (hd0 : 90 ≤ d) :
    R.fin (if ws then 0.0 else npow (5.0 + 3.0 * PyNum.exp (-de / 100e3)) 2 : α) ∧
    0 ≤ R.val (if ws then 0.0 else npow (5.0 + 3.0 * PyNum.exp (-de / 100e3)) 2 : α) ∧
    R.val (if ws then 0.0 else npow (5.0 + 3.0 * PyNum.exp (-de / 100e3)) 2 : α) ≤ 100 ∧
    (ws = false → 24 ≤ R.val (if ws then 0.0 else npow (5.0 + 3.0 * PyNum.exp (-de / 100e3)) 2 : α)) ∧
    |√(R.val (if ws then 0.0 else npow (5.0 + 3.0 * PyNum.exp (-de / 100e3)) 2 : α)) -
      √(if ws then 0.0 else npow (5.0 + 3.0 * PyNum.exp (-d / 100e3)) 2 : ℝ)| ≤ 3e-8 := by
  cases ws
  · simp only [Bool.false_eq_true, if_false, rexp, npow_real]
    have h100 : NB R (100e3 : α) (100e3 : ℝ) 100e3 0 := by
      have := Near.lit_int R (m := 100) (s := false) (k := 3) 100000 (by norm_num) (by norm_num)
      exact ⟨Near.of_eq this.1 this.2, by norm_num⟩
    have hdp : 0 < d := by linarith
    have hdb := hd.bound
    rw [abs_of_pos hdp] at hdb
    have ha : Near R (-de / 100e3) (-d / 100e3) 3e-12 :=
      (hd.neg.toNear.div h100.toNear (Q := 110) (m := 100e3) (M := 111)
        (by rw [abs_div, abs_neg, abs_of_pos hdp, abs_of_pos (by norm_num : (0 : ℝ) < 100e3), div_le_iff₀ (by norm_num)]; norm_num at *; linarith)
        (by rw [abs_of_pos (by norm_num : (0 : ℝ) < 100e3)]) (by norm_num) (by norm_num) (by norm_num) (by norm_num)).1
    have hE1 : Real.exp (-d / 100e3) ≤ 1 := Real.exp_le_one_iff.2 (div_nonpos_of_nonpos_of_nonneg (by linarith) (by norm_num))
    have hE0 := Real.exp_pos (-d / 100e3)
    have hE : NB R (PyNum.exp (-de / 100e3)) (Real.exp (-d / 100e3)) 1 7e-12 :=
      ⟨ha.exp (M := 1) hE1 (by norm_num) (by norm_num) (by norm_num), by rw [abs_of_pos hE0]; exact hE1⟩
    generalize PyNum.exp (-de / 100e3) = Ea at *
    generalize Real.exp (-d / 100e3) = E at *
    have h3 : NB R (3.0 : α) (3.0 : ℝ) 3 4e-15 := NB.lit R (by norm_num) (by norm_num) (by norm_num)
    have h5 : NB R (5.0 : α) (5.0 : ℝ) 5 6e-15 := NB.lit R (by norm_num) (by norm_num) (by norm_num)
    have hs : NB R (5.0 + 3.0 * Ea) (5.0 + 3.0 * E) 8 3e-11 :=
      h5.add (h3.mul hE (Z := 3) (g := 2.2e-11) (by norm_num) (by norm_num) (by norm_num)) (by norm_num) (by norm_num) (by norm_num)
    have hS : 5 ≤ 5.0 + 3.0 * E := by norm_num; linarith
    generalize (5.0 : α) + 3.0 * Ea = s at *
    generalize (5.0 : ℝ) + 3.0 * E = S at *
    have hq : NB R (npow s 2) (S ^ 2) 64 6e-10 := hs.sq (by norm_num) (by norm_num) (by norm_num)
    have hS2 : 25 ≤ S ^ 2 := by nlinarith
    have hSb : S ^ 2 ≤ 64 := by have := hq.bound; rw [abs_of_nonneg (by positivity)] at this; exact this
    have hv1 : 24 ≤ R.val (npow s 2) := by have := hq.ge; norm_num at *; linarith
    have hv2 : R.val (npow s 2) ≤ 100 := by have := hq.le; norm_num at *; linarith
    refine ⟨hq.fin, by linarith, hv2, fun _ => hv1, ?_⟩
    obtain ⟨h1, h2⟩ : |√(R.val (npow s 2)) - √(S ^ 2)| ≤ 3e-8 ∧ True := by
      refine ⟨?_, trivial⟩
      have e1 := Real.sq_sqrt (by linarith : 0 ≤ R.val (npow s 2))
      have e2 := Real.sq_sqrt (by linarith : 0 ≤ S ^ 2)
      have p1 := Real.sqrt_nonneg (R.val (npow s 2))
      have p2 : 4 ≤ √(S ^ 2) := Real.le_sqrt_of_sq_le (by linarith)
      have herr := abs_le.1 hq.err
      rw [← e1, ← e2] at herr
      rw [← abs_le] at herr
      generalize √(R.val (npow s 2)) = y at *
      generalize √(S ^ 2) = z at *
      rw [show y ^ 2 - z ^ 2 = (y - z) * (y + z) by ring, abs_mul, abs_of_nonneg (by linarith : 0 ≤ y + z)] at herr
      have h9 := mul_le_mul_of_nonneg_left (by linarith : (4 : ℝ) ≤ y + z) (abs_nonneg (y - z))
      generalize |y - z| = w at *
      norm_num at *
      linarith
    exact h1
  · simp only [if_true]
    have fz := fin_zero (α := α) R
    refine ⟨fz.1, by rw [fz.2], by rw [fz.2]; norm_num, by simp, ?_⟩
    rw [fz.2]
    norm_num

/-- The internal relation between `sgtd` and `tgtd`. -/
theorem tgtd_round {B κ z : α} (fB : R.fin B) (hB : 2e-8 ≤ R.val B) (hBu : R.val B ≤ 263) (fκ : R.fin κ)
    (hκv : 0.79 ≤ R.val κ ∧ R.val κ ≤ 1.53) (fz : R.fin z) (hzv : 1 ≤ R.val z ∧ R.val z ≤ 100) :
    0 ≤ R.val (B * κ) ∧ R.val (B * κ) ≤ 1000 ∧ 2 * |R.val ((B - B * κ) * z)| ≤ R.val z * R.val (B * κ) := by
  have hD := R.mul B κ fB fκ (le_roundBig (by
    rw [abs_of_nonneg (mul_nonneg (by norm_num at *; linarith) (by norm_num at *; linarith [hκv.1]))]
    have := mul_le_mul hBu hκv.2 (by norm_num at *; linarith [hκv.1]) (by norm_num)
    norm_num at *; linarith))
  have hDb : |R.val (B * κ) - R.val B * R.val κ| ≤ 1e-10 * R.val B := by
    rw [hD.2]
    have h7 : |R.val B * R.val κ| ≤ R.val B * 1.53 := by
      rw [abs_of_nonneg (mul_nonneg (by norm_num at *; linarith) (by norm_num at *; linarith [hκv.1]))]
      exact mul_le_mul_of_nonneg_left hκv.2 (by norm_num at *; linarith)
    refine (Near.rnd_err R h7 (by norm_num at *; linarith)).trans ?_
    norm_num at *
    linarith
  have hDl : 0.78 * R.val B ≤ R.val (B * κ) ∧ R.val (B * κ) ≤ 1.54 * R.val B := by
    have h8 := abs_le.1 hDb
    have h9 := mul_le_mul_of_nonneg_left hκv.1 (by norm_num at *; linarith : 0 ≤ R.val B)
    have h10 := mul_le_mul_of_nonneg_left hκv.2 (by norm_num at *; linarith : 0 ≤ R.val B)
    constructor <;> norm_num at * <;> linarith [h8.1, h8.2]
  have hS := R.sub B (B * κ) fB hD.1 (le_roundBig (by
    rw [abs_le]; constructor <;> norm_num at * <;> linarith [hDl.1, hDl.2]))
  have hSb : |R.val (B - B * κ)| ≤ 0.4 * R.val (B * κ) := by
    have h11 : |R.val B - R.val (B * κ)| ≤ 0.36 * R.val (B * κ) := by
      rw [abs_le]; constructor <;> norm_num at * <;> linarith [hDl.1, hDl.2]
    have h12 := Near.rnd_err R h11 (by norm_num at *; linarith [hDl.2])
    rw [hS.2]
    have h13 := abs_sub_abs_le_abs_sub (R.rnd (R.val B - R.val (B * κ))) (R.val B - R.val (B * κ))
    generalize |R.rnd (R.val B - R.val (B * κ))| = a1 at *
    generalize |R.val B - R.val (B * κ)| = a2 at *
    norm_num at *
    linarith [hDl.1]
  have hT0 : |R.val (B - B * κ) * R.val z| ≤ 0.4 * R.val (B * κ) * R.val z := by
    rw [abs_mul, abs_of_nonneg (by linarith [hzv.1] : 0 ≤ R.val z)]
    exact mul_le_mul_of_nonneg_right hSb (by linarith [hzv.1])
  have hDp : 1e-8 ≤ R.val (B * κ) * R.val z := by
    calc (1e-8 : ℝ) = 1e-8 * 1 := by norm_num
      _ ≤ _ := mul_le_mul (by norm_num at *; linarith [hDl.1]) hzv.1 (by norm_num) (by norm_num at *; linarith [hDl.1])
  have hDq : R.val (B * κ) * R.val z ≤ 410 * 100 :=
    mul_le_mul (by norm_num at *; linarith [hDl.2]) hzv.2 (by linarith [hzv.1]) (by norm_num)
  have hT := R.mul (B - B * κ) z hS.1 fz (le_roundBig (hT0.trans (by norm_num at *; linarith)))
  have hTb : 2 * |R.val ((B - B * κ) * z)| ≤ R.val z * R.val (B * κ) := by
    rw [hT.2]
    have h12 := Near.rnd_err R hT0 (by norm_num at *; linarith)
    have h13 := abs_sub_abs_le_abs_sub (R.rnd (R.val (B - B * κ) * R.val z)) (R.val (B - B * κ) * R.val z)
    rw [mul_comm (R.val z)]
    have h14 : 0.4 * R.val (B * κ) * R.val z = 0.4 * (R.val (B * κ) * R.val z) := by ring
    rw [h14] at h12 hT0
    generalize |R.rnd (R.val (B - B * κ) * R.val z)| = a1 at *
    generalize |R.val (B - B * κ) * R.val z| = a2 at *
    generalize R.val (B * κ) * R.val z = a3 at *
    norm_num at *
    linarith
  exact ⟨by norm_num at *; linarith [hDl.1], by norm_num at *; linarith [hDl.2], hTb⟩

theorem varCoef_round {c : Climate α} {c' : Climate ℝ} (hc : ClimNear R c c') (hcg : ClimGood c') (m : VarMode) {g : FreqGain α} {g' : FreqGain ℝ}
    (hgm : NB R g.gm g'.gm 1.31 4e-12) (hgp : NB R g.gp g'.gp 1.31 4e-12) (hgp' : 0.9 ≤ g'.gp)
    {x : α} {x' : ℝ} (hx : R.fin x) (h3 : 3.8e3 ≤ x') (h4 : x' ≤ 1.4e6) (he : |R.val x - x'| ≤ 7e-14 * x')
    {dist dh wn : α} (hd : R.fin dist) (h1 : 1e3 ≤ R.val dist) (h2 : R.val dist ≤ 1e7)
    (hh : R.fin dh) (hh0 : 0 ≤ R.val dh) (hh1 : R.val dh ≤ 1e5) (hw : R.fin wn) (hw1 : 0.01 ≤ R.val wn) (hw2 : R.val wn ≤ 1e4) :
    ∃ v v', varCoef c m g x dist dh wn = .ok v ∧ varCoef c' m g' x' (R.val dist) (R.val dh) (R.val wn) = .ok v' ∧
      VarSized R c.zd v ∧ VarClose (R.val c.zd) (valC R v) c'.zd v' ∧ (m.ws = false → 24 ≤ R.val v.vs0) := by
  obtain ⟨de, d', ed, ed', nd, hd90⟩ := effDist_round hd h1 h2 hx h3 h4 he
  obtain ⟨s, s', es, es', ns⟩ := sgl_round m.wl hd h1 h2 hh hh0 hh1 hw hw1 hw2
  obtain ⟨v1, v2, v3, v4, v5⟩ := vs0_round m.ws nd hd90
  have cv := curv_round hc.v nd (by norm_num)
  have cm := curv_round hc.sm nd (by norm_num)
  have cp := curv_round hc.sp nd (by norm_num)
  have bv := curv_abs hc.v d'
  have bm : |curv c'.csm1 c'.csm2 c'.ysm1 c'.ysm2 c'.ysm3 d'| ≤ 200 := by
    rw [abs_of_nonneg (curv_nonneg hcg.csm1 hcg.csm2 _ _ _ _)]
    exact (curv_le hcg.csm1 hcg.csm2 _ _ _ _).trans hc.smb
  have bp : |curv c'.csp1 c'.csp2 c'.ysp1 c'.ysp2 c'.ysp3 d'| ≤ 200 := by
    rw [abs_of_nonneg (curv_nonneg hcg.csp1 hcg.csp2 _ _ _ _)]
    exact (curv_le hcg.csp1 hcg.csp2 _ _ _ _).trans hc.spb
  have lp := curv_lower (x2 := c'.ysp2) (x3 := c'.ysp3) hc.sp1 hcg.csp2 hc.sp.x1l hc.sp3 hd90
  have E1 : varCoef c m g x dist dh wn = .ok
      { vmd := curv c.cv1 c.cv2 c.yv1 c.yv2 c.yv3 de
        sgtm := curv c.csm1 c.csm2 c.ysm1 c.ysm2 c.ysm3 de * g.gm
        sgtp := curv c.csp1 c.csp2 c.ysp1 c.ysp2 c.ysp3 de * g.gp
        sgtd := curv c.csp1 c.csp2 c.ysp1 c.ysp2 c.ysp3 de * g.gp * c.csd1
        tgtd := (curv c.csp1 c.csp2 c.ysp1 c.ysp2 c.ysp3 de * g.gp - curv c.csp1 c.csp2 c.ysp1 c.ysp2 c.ysp3 de * g.gp * c.csd1) * c.zd
        sgl := s
        vs0 := if m.ws then 0.0 else npow (5.0 + 3.0 * PyNum.exp (-de / 100e3)) 2 } := by
    unfold varCoef
    rw [ed, ok_bind, es, ok_bind, pure_ok]
  have E2 : varCoef c' m g' x' (R.val dist) (R.val dh) (R.val wn) = .ok
      { vmd := curv c'.cv1 c'.cv2 c'.yv1 c'.yv2 c'.yv3 d'
        sgtm := curv c'.csm1 c'.csm2 c'.ysm1 c'.ysm2 c'.ysm3 d' * g'.gm
        sgtp := curv c'.csp1 c'.csp2 c'.ysp1 c'.ysp2 c'.ysp3 d' * g'.gp
        sgtd := curv c'.csp1 c'.csp2 c'.ysp1 c'.ysp2 c'.ysp3 d' * g'.gp * c'.csd1
        tgtd := (curv c'.csp1 c'.csp2 c'.ysp1 c'.ysp2 c'.ysp3 d' * g'.gp -
          curv c'.csp1 c'.csp2 c'.ysp1 c'.ysp2 c'.ysp3 d' * g'.gp * c'.csd1) * c'.zd
        sgl := s'
        vs0 := if m.ws then 0.0 else npow (5.0 + 3.0 * PyNum.exp (-d' / 100e3)) 2 } := by
    unfold varCoef
    rw [ed', ok_bind, es', ok_bind, pure_ok]
  refine ⟨_, _, E1, E2, ?_⟩
  clear E1 E2
  dsimp only
  have nv : NB R (curv c.cv1 c.cv2 c.yv1 c.yv2 c.yv3 de) (curv c'.cv1 c'.cv2 c'.yv1 c'.yv2 c'.yv3 d') 869 8e-9 :=
    ⟨cv.mono (by norm_num), bv⟩
  have nm : NB R (curv c.csm1 c.csm2 c.ysm1 c.ysm2 c.ysm3 de) (curv c'.csm1 c'.csm2 c'.ysm1 c'.ysm2 c'.ysm3 d') 200 8e-9 :=
    ⟨cm.mono (by norm_num), bm⟩
  have np : NB R (curv c.csp1 c.csp2 c.ysp1 c.ysp2 c.ysp3 de) (curv c'.csp1 c'.csp2 c'.ysp1 c'.ysp2 c'.ysp3 d') 200 8e-9 :=
    ⟨cp.mono (by norm_num), bp⟩
  generalize curv c.cv1 c.cv2 c.yv1 c.yv2 c.yv3 de = V at *
  generalize curv c'.cv1 c'.cv2 c'.yv1 c'.yv2 c'.yv3 d' = V' at *
  generalize curv c.csm1 c.csm2 c.ysm1 c.ysm2 c.ysm3 de = M at *
  generalize curv c'.csm1 c'.csm2 c'.ysm1 c'.ysm2 c'.ysm3 d' = M' at *
  generalize curv c.csp1 c.csp2 c.ysp1 c.ysp2 c.ysp3 de = P at *
  generalize curv c'.csp1 c'.csp2 c'.ysp1 c'.ysp2 c'.ysp3 d' = P' at *
  generalize (if m.ws = true then 0.0 else npow (5.0 + 3.0 * PyNum.exp (-de / 100e3)) 2 : α) = W at *
  generalize (if m.ws = true then 0.0 else npow (5.0 + 3.0 * PyNum.exp (-d' / 100e3)) 2 : ℝ) = W' at *
  have qm : NB R (M * g.gm) (M' * g'.gm) 262 1.2e-8 := nm.mul hgm (by norm_num) (by norm_num) (by norm_num)
  have qp : NB R (P * g.gp) (P' * g'.gp) 262 1.2e-8 := np.mul hgp (by norm_num) (by norm_num) (by norm_num)
  have lq : 3.4e-8 ≤ P' * g'.gp := by
    calc (3.4e-8 : ℝ) ≤ 3.8e-8 * 0.9 := by norm_num
      _ ≤ P' * g'.gp := mul_le_mul lp hgp' (by norm_num) (by norm_num at *; linarith)
  generalize M * g.gm = A at *
  generalize M' * g'.gm = A' at *
  generalize P * g.gp = B at *
  generalize P' * g'.gp = B' at *
  have hκ := hc.csdb
  have nκ : NB R c.csd1 c'.csd1 1.52 2e-15 := ⟨hc.csd1, by rw [abs_of_nonneg (by norm_num at *; linarith [hκ.1])]; exact hκ.2⟩
  have qd : NB R (B * c.csd1) (B' * c'.csd1) 400 1.9e-8 := qp.mul nκ (by norm_num) (by norm_num) (by norm_num)
  have qs : NB R (B - B * c.csd1) (B' - B' * c'.csd1) 662 3.2e-8 := qp.sub qd (by norm_num) (by norm_num) (by norm_num)
  have hzb := hc.zdb
  have hz0 : 0 < c'.zd := lt_of_lt_of_le (by norm_num) hzb.1
  have hze := abs_le.1 hc.zd.err
  have qt : Near R ((B - B * c.csd1) * c.zd) ((B' - B' * c'.csd1) * c'.zd) (3.5e-8 * c'.zd) := by
    refine qs.toNear.mul hc.zd (X := 662) (Y := c'.zd) (M := 700 * c'.zd) qs.bound (by rw [abs_of_pos hz0]) ?_ ?_ ?_
    · norm_num at *; linarith [hzb.1]
    · norm_num at *; linarith [hzb.2]
    · norm_num at *; linarith [hzb.1]
  have hB : 2e-8 ≤ R.val B := by have := qp.ge; norm_num at *; linarith
  have hBu : R.val B ≤ 263 := by have := qp.le; have := (abs_le.1 qp.bound).2; norm_num at *; linarith
  have hκv : 0.79 ≤ R.val c.csd1 ∧ R.val c.csd1 ≤ 1.53 := by
    have h5 := hc.csd1.ge
    have h6 := hc.csd1.le
    constructor <;> norm_num at * <;> linarith [hκ.1, hκ.2]
  have hzv : 1 ≤ R.val c.zd ∧ R.val c.zd ≤ 100 := by
    constructor <;> norm_num at * <;> linarith [hze.1, hze.2, hzb.1, hzb.2]
  obtain ⟨hD0, hD1, hTb⟩ := tgtd_round qp.fin hB hBu hc.csd1.fin hκv hc.zd.fin hzv
  refine ⟨?_, ?_, v4⟩
  · constructor
    · exact hc.zd.fin
    · exact hzv
    · exact nv.fin
    · exact nv.abs_val.trans (by norm_num at *; linarith)
    · exact qm.fin
    · exact qm.abs_val.trans (by have := qm.bound; norm_num at *; linarith)
    · exact qp.fin
    · exact qp.abs_val.trans (by have := qp.bound; norm_num at *; linarith)
    · exact qd.fin
    · exact ⟨hD0, hD1⟩
    · exact qt.fin
    · exact hTb
    · exact ns.fin
    · exact ns.abs_val.trans (by have := ns.bound; norm_num at *; linarith)
    · exact v1
    · exact ⟨v2, v3⟩
  · constructor
    · exact hc.zd.err
    · exact nv.err.trans (by norm_num)
    · exact qm.err.trans (by norm_num)
    · exact qp.err.trans (by norm_num)
    · exact qd.err.trans (by norm_num)
    · exact qt.err
    · exact ns.err.trans (by norm_num)
    · exact v5

end Itm.Props
