import Verif.Lemmas.CxSqrt
import Verif.Lemmas.RunTotal
import Mathlib.Tactic.IntervalCases

/-! Level two-point paths: `itmlogic_p2p` from end to end. -/

namespace Itm
open Spec Props

/-- The ground impedance of the point-to-point runner. -/
theorem ground_range {x : ℝ} (h0 : 0 ≤ x) (h1 : x ≤ 1) (ipol : ℤ) :
    ∃ z : Cx ℝ, (if ipol ≠ 0 then Cx.div (Cx.sqrt (Cx.sub ⟨15.0, x⟩ ⟨1.0, 0.0⟩)) ⟨15.0, x⟩ else pure (Cx.sqrt (Cx.sub ⟨15.0, x⟩ ⟨1.0, 0.0⟩))) = .ok z ∧
      0 < z.re ∧ 0.1 ≤ z.abs := by
  obtain ⟨w, hw⟩ : ∃ w : Cx ℝ, w = Cx.sub ⟨15.0, x⟩ ⟨1.0, 0.0⟩ := ⟨_, rfl⟩
  have wre : w.re = 14 := by rw [hw]; simp only [Cx.sub]; norm_num
  have wim : w.im = x := by rw [hw]; simp only [Cx.sub]; norm_num
  have wabs : 14 ≤ w.abs := by
    rw [cxabs_real, wre, wim]
    apply Real.le_sqrt_of_sq_le
    nlinarith
  obtain ⟨u, v, hz, hu, hv⟩ : ∃ u v, Cx.sqrt w = ⟨u, v⟩ ∧ Real.sqrt 14 ≤ u ∧ 0 ≤ v := by
    rw [cxsqrt_real]
    try dsimp only
    refine ⟨_, _, rfl, ?_, ?_⟩
    · simp only [rsqrt, wre]
      apply Real.sqrt_le_sqrt
      rw [le_div_iff₀ (by norm_num)]; norm_num; linarith
    · rw [if_neg (by rw [wim, zero_lit]; exact not_lt.2 h0)]
      simp only [rsqrt]; exact Real.sqrt_nonneg _
  have hs := Real.sq_sqrt (show (0:ℝ) ≤ 14 by norm_num)
  have hsp := Real.sqrt_nonneg 14
  have hu2 : 14 ≤ u * u := by nlinarith
  have hu0 : 0 < u := by
    have : 0 < Real.sqrt 14 := Real.sqrt_pos.2 (by norm_num)
    linarith
  rw [← hw, hz]
  by_cases hp : ipol ≠ 0
  · rw [if_pos hp]
    have hN : (⟨15.0, x⟩ : Cx ℝ).normSq = 225 + x * x := by rw [normSq_real]; norm_num
    obtain ⟨r, hr, hrn, hre⟩ := cxdiv_ok (z := ⟨u, v⟩) (w := ⟨15.0, x⟩) (by rw [hN]; nlinarith [mul_self_nonneg x])
    refine ⟨r, hr, ?_, ?_⟩
    · rw [hre]; dsimp only
      rw [hN]
      have : 0 ≤ v * x := mul_nonneg hv h0
      have : 0 < u * 15.0 := by positivity
      positivity
    · rw [hN, normSq_real (⟨u, v⟩ : Cx ℝ)] at hrn
      dsimp only at hrn
      have ha := abs_sq r
      have hr0 := normSq_nonneg r
      have hr1 : 0.01 ≤ r.normSq := by
        by_contra hc
        push Not at hc
        norm_num at hc
        nlinarith [mul_self_nonneg v, mul_self_nonneg x]
      have : 0 ≤ r.abs := by rw [cxabs_real]; exact Real.sqrt_nonneg _
      rw [← ha] at hr1
      norm_num at hr1 ⊢
      nlinarith
  · rw [if_neg hp]
    refine ⟨_, rfl, hu0, ?_⟩
    rw [cxabs_real]
    apply Real.le_sqrt_of_sq_le
    dsimp only
    norm_num
    nlinarith [mul_self_nonneg v]

/-- Curvature at the refractivities of the runners. -/
theorem curvature_range {n : ℝ} (h0 : 0 ≤ n) (h : n ≤ 322) : 1.1e-7 ≤ effCurvature 157e-9 n ∧ effCurvature 157e-9 n ≤ (157e-9 : ℝ) := by
  have hexp : Real.exp (n / 179.3) ≤ 6.1 := by
    have h1 : Real.exp (n / 179.3) ≤ Real.exp (9 / 5) := Real.exp_le_exp.2 (by rw [div_le_div_iff₀ (by norm_num) (by norm_num)]; norm_num; linarith)
    have h2 : Real.exp (9 / 5) ≤ 6.1 := by
      have := Real.exp_bound' (x := 9 / 10) (by norm_num) (by norm_num) (n := 6) (by norm_num)
      rw [show (9:ℝ) / 5 = 9 / 10 + 9 / 10 by norm_num, Real.exp_add]
      have h3 : Real.exp (9 / 10) ≤ 2.4625 := by
        refine this.trans ?_
        simp [Finset.sum_range_succ, Nat.factorial]
        norm_num
      have := Real.exp_pos (9 / 10)
      norm_num at *
      nlinarith
    linarith
  have hpos := Real.exp_pos (n / 179.3)
  unfold effCurvature
  simp only [rexp]
  generalize Real.exp (n / 179.3) = e at *
  norm_num at *
  constructor <;> linarith

/-- A level two-point path: equal antennas low enough that the smooth earth hides them from each other, 100 to 300 km, at
least 381.6 MHz. -/
structure LevelPath (p : PropSt ℝ) (h : ℝ) : Prop where
  hg : p.hg = ⟨h, h⟩
  pos : 0 < h
  low : h ≤ 100
  near : 100 ≤ p.d
  far : p.d ≤ 300
  fmhz : 381.6 ≤ p.fmhz

/-- What the preparation makes of a level path: the antennas are raised until the smooth-earth horizons just meet. -/
theorem level_prep {p : PropSt ℝ} {h : ℝ} (H : LevelPath p h) (c : ℝ) :
    ∃ s q, p2pSetup p [c, c] = .ok s ∧ qlrpflPrep s = .ok q ∧ SmoothEarth (inp q) ∧ q.mdp = -1 ∧ q.dist = p.d * 1000 ∧
      q.dl.x0 + q.dl.x1 = p.d * 1000 ∧ q.klim = some 5 ∧ q.mdvar = some 11 ∧ 5 ≤ q.lvar ∧ 0 < q.pfl.xi := by
  have hw : 8 ≤ p.fmhz / 47.7 := by have := H.fmhz; rw [le_div_iff₀ (by norm_num)]; norm_num at *; linarith
  obtain ⟨wn, ewn⟩ : ∃ wn, wn = p.fmhz / 47.7 := ⟨_, rfl⟩
  obtain ⟨x, ex⟩ : ∃ x : ℝ, x = 376.62 * 0.005 / wn := ⟨_, rfl⟩
  rw [← ewn] at hw
  have hx0 : 0 ≤ x := by rw [ex]; positivity
  have hx1 : x ≤ 1 := by rw [ex, div_le_one (by linarith)]; norm_num; linarith
  obtain ⟨z, ez, zre, zabs⟩ := ground_range hx0 hx1 p.ipol
  have hd : 0 < p.d := by linarith [H.near]
  have hsys : p2pSys p.fmhz p.d p.ipol [c, c] = .ok (p.d * 1000.0, z) := by
    unfold p2pSys
    dsimp only
    rw [if_neg (by rw [zero_lit]; exact not_le.2 hd), ← ewn]
    have e1 : (PyNum.ofInt (([c, c] : List ℝ).length - 1) : ℝ) = 1 := by rw [rofInt]; simp
    rw [e1, pyDiv_ok one_ne_zero, ok_bind, div_one]
    have e2 : groundZq (15.0 : ℝ) 0.005 wn = .ok ⟨15.0, x⟩ := by
      unfold groundZq; rw [pyDiv_ok (by linarith), ok_bind, ex]; rfl
    rw [e2, ok_bind]
    by_cases hp : p.ipol ≠ 0
    · rw [if_pos hp] at ez ⊢
      rw [ez, ok_bind, pure_ok]
    · rw [if_neg hp] at ez ⊢
      rw [ez, ok_bind, pure_ok]
  obtain ⟨κ, eκ⟩ : ∃ κ : ℝ, κ = effCurvature 157e-9 314.0 := ⟨_, rfl⟩
  obtain ⟨hκ1, hκ2⟩ := curvature_range (n := 314.0) (by norm_num) (by norm_num)
  rw [← eκ] at hκ1 hκ2
  have hκ : 0 < κ := lt_of_lt_of_le (by norm_num) hκ1
  obtain ⟨s, es⟩ : ∃ s : PropSt ℝ, s = { p with
      eps := 15.0
      sgm := 0.005
      klim := some 5
      ens0 := 314.0
      lvar := 5
      gma := 157e-9
      pfl := { np := ([c, c] : List ℝ).length - 1, xi := p.d * 1000.0, z := [c, c] }
      kwx := 0
      wn := wn
      ens := 314.0
      gme := κ
      zgnd := z
      klimx := 0
      mdvarx := 11 } := ⟨_, rfl⟩
  have hs : p2pSetup p [c, c] = .ok s := by
    rw [p2pSetup_eq, hsys, ok_bind]
    dsimp only
    rw [pure_ok, es, ewn, eκ]
  have e1000 : (1000.0 : ℝ) = 1000 := by norm_num
  have sxi : s.pfl.xi = p.d * 1000 := by rw [es, ← e1000]
  have hxi : 0 < s.pfl.xi := by rw [sxi]; positivity
  have snp : s.pfl.np = (1 : ℕ) := by rw [es]; rfl
  have sz : s.pfl.z = [c, c] := by rw [es]
  have sg : s.gme = κ := by rw [es]
  have shg : s.hg = ⟨h, h⟩ := by rw [es]; exact H.hg
  have hh := H.pos
  obtain ⟨q, hq, P⟩ := qlrpflPrep_ok (p := s) (n := 1) le_rfl snp hxi (by rw [sz]; simp) (by rw [shg]; exact hh) (by rw [shg]; exact hh) (by rw [sg]; exact hκ)
  obtain ⟨the, dl, dh, x1, x2, hz, -, -, x10, x12, x2n, edh, -, qdh, hc⟩ := P.data
  have hrest := P.rest
  have hzz : ∀ j, j < s.pfl.z.length → s.pfl.z.getD j 0 = c + 0 * j := by
    rw [sz]; intro j hj
    have : j < 2 := hj
    interval_cases j <;> simp
  have hnr : (s.pfl.np : ℝ) = (1 : ℕ) := by rw [snp]; rfl
  have hnl : s.pfl.np < s.pfl.z.length := by rw [snp, sz]; simp
  have hx2 : x2 ≤ s.pfl.np * s.pfl.xi := by rw [hnr]; exact x2n.le
  have e0 : dh = 0 := by
    have := C37_straight (p := s.pfl) (x1 := x1) (x2 := x2) hxi hnl x10.le hx2 hzz
    rw [edh, ok_inj] at this
    exact this
  have hfl : ⌊x1 / s.pfl.xi⌋ < ⌈x2 / s.pfl.xi⌉ := by
    have a := Int.floor_le (x1 / s.pfl.xi)
    have b := Int.le_ceil (x2 / s.pfl.xi)
    have c : x1 / s.pfl.xi < x2 / s.pfl.xi := div_lt_div_of_pos_right x12 hxi
    have : ((⌊x1 / s.pfl.xi⌋ : ℤ) : ℝ) < ((⌈x2 / s.pfl.xi⌉ : ℤ) : ℝ) := by linarith
    exact_mod_cast this
  have hline := C33_straight (p := s.pfl) (x1 := x1) (x2 := x2) hxi hnl x10.le hx2 hfl hzz
  rw [zlsq1_line hxi hnl x10.le x12 hx2, ok_inj, Prod.mk.injEq, hnr, zero_mul, add_zero] at hline
  have hdl : dl = ⟨(1 : ℕ) * s.pfl.xi, (1 : ℕ) * s.pfl.xi⟩ := by
    rcases hz_sum le_rfl snp hxi (by rw [sz]; simp) hz with ⟨hdl, -⟩ | ⟨-, -, -, j, j1, j2, -⟩
    · exact hdl
    · omega
  rcases hc with ⟨-, he0, he1, f, ea, eb, ef, h1, h2, h3⟩ | ⟨hne, -⟩
  swap
  · exact absurd hdl hne
  have z0 : s.pfl.h 0 = c := by unfold Pfl.h; rw [sz]; rfl
  have z1 : s.pfl.h (1 - 1) = c := by unfold Pfl.h; rw [sz]; rfl
  rw [hline.1, z0, shg] at ea
  rw [hline.2, z1, shg] at eb
  have ea : he0 = h := by rw [ea]; unfold effHeight; simp
  have eb : he1 = h := by rw [eb]; unfold effHeight; simp
  have rh : ∀ y : ℝ, roughHorizon κ 0 y = Real.sqrt (2 * y / κ) := by
    intro y; unfold roughHorizon smoothReach; simp
  -- the stretch
  obtain ⟨r, er⟩ : ∃ r, r = Real.sqrt (2 * h / κ) := ⟨_, rfl⟩
  have hr0 : 0 < r := by rw [er]; exact Real.sqrt_pos.2 (by positivity)
  have hr2 : r ^ 2 = 2 * h / κ := by rw [er]; exact Real.sq_sqrt (by positivity)
  have hrD : r + r ≤ p.d * 1000 := by
    have : r ≤ 50000 := by
      rw [er]; apply Real.sqrt_le_iff.2
      refine ⟨by norm_num, ?_⟩
      rw [div_le_iff₀ hκ]
      norm_num at hκ1 ⊢
      linarith [H.low]
    linarith [H.near]
  have ef : f = (p.d * 1000 / (r + r)) ^ 2 := by
    rw [ef, e0, ea, eb, sg, sxi]
    unfold stretch
    rw [rh, ← er, Nat.cast_one, one_mul, if_pos hrD]
  have hhe : h * f = κ * (p.d * 500) ^ 2 / 2 := by
    have hh2 : h = κ * r ^ 2 / 2 := by rw [hr2]; field_simp
    rw [ef, hh2]; field_simp; norm_num
  have hhe0 : 0 < h * f := by rw [hhe]; positivity
  have hreach : Real.sqrt (2 * (h * f) / κ) = p.d * 500 := by
    rw [hhe, show 2 * (κ * (p.d * 500) ^ 2 / 2) / κ = (p.d * 500) ^ 2 by field_simp]
    exact Real.sqrt_sq (by positivity)
  rw [ea, eb] at h1
  rw [ea, eb, e0, sg, rh, hreach] at h2
  rw [ea, eb, e0, sg] at h3
  have hthe : roughAngle κ 0 (h * f) = -(κ * (p.d * 500)) := by
    unfold roughAngle smoothReach
    rw [hreach, hhe]; field_simp; norm_num
  rw [hthe] at h3
  have qw : q.wn = wn := by rw [hrest, es]
  have qg : q.gme = κ := by rw [hrest, es]
  have qdh0 : q.dh = 0 := by rw [qdh, e0]
  have hbig : 5e-5 ≤ wn * κ * (h * f) := by
    rw [hhe]
    have a1 : 50000 ≤ p.d * 500 := by linarith [H.near]
    have a2 : (50000:ℝ) ^ 2 ≤ (p.d * 500) ^ 2 := by gcongr
    have a3 : (1.1e-7:ℝ) ^ 2 ≤ κ ^ 2 := by gcongr
    have a4 : (1.1e-7:ℝ) ^ 2 * (50000:ℝ) ^ 2 ≤ κ ^ 2 * (p.d * 500) ^ 2 := mul_le_mul a3 a2 (by positivity) (by positivity)
    have a5 : 8 * ((1.1e-7:ℝ) ^ 2 * (50000:ℝ) ^ 2) ≤ wn * (κ ^ 2 * (p.d * 500) ^ 2) := mul_le_mul hw a4 (by positivity) (by linarith)
    rw [show wn * κ * (κ * (p.d * 500) ^ 2 / 2) = wn * (κ ^ 2 * (p.d * 500) ^ 2) / 2 by ring]
    generalize wn * (κ ^ 2 * (p.d * 500) ^ 2) = t at *
    norm_num at a5 ⊢
    linarith
  refine ⟨s, q, hs, hq, ?_, by rw [hrest], by rw [hrest, sxi]; simp, by rw [h2]; ring, ?_, ?_, ?_, ?_⟩
  · have qhg : q.hg = ⟨h, h⟩ := by rw [hrest]; exact shg
    have qz : q.zgnd = z := by rw [hrest, es]
    have qe : q.ens = 314.0 := by rw [hrest, es]
    constructor
    · change 0 < q.hg.x0; rw [qhg]; exact hh
    · change 0 < q.hg.x1; rw [qhg]; exact hh
    · change 0 < q.he.x0; rw [h1]; exact hhe0
    · change 0 < q.he.x1; rw [h1]; exact hhe0
    · exact qdh0
    · change 2 ≤ q.wn; rw [qw]; linarith
    · change 75e-9 ≤ q.gme; rw [qg]; norm_num at hκ1 ⊢; linarith
    · change q.gme ≤ 250e-9; rw [qg]; norm_num at hκ2 ⊢; linarith
    · change q.dl.x0 = Real.sqrt (2 * q.he.x0 / q.gme); rw [h1, h2, qg]; exact hreach.symm
    · change q.dl.x1 = Real.sqrt (2 * q.he.x1 / q.gme); rw [h1, h2, qg]; exact hreach.symm
    · change q.the.x0 = -(q.gme * q.dl.x0); rw [h3, h2, qg]
    · change q.the.x1 = -(q.gme * q.dl.x1); rw [h3, h2, qg]
    · change 250 ≤ q.ens; rw [qe]; norm_num
    · change q.ens ≤ 400; rw [qe]; norm_num
    · change 0 < q.zgnd.re; rw [qz]; exact zre
    · change 0.1 ≤ q.zgnd.abs; rw [qz]; exact zabs
    · change 5e-5 ≤ q.wn * q.gme * q.he.x0; rw [qw, qg, h1]; exact hbig
    · change 5e-5 ≤ q.wn * q.gme * q.he.x1; rw [qw, qg, h1]; exact hbig
    · change q.dl.x0 + q.dl.x1 ≤ 300e3; rw [h2]; norm_num; linarith [H.far]
  · rw [hrest, es]; simp
  · rw [hrest, es]; simp
  · rw [hrest, es]; simp
  · rw [hrest]; exact hxi

/-- The whole run on a level path. -/
theorem level_run {p : PropSt ℝ} {h : ℝ} (H : LevelPath p h) (c : ℝ) (qc qr : List Int) :
    ∃ rows msgs r, itmlogicP2PAt qc qr p [c, c] = .ok (rows, msgs, r) := by
  obtain ⟨s, q0, hs, hq0, S, hm, hd, hsum, hk, hmd, hlv, hxi⟩ := level_prep H c
  have hdo : distOf q0 0.0 = p.d * 1000 := by unfold distOf; rw [if_neg (by omega), hd]
  obtain ⟨q, st, x, hq, -, -, -, hhor, hline, hscat, haref, hdist, hinp, -⟩ :=
    lrprop_smooth (p := q0) S (by omega) (d := 0.0) (by rw [hdo, hsum])
  have hqq : qlrpfl s = .ok q := by unfold qlrpfl; rw [hq0, ok_bind]; exact hq
  have P := p2pPrep_ok hs hqq
  have hdp : 0 < p.d := by linarith [H.near]
  have hin := hinp
  unfold inp at hin
  injection hin with a1 a2 a3 a4 a5 a6 a7 a8 a9
  obtain ⟨zr, hzr, -⟩ := C04_qerfi_total (qr.map percent)
  obtain ⟨zc, hzc, -⟩ := C04_qerfi_total (qc.map percent)
  have hw : 0 < q.wn := by rw [a5]; exact S.wpos
  have hdq : 0 < q.dist := by rw [hdist, hdo]; positivity
  obtain ⟨fs, hfs⟩ := freeSpace_total hw hdq
  have hans : ∀ zt zc : ℝ, ∃ a, freshAns zt 0.0 zc q = .ok a := fun zt zc =>
    freshAns_total P.inv P.klim P.mdvar haref hw (by rw [a2]; exact S.he0.le) (by rw [a2]; exact S.he1.le) hdq.le (by rw [a6]; exact S.dh.ge) zt 0.0 zc
  obtain ⟨rows, r, hrows⟩ := p2pRows_total (fs := fs) (qc.zip zc) (qr.zip zr) P.inv hans
  obtain ⟨msgs, hmsgs⟩ : ∃ msgs, p2pReport q = .ok msgs := by
    unfold p2pReport
    rw [hhor, hscat]
    simp only [need_some, ok_bind]
    split_ifs <;> exact ⟨_, rfl⟩
  refine ⟨rows, msgs, r, ?_⟩
  unfold itmlogicP2PAt
  rw [hs, ok_bind, hzr, ok_bind, hzc, ok_bind, hqq, ok_bind, hfs, ok_bind, hmsgs, ok_bind, hrows, ok_bind]
  rfl

end Itm
