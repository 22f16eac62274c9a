import Verif.Lemmas.P2PTotal
import Verif.Lemmas.Pimter

/-! Level two-point profiles with unequal antennas, and the measurement-campaign runner on them. -/

namespace Itm
open Spec Props

/-- A prepared dictionary for a level two-point profile of length `D` whose ends are hidden from each other by the smooth earth. -/
structure TwoPoint (s : PropSt ℝ) (c D : ℝ) : Prop where
  pfl : s.pfl = { np := 1, xi := D, z := [c, c] }
  long : 0 < D
  max : D ≤ 300e3
  a0 : 0 < s.hg.x0
  b0 : 0 < s.hg.x1
  klo : 1.1e-7 ≤ s.gme
  khi : s.gme ≤ 157e-9
  wn : 2 ≤ s.wn
  hidden : Real.sqrt (2 * s.hg.x0 / s.gme) + Real.sqrt (2 * s.hg.x1 / s.gme) ≤ D
  ra : 5e-5 * (Real.sqrt (2 * s.hg.x0 / s.gme) + Real.sqrt (2 * s.hg.x1 / s.gme)) ^ 2 ≤ s.wn * s.gme * s.hg.x0 * D ^ 2
  rb : 5e-5 * (Real.sqrt (2 * s.hg.x0 / s.gme) + Real.sqrt (2 * s.hg.x1 / s.gme)) ^ 2 ≤ s.wn * s.gme * s.hg.x1 * D ^ 2
  nlo : 250 ≤ s.ens
  nhi : s.ens ≤ 400
  zre : 0 < s.zgnd.re
  zabs : 0.1 ≤ s.zgnd.abs

theorem twoPoint_prep {s : PropSt ℝ} {c D : ℝ} (H : TwoPoint s c D) :
    ∃ q, qlrpflPrep s = .ok q ∧ SmoothEarth (inp q) ∧ q.mdp = -1 ∧ q.dist = D ∧ q.dl.x0 + q.dl.x1 = D := by
  have hκ : 0 < s.gme := lt_of_lt_of_le (by norm_num) H.klo
  have hD := H.long
  have sxi : s.pfl.xi = D := by rw [H.pfl]
  have hxi : 0 < s.pfl.xi := by rw [sxi]; exact H.long
  have snp : s.pfl.np = (1 : ℕ) := by rw [H.pfl]; rfl
  have sz : s.pfl.z = [c, c] := by rw [H.pfl]
  obtain ⟨q, hq, P⟩ := qlrpflPrep_ok (p := s) (n := 1) le_rfl snp hxi (by rw [sz]; simp) H.a0 H.b0 hκ
  obtain ⟨the, dl, dh, x1, x2, hz, -, -, x10, x12, x2n, edh, -, qdh, hc⟩ := P.data
  have hrest := P.rest
  have hzz : ∀ j, j < s.pfl.z.length → s.pfl.z.getD j 0 = c + 0 * j := by
    rw [sz]; intro j hj
    have : j < 2 := hj
    interval_cases j <;> simp
  have hnr : (s.pfl.np : ℝ) = (1 : ℕ) := by rw [snp]; rfl
  have hnl : s.pfl.np < s.pfl.z.length := by rw [snp, sz]; simp
  have hx2 : x2 ≤ s.pfl.np * s.pfl.xi := by rw [hnr]; exact x2n.le
  have e0 : dh = 0 := by
    have := C37_straight (p := s.pfl) (x1 := x1) (x2 := x2) hxi hnl x10.le hx2 hzz
    rw [edh, ok_inj] at this
    exact this
  have hfl : ⌊x1 / s.pfl.xi⌋ < ⌈x2 / s.pfl.xi⌉ := by
    have a := Int.floor_le (x1 / s.pfl.xi)
    have b := Int.le_ceil (x2 / s.pfl.xi)
    have c : x1 / s.pfl.xi < x2 / s.pfl.xi := div_lt_div_of_pos_right x12 hxi
    have : ((⌊x1 / s.pfl.xi⌋ : ℤ) : ℝ) < ((⌈x2 / s.pfl.xi⌉ : ℤ) : ℝ) := by linarith
    exact_mod_cast this
  have hline := C33_straight (p := s.pfl) (x1 := x1) (x2 := x2) hxi hnl x10.le hx2 hfl hzz
  rw [zlsq1_line hxi hnl x10.le x12 hx2, ok_inj, Prod.mk.injEq, hnr, zero_mul, add_zero] at hline
  have hdl : dl = ⟨(1 : ℕ) * s.pfl.xi, (1 : ℕ) * s.pfl.xi⟩ := by
    rcases hz_sum le_rfl snp hxi (by rw [sz]; simp) hz with ⟨hdl, -⟩ | ⟨-, -, -, j, j1, j2, -⟩
    · exact hdl
    · omega
  rcases hc with ⟨-, he0, he1, f, ea, eb, ef, h1, h2, h3⟩ | ⟨hne, -⟩
  swap
  · exact absurd hdl hne
  have z0 : s.pfl.h 0 = c := by unfold Pfl.h; rw [sz]; rfl
  have z1 : s.pfl.h (1 - 1) = c := by unfold Pfl.h; rw [sz]; rfl
  rw [hline.1, z0] at ea
  rw [hline.2, z1] at eb
  have ea : he0 = s.hg.x0 := by rw [ea]; unfold effHeight; simp
  have eb : he1 = s.hg.x1 := by rw [eb]; unfold effHeight; simp
  subst ea; subst eb
  have rh : ∀ y : ℝ, roughHorizon s.gme 0 y = Real.sqrt (2 * y / s.gme) := by
    intro y; unfold roughHorizon smoothReach; simp
  obtain ⟨r, er⟩ : ∃ r, r = Real.sqrt (2 * s.hg.x0 / s.gme) := ⟨_, rfl⟩
  obtain ⟨t, et⟩ : ∃ t, t = Real.sqrt (2 * s.hg.x1 / s.gme) := ⟨_, rfl⟩
  have a0 := H.a0
  have b0 := H.b0
  have hr0 : 0 < r := by rw [er]; exact Real.sqrt_pos.2 (by positivity)
  have ht0 : 0 < t := by rw [et]; exact Real.sqrt_pos.2 (by positivity)
  have hr2 : r ^ 2 = 2 * s.hg.x0 / s.gme := by rw [er]; exact Real.sq_sqrt (by positivity)
  have ht2 : t ^ 2 = 2 * s.hg.x1 / s.gme := by rw [et]; exact Real.sq_sqrt (by positivity)
  have hid := H.hidden
  have hra := H.ra
  have hrb := H.rb
  rw [← er, ← et] at hid hra hrb
  have ef : f = (D / (r + t)) ^ 2 := by
    rw [ef, e0, sxi]
    unfold stretch
    rw [rh, rh, ← er, ← et, Nat.cast_one, one_mul, if_pos hid]
  have hf0 : 0 < f := by rw [ef]; positivity
  have reach : ∀ y ρ : ℝ, 0 < ρ → ρ ^ 2 = 2 * y / s.gme → Real.sqrt (2 * (y * f) / s.gme) = ρ * (D / (r + t)) := by
    intro y ρ hρ e
    rw [show 2 * (y * f) / s.gme = (ρ * (D / (r + t))) ^ 2 by rw [mul_pow, e, ef]; ring]
    exact Real.sqrt_sq (by positivity)
  have ang : ∀ y : ℝ, 0 < y → roughAngle s.gme 0 y = -(s.gme * Real.sqrt (2 * y / s.gme)) := by
    intro y hy
    unfold roughAngle
    rw [rh]; unfold smoothReach
    have hp : 0 < Real.sqrt (2 * y / s.gme) := Real.sqrt_pos.2 (by positivity)
    have h2 := Real.sq_sqrt (show 0 ≤ 2 * y / s.gme by positivity)
    generalize Real.sqrt (2 * y / s.gme) = t at *
    have : 2 * y = s.gme * t ^ 2 := by rw [h2]; field_simp
    rw [this]; field_simp; norm_num
  have big : ∀ y : ℝ, 0 < y → 5e-5 * (r + t) ^ 2 ≤ s.wn * s.gme * y * D ^ 2 → 5e-5 ≤ s.wn * s.gme * (y * f) := by
    intro y hy h
    rw [ef, div_pow, show s.wn * s.gme * (y * (D ^ 2 / (r + t) ^ 2)) = s.wn * s.gme * y * D ^ 2 / (r + t) ^ 2 by ring, le_div_iff₀ (by positivity)]
    exact h
  rw [e0, rh, rh, reach _ _ hr0 hr2, reach _ _ ht0 ht2] at h2
  rw [e0, ang _ (by positivity), ang _ (by positivity), reach _ _ hr0 hr2, reach _ _ ht0 ht2] at h3
  have hsum : q.dl.x0 + q.dl.x1 = D := by rw [h2]; field_simp
  have qw : q.wn = s.wn := by rw [hrest]
  have qg : q.gme = s.gme := by rw [hrest]
  have qhg : q.hg = s.hg := by rw [hrest]
  have qz : q.zgnd = s.zgnd := by rw [hrest]
  have qe : q.ens = s.ens := by rw [hrest]
  refine ⟨q, hq, ?_, by rw [hrest], by rw [hrest, sxi]; simp, hsum⟩
  constructor
  · change 0 < q.hg.x0; rw [qhg]; exact a0
  · change 0 < q.hg.x1; rw [qhg]; exact b0
  · change 0 < q.he.x0; rw [h1]; positivity
  · change 0 < q.he.x1; rw [h1]; positivity
  · exact qdh.trans e0
  · change 2 ≤ q.wn; rw [qw]; exact H.wn
  · change 75e-9 ≤ q.gme; rw [qg]; have := H.klo; norm_num at this ⊢; linarith
  · change q.gme ≤ 250e-9; rw [qg]; have := H.khi; norm_num at this ⊢; linarith
  · change q.dl.x0 = Real.sqrt (2 * q.he.x0 / q.gme); rw [h1, h2, qg]; exact (reach _ _ hr0 hr2).symm
  · change q.dl.x1 = Real.sqrt (2 * q.he.x1 / q.gme); rw [h1, h2, qg]; exact (reach _ _ ht0 ht2).symm
  · change q.the.x0 = -(q.gme * q.dl.x0); rw [h3, h2, qg]
  · change q.the.x1 = -(q.gme * q.dl.x1); rw [h3, h2, qg]
  · change 250 ≤ q.ens; rw [qe]; exact H.nlo
  · change q.ens ≤ 400; rw [qe]; exact H.nhi
  · change 0 < q.zgnd.re; rw [qz]; exact H.zre
  · change 0.1 ≤ q.zgnd.abs; rw [qz]; exact H.zabs
  · change 5e-5 ≤ q.wn * q.gme * q.he.x0; rw [qw, qg, h1]; exact big _ a0 hra
  · change 5e-5 ≤ q.wn * q.gme * q.he.x1; rw [qw, qg, h1]; exact big _ b0 hrb
  · change q.dl.x0 + q.dl.x1 ≤ 300e3; rw [hsum]; exact H.max

/-- `qlrpfl` and the quantiles on such a profile. -/
theorem twoPoint_run {s : PropSt ℝ} {c D : ℝ} (H : TwoPoint s c D) :
    ∃ q x, qlrpfl s = .ok q ∧ q.dist = D ∧ q.hor = some (horR (inp q)) ∧ (horR (inp q)).dlsa = D ∧ q.scat = some x ∧ SmoothEarth (inp q) ∧ q.aref.isSome := by
  obtain ⟨q0, hq0, S, hm, hd, hsum⟩ := twoPoint_prep H
  have hdo : distOf q0 0.0 = D := by unfold distOf; rw [if_neg (by omega), hd]
  obtain ⟨q, st, x, hq, -, -, -, hhor, hline, hscat, haref, hdist, hinp, -⟩ :=
    lrprop_smooth (p := q0) S (by omega) (d := 0.0) (by rw [hdo, hsum])
  refine ⟨q, x.2.2, by unfold qlrpfl; rw [hq0, ok_bind]; exact hq, by rw [hdist, hdo], by rw [hinp]; exact hhor, ?_, hscat, by rw [hinp]; exact S, by rw [haref]; rfl⟩
  rw [hinp]
  exact (congrArg Horizon.dlsa S.hor).trans hsum

/-- A turn of the campaign runner. -/
theorem pimterTurn_total {p : PropSt ℝ} {h c D : ℝ} (H : TwoPoint { p with hg := ⟨p.hg.x0, h⟩, lvar := 5, kwx := 0, klimx := 0, mdvarx := 11 } c D)
    {k : Int} (hk : p.klim.map fixKlim = some k) (qr : Int) (zr zc : ℝ) : ∃ row q, pimterTurn qr zr zc h p = .ok (row, q) := by
  obtain ⟨q, x, hq, hd, -, -, -, S, ha⟩ := twoPoint_run H
  obtain ⟨hi, hmd, R⟩ := pimter_prep hq
  have hw : 0 < q.wn := S.wpos
  have hd0 : 0 < q.dist := by rw [hd]; exact H.long
  obtain ⟨fs, hfs⟩ := freeSpace_total hw hd0
  obtain ⟨ar, har⟩ := Option.isSome_iff_exists.1 ha
  obtain ⟨k', hk'⟩ : ∃ k', q.klim = some k' := by
    have := R.klim
    rw [hk] at this
    cases h : q.klim with
    | none => rw [h] at this; simp at this
    | some k => exact ⟨k, rfl⟩
  obtain ⟨a, r, hr⟩ := avar_total hi hk' hmd har hw S.he0.le S.he1.le hd0.le S.dh.ge zr 0.0 zc
  unfold pimterTurn
  rw [hq, ok_bind, hfs, ok_bind, hr, ok_bind]
  exact ⟨_, _, rfl⟩

/-- Every antenna height of a campaign on a level profile is a level two-point path. -/
theorem pimter_level {D : ℝ} (h1 : 125e3 ≤ D) (h2 : D ≤ 300e3) (c : ℝ) (p : PropSt ℝ) :
    ∃ s, pimterSetup p [c, c] [0, D] = .ok s ∧ s.klim.map fixKlim = some 5 ∧ ∀ p', PimterRel s p' → ∀ y, 10 ≤ y → y ≤ 130 →
      TwoPoint { p' with hg := ⟨p'.hg.x0, y⟩, lvar := 5, kwx := 0, klimx := 0, mdvarx := 11 } c D := by
  have hw : (52:ℝ) ≤ 2.488 * 1000.0 / 47.7 ∧ (2.488 * 1000.0 / 47.7 : ℝ) ≤ 53 := by norm_num
  obtain ⟨wn, ewn⟩ : ∃ wn : ℝ, wn = 2.488 * 1000.0 / 47.7 := ⟨_, rfl⟩
  obtain ⟨x, ex⟩ : ∃ x : ℝ, x = 376.62 * 0.005 / wn := ⟨_, rfl⟩
  rw [← ewn] at hw
  have hx0 : 0 ≤ x := by rw [ex]; have := hw.1; positivity
  have hx1 : x ≤ 1 := by rw [ex, div_le_one (by linarith)]; norm_num; linarith
  obtain ⟨z, ez, zre, zabs⟩ := ground_range hx0 hx1 1
  rw [if_pos (by decide)] at ez
  obtain ⟨κ, eκ⟩ : ∃ κ : ℝ, κ = effCurvature 157e-9 314.0 := ⟨_, rfl⟩
  obtain ⟨hκ1, hκ2⟩ := curvature_range (n := 314.0) (by norm_num) (by norm_num)
  rw [← eκ] at hκ1 hκ2
  have hκ : 0 < κ := lt_of_lt_of_le (by norm_num) hκ1
  obtain ⟨s, hs, S1, S2, S3, S4, S5, S6, S7⟩ : ∃ s, pimterSetup p [c, c] [0, D] = .ok s ∧ s.pfl = { np := 1, xi := D, z := [c, c] } ∧ s.gme = κ ∧ s.wn = wn ∧
      s.ens = 314.0 ∧ s.zgnd = z ∧ s.hg.x0 = 2.56 ∧ s.klim.map fixKlim = some 5 := by
    have e2 : groundZq (15.0 : ℝ) 0.005 wn = .ok ⟨15.0, x⟩ := by
      unfold groundZq; rw [pyDiv_ok (by linarith), ok_bind, ex]; rfl
    have e3 : (pimterGround : Py (Cx ℝ)) = .ok z := by
      unfold pimterGround
      rw [← ewn, e2, ok_bind]
      exact ez
    refine ⟨{ p with
      ipol := 1
      eps := 15.0
      sgm := 0.005
      ens0 := 314.0
      klim := some 5
      gma := 157e-9
      ens := 314.0
      gme := κ
      d := D / 1000.0
      pfl := { np := 1, xi := D - 0, z := [c, c] }
      fmhz := 2.488 * 1000.0
      wn := wn
      zgnd := z
      hg := ⟨2.56, 0.0⟩ }, ?_, ?_, rfl, rfl, rfl, rfl, rfl, rfl⟩
    · rw [pimterSetup_eq, e3, eκ, ewn]
      rfl
    · simp only [sub_zero]
  refine ⟨s, hs, S7, fun p' R y y1 y2 => ?_⟩
  have hD0 : 0 < D := lt_of_lt_of_le (by norm_num) h1
  have e1 : p'.gme = κ := by rw [← R.gme, S2]
  have e2 : p'.wn = wn := by rw [← R.wn, S3]
  have e3 : p'.hg.x0 = 2.56 := by rw [← R.hg0, S6]
  have hsum : Real.sqrt (2 * 2.56 / κ) + Real.sqrt (2 * y / κ) ≤ 57000 := by
    have r1 : Real.sqrt (2 * 2.56 / κ) ≤ 7000 := by
      apply Real.sqrt_le_iff.2
      refine ⟨by norm_num, ?_⟩
      rw [div_le_iff₀ hκ]; norm_num at hκ1 ⊢; linarith
    have r2 : Real.sqrt (2 * y / κ) ≤ 50000 := by
      apply Real.sqrt_le_iff.2
      refine ⟨by norm_num, ?_⟩
      rw [div_le_iff₀ hκ]; norm_num at hκ1 ⊢; linarith
    linarith
  have hs0 : 0 ≤ Real.sqrt (2 * 2.56 / κ) + Real.sqrt (2 * y / κ) := by positivity
  have hs2 : (Real.sqrt (2 * 2.56 / κ) + Real.sqrt (2 * y / κ)) ^ 2 ≤ 57000 ^ 2 := by gcongr
  have hb : ∀ b : ℝ, 2.56 ≤ b → 5e-5 * (Real.sqrt (2 * 2.56 / κ) + Real.sqrt (2 * y / κ)) ^ 2 ≤ wn * κ * b * D ^ 2 := by
    intro b hb
    have k1 : 52 * 1.1e-7 ≤ wn * κ := mul_le_mul hw.1 hκ1 (by norm_num) (by linarith)
    have k2 : 52 * 1.1e-7 * 2.56 ≤ wn * κ * b := mul_le_mul k1 hb (by norm_num) (by have := hw.1; positivity)
    have k3 : (125e3:ℝ) ^ 2 ≤ D ^ 2 := by gcongr
    have k4 : 52 * 1.1e-7 * 2.56 * (125e3) ^ 2 ≤ wn * κ * b * D ^ 2 := mul_le_mul k2 k3 (by norm_num) (le_trans (by norm_num) k2)
    generalize wn * κ * b * D ^ 2 = u at *
    generalize (Real.sqrt (2 * 2.56 / κ) + Real.sqrt (2 * y / κ)) ^ 2 = v at *
    norm_num at k4 hs2 ⊢
    linarith
  constructor
  · exact R.pfl ▸ S1
  · exact hD0
  · exact h2
  · change 0 < p'.hg.x0; rw [e3]; norm_num
  · change 0 < y; linarith
  · change 1.1e-7 ≤ p'.gme; rw [e1]; exact hκ1
  · change p'.gme ≤ 157e-9; rw [e1]; exact hκ2
  · change 2 ≤ p'.wn; rw [e2]; linarith [hw.1]
  · change Real.sqrt (2 * p'.hg.x0 / p'.gme) + Real.sqrt (2 * y / p'.gme) ≤ D
    rw [e1, e3]; norm_num at hsum h1 ⊢; linarith
  · change 5e-5 * (Real.sqrt (2 * p'.hg.x0 / p'.gme) + Real.sqrt (2 * y / p'.gme)) ^ 2 ≤ p'.wn * p'.gme * p'.hg.x0 * D ^ 2
    rw [e1, e2, e3]; exact hb _ le_rfl
  · change 5e-5 * (Real.sqrt (2 * p'.hg.x0 / p'.gme) + Real.sqrt (2 * y / p'.gme)) ^ 2 ≤ p'.wn * p'.gme * y * D ^ 2
    rw [e1, e2, e3]; exact hb _ (by norm_num; linarith)
  · change 250 ≤ p'.ens; rw [← R.ens, S4]; norm_num
  · change p'.ens ≤ 400; rw [← R.ens, S4]; norm_num
  · change 0 < p'.zgnd.re; rw [← R.zgnd, S5]; exact zre
  · change 0.1 ≤ p'.zgnd.abs; rw [← R.zgnd, S5]; exact zabs

/-- The whole campaign run on a level profile between 125 and 300 km long. -/
theorem pimter_run {D : ℝ} (h1 : 125e3 ≤ D) (h2 : D ≤ 300e3) (c : ℝ) (surface : List ℝ) (p : PropSt ℝ) (qr qc : Int) :
    ∃ rows, runItmlogicPimterAt qr qc [c, c] surface [0, D] p = .ok rows := by
  obtain ⟨zt, hzt, lt⟩ := C04_qerfi_total [(PyNum.ofInt qr : ℝ)]
  obtain ⟨zl, hzl, ll⟩ := C04_qerfi_total [(PyNum.ofInt qc : ℝ)]
  have one : ∀ l : List ℝ, l.length = [(0:ℝ)].length → ∃ z, pyGet l 0 = .ok z := by
    intro l hl
    match l, hl with
    | [z], _ => exact ⟨z, rfl⟩
  obtain ⟨zt0, hzt0⟩ := one zt lt
  obtain ⟨zl0, hzl0⟩ := one zl ll
  obtain ⟨s, hs, S7, T⟩ := pimter_level h1 h2 c p
  obtain ⟨rows, hr⟩ := pimterLoop_total (qr := qr) (zr := zt0) (zc := zl0)
      (hs := (List.range 121).map fun (i : Nat) => (PyNum.ofInt (10 + (i : Int)) : ℝ)) (p := s) (by
    intro a ha p' R
    obtain ⟨i, hi, rfl⟩ := List.mem_map.1 ha
    rw [List.mem_range] at hi
    have hi' : (i : ℝ) ≤ 120 := by
      have : i ≤ 120 := by omega
      exact_mod_cast this
    have hi0 : (0:ℝ) ≤ i := by positivity
    rw [rofInt]
    push_cast
    exact pimterTurn_total (T p' R _ (by linarith) (by linarith)) (k := 5) (by rw [← R.klim]; exact S7) qr zt0 zl0)
  refine ⟨rows, ?_⟩
  unfold runItmlogicPimterAt
  rw [hzt, ok_bind, hzl, ok_bind, hs, ok_bind, hzt0, ok_bind, hzl0, ok_bind]
  exact hr

end Itm
