import Verif.Lemmas.P2PTotal

/-! Area predictions over smooth earth beyond the horizon: `itmlogic_area` from end to end. -/

namespace Itm
open Spec Props

theorem SInv.avar {α : Type} [PyNum α] {p q r : PropSt α} {s : Setup α} (I : SInv p s q) (h : AvarFrame q r) : SInv p s r := by
  obtain ⟨_, _, _, _, _, _, _, _, rfl⟩ := h
  exact ⟨I.mdp, I.inp, I.hor, I.diff, I.line, I.cache⟩

theorem SInv.lvar {α : Type} [PyNum α] {p q : PropSt α} {s : Setup α} (I : SInv p s q) (n : Int) : SInv p s { q with lvar := n } :=
  ⟨I.mdp, I.inp, I.hor, I.diff, I.line, I.cache⟩

/-- Between two turns. -/
structure Turn (p0 : PropSt ℝ) (s : Setup ℝ) (q : PropSt ℝ) : Prop where
  inv : SInv p0 s q
  cache : CacheInv q
  klim : ∃ k, q.klim = some k
  mdvar : ∃ m, q.mdvar = some m

theorem turn_rows {p0 : PropSt ℝ} {s : Setup ℝ} {q : PropSt ℝ} (S : SmoothEarth (inp p0)) (T : Turn p0 s q) {d : ℝ} (hd : 0 < q.dist)
    {ar : ℝ} (har : q.aref = some ar) (zt zl : ℝ) (zc : List (Int × ℝ)) :
    ∃ fs rows r, freeSpace q.wn q.dist = .ok fs ∧ areaInner d fs zt zl zc q = .ok (rows, r) ∧ Turn p0 s r := by
  have hin := T.inv.inp
  unfold inp at hin
  injection hin with a1 a2 a3 a4 a5 a6 a7 a8 a9
  have hw : 0 < q.wn := by rw [a5]; exact S.wpos
  obtain ⟨fs, hfs⟩ := freeSpace_total hw hd
  obtain ⟨k, hk⟩ := T.klim
  obtain ⟨m, hm⟩ := T.mdvar
  obtain ⟨rows, r, hr⟩ := areaInner_total (d := d) (fs := fs) (zt := zt) (zl := zl) zc T.cache fun zt zl zc =>
    freshAns_total T.cache hk hm har hw (by rw [a2]; exact S.he0.le) (by rw [a2]; exact S.he1.le) hd.le (by rw [a6]; exact S.dh.ge) zt zl zc
  obtain ⟨⟨i1, k1, f1⟩, _⟩ := areaInner_ok T.cache hr
  refine ⟨fs, rows, r, hfs, hr, T.inv.avar f1, i1, ?_, ?_⟩
  · unfold ansKey at k1
    have := congrArg Prod.fst k1
    dsimp only at this
    rw [hk] at this
    cases h : r.klim with
    | none => rw [h] at this; simp at this
    | some k => exact ⟨k, rfl⟩
  · obtain ⟨_, _, _, _, _, _, _, _, rfl⟩ := f1
    exact ⟨m, hm⟩

theorem turn_lrprop {p0 q r : PropSt ℝ} {s : Setup ℝ} {d : ℝ} (hi : CacheInv q) {k m : ℤ} (hk : q.klim = some k) (hm : q.mdvar = some m)
    (h : lrprop d { q with lvar := max 1 q.lvar } = .ok r) (I : SInv p0 s r) : Turn p0 s r := by
  have fr := lrprop_frame h
  refine ⟨I, cacheInv_lrFrame (hi.raise (n := max 1 q.lvar) (by omega)) (by simp only; omega) fr, ?_, ?_⟩
  · obtain ⟨_, _, _, _, _, _, _, rfl⟩ := fr; exact ⟨k, hk⟩
  · obtain ⟨_, _, _, _, _, _, _, rfl⟩ := fr; exact ⟨m, hm⟩

theorem areaLoop_cont {p0 : PropSt ℝ} {s : Setup ℝ} (S : SmoothEarth (inp p0)) (hs : 0 < s.h.dlsa) {x : ℝ × ScatPrep ℝ × ScatC ℝ}
    (hx : scatC (inp p0) s.h s.l 0.0 = .ok x) (zt zl : ℝ) (zc : List (Int × ℝ)) {ndc : Int} {ds2 : ℝ} (hn : ndc ≤ 0 ∨ 0 < ds2)
    (k : Nat) {jd : Int} (hj : 0 ≤ jd) {d dt : ℝ} (hd : s.h.dlsa ≤ d * 1000.0) (hdt : 0 < dt) {q : PropSt ℝ} (T : Turn p0 s q) :
    ∃ rows r, areaLoop zt zl zc ndc ds2 k jd d dt q = .ok (rows, r) := by
  induction k generalizing jd d dt q with
  | zero => exact ⟨_, _, rfl⟩
  | succ k ih =>
    obtain ⟨k0, hk⟩ := T.klim
    obtain ⟨m0, hm⟩ := T.mdvar
    obtain ⟨r, hr, I, har, hdist⟩ := lrprop_smooth_cont (T.inv.lvar (max 1 q.lvar)) hx hd
    have T' := turn_lrprop T.cache hk hm hr I
    obtain ⟨fs, rows, r', h1, h2, T''⟩ := turn_rows S T' (d := d) (by rw [hdist]; linarith) har zt zl zc
    have hdt' : 0 < (if jd + 1 = ndc then ds2 else dt) := by
      split_ifs with h
      · rcases hn with hn | hn
        · omega
        · exact hn
      · exact hdt
    obtain ⟨rows', r'', h3⟩ := ih (jd := jd + 1) (by omega) (d := d + (if jd + 1 = ndc then ds2 else dt)) (dt := if jd + 1 = ndc then ds2 else dt)
      (by norm_num at hd ⊢; nlinarith) hdt' T''
    refine ⟨rows ++ rows', r'', ?_⟩
    unfold areaLoop
    dsimp only
    rw [hr, ok_bind, h1, ok_bind, h2, ok_bind]
    dsimp only
    rw [h3, ok_bind]
    rfl

theorem areaLoop_first {p : PropSt ℝ} (S : SmoothEarth (inp p)) (hm : 0 < p.mdp) (hi : CacheInv p) {k0 m0 : ℤ} (hk0 : p.klim = some k0)
    (hm0 : p.mdvar = some m0) (zt zl : ℝ) (zc : List (Int × ℝ)) {ndc : Int} {ds2 : ℝ} (hn : ndc ≤ 0 ∨ 0 < ds2)
    (k : Nat) {d dt : ℝ} (hd : p.dl.x0 + p.dl.x1 ≤ d * 1000.0) (hdt : 0 < dt) :
    ∃ rows r, areaLoop zt zl zc ndc ds2 k 0 d dt p = .ok (rows, r) := by
  cases k with
  | zero => exact ⟨_, _, rfl⟩
  | succ k =>
    have hm1 : ({ p with lvar := max 1 p.lvar } : PropSt ℝ).mdp ≠ 0 := by simp only; omega
    have hdo : distOf { p with lvar := max 1 p.lvar } (d * 1000.0) = d * 1000.0 := by unfold distOf; rw [if_pos (by simp only; omega)]
    obtain ⟨q, s, x, hq, hs, hh, hx, -, -, -, har, hdist, hinp, -⟩ :=
      lrprop_smooth (p := { p with lvar := max 1 p.lvar }) S hm1 (d := d * 1000.0) (by rw [hdo]; exact hd)
    obtain ⟨s', hs', I, -, -⟩ := first_inv (p := { p with lvar := max 1 p.lvar }) hm hq
    rw [hs, ok_inj] at hs'
    subst hs'
    have I' : SInv p s q := ⟨I.mdp, I.inp, I.hor, I.diff, I.line, I.cache⟩
    have T := turn_lrprop hi hk0 hm0 hq I'
    have hsa : s.h.dlsa = p.dl.x0 + p.dl.x1 := by rw [hh]; exact congrArg Horizon.dlsa S.hor
    have hpos : 0 < s.h.dlsa := by
      rw [hsa]
      have e0 : p.dl.x0 = _ := S.dl0
      have e1 : p.dl.x1 = _ := S.dl1
      have he0 := S.he0
      have hg := S.gpos
      have : 0 < p.dl.x0 := by rw [e0]; exact Real.sqrt_pos.2 (by positivity)
      have : 0 ≤ p.dl.x1 := by rw [e1]; exact Real.sqrt_nonneg _
      linarith
    rw [hdo] at hdist
    obtain ⟨fs, rows, r', h1, h2, T''⟩ := turn_rows S T (d := d) (by rw [hdist]; linarith) har zt zl zc
    have hdt' : 0 < (if (0:Int) + 1 = ndc then ds2 else dt) := by
      split_ifs with h
      · rcases hn with hn | hn
        · omega
        · exact hn
      · exact hdt
    obtain ⟨rows', r'', h3⟩ := areaLoop_cont S hpos hx zt zl zc hn k (jd := 0 + 1) (by omega)
      (d := d + (if (0:Int) + 1 = ndc then ds2 else dt)) (dt := if (0:Int) + 1 = ndc then ds2 else dt)
      (by rw [hsa]; norm_num at hd hdt' ⊢; nlinarith) hdt' T''
    refine ⟨rows ++ rows', r'', ?_⟩
    unfold areaLoop
    dsimp only
    rw [hq, ok_bind, h1, ok_bind, h2, ok_bind]
    dsimp only
    rw [h3, ok_bind]
    rfl

/-- The ground impedance of the area runner. -/
theorem area_ground_range {x : ℝ} (h0 : 0 ≤ x) (h1 : x ≤ 1) (ipol : ℤ) :
    ∃ z : Cx ℝ, (if ipol ≠ 0 then Cx.div (⟨Real.sqrt 14, 0.0⟩ : Cx ℝ) ⟨15.0, x⟩ else pure ⟨Real.sqrt 14, 0.0⟩) = .ok z ∧ 0 < z.re ∧ 0.1 ≤ z.abs := by
  have hs := Real.mul_self_sqrt (show (0:ℝ) ≤ 14 by norm_num)
  have hsp : 0 < Real.sqrt 14 := Real.sqrt_pos.2 (by norm_num)
  generalize Real.sqrt 14 = u at *
  by_cases hp : ipol ≠ 0
  · rw [if_pos hp]
    have hN : (⟨15.0, x⟩ : Cx ℝ).normSq = 225 + x * x := by rw [normSq_real]; norm_num
    obtain ⟨r, hr, hrn, hre⟩ := cxdiv_ok (z := ⟨u, 0.0⟩) (w := ⟨15.0, x⟩) (by rw [hN]; nlinarith [mul_self_nonneg x])
    refine ⟨r, hr, ?_, ?_⟩
    · rw [hre]; dsimp only
      rw [hN, zero_lit, zero_mul, add_zero]
      positivity
    · rw [hN, normSq_real (⟨u, 0.0⟩ : Cx ℝ)] at hrn
      dsimp only at hrn
      have ha := abs_sq r
      have hr0 := normSq_nonneg r
      have hr1 : 0.01 ≤ r.normSq := by
        by_contra hc
        push Not at hc
        norm_num at hc hrn
        nlinarith [mul_self_nonneg x]
      have : 0 ≤ r.abs := by rw [cxabs_real]; exact Real.sqrt_nonneg _
      rw [← ha] at hr1
      norm_num at hr1 ⊢
      nlinarith
  · rw [if_neg hp]
    refine ⟨_, rfl, hsp, ?_⟩
    rw [cxabs_real]
    apply Real.le_sqrt_of_sq_le
    dsimp only
    norm_num
    nlinarith

/-- Over smooth earth the siting criterion adds almost nothing. -/
theorem qlraHe_smooth (kst : Int) {hg : ℝ} (h : 0.5 ≤ hg) : hg ≤ qlraHe kst hg 0 ∧ qlraHe kst hg 0 ≤ hg + 1e-5 := by
  unfold qlraHe
  by_cases hk : kst ≤ 0
  · rw [if_pos hk]; exact ⟨le_rfl, by norm_num⟩
  · rw [if_neg hk]
    dsimp only
    simp only [pyMin_real, pyMax_real, rexp, rsin]
    have em : min (20.0:ℝ) (2.0 * hg / max 1e-3 0) = 20 := by
      rw [max_eq_left (by norm_num), min_eq_left (by norm_num at h ⊢; linarith)]; norm_num
    rw [em]
    have hq : ∀ q : ℝ, 0 ≤ q → q ≤ 9 → hg ≤ hg + (1.0 + q) * Real.exp (-20) ∧ hg + (1.0 + q) * Real.exp (-20) ≤ hg + 1e-5 := by
      intro q q0 q9
      have e1 : Real.exp (-20) ≤ 1e-6 := by
        have h2 : (2:ℝ) ≤ Real.exp 1 := by have := Real.add_one_le_exp (1:ℝ); linarith
        have h20 : (2:ℝ) ^ 20 ≤ Real.exp 20 := by
          calc (2:ℝ) ^ 20 ≤ (Real.exp 1) ^ 20 := by gcongr
            _ = Real.exp 20 := by rw [← Real.exp_nat_mul]; norm_num
        rw [Real.exp_neg, inv_le_comm₀ (Real.exp_pos _) (by norm_num)]
        norm_num at h20 ⊢
        linarith
      have e0 := Real.exp_pos (-20)
      norm_num at e1 ⊢
      constructor <;> nlinarith
    have hsn : hg < 5 → 0 ≤ Real.sin (0.3141593 * hg) := by
      intro h5
      apply Real.sin_nonneg_of_nonneg_of_le_pi
      · norm_num at h ⊢; linarith
      · have := Real.pi_gt_three; norm_num; nlinarith
    have hs1 := Real.sin_le_one (0.3141593 * hg)
    have e5 : (5.0:ℝ) = 5 := by norm_num
    rw [e5]
    generalize Real.sin (0.3141593 * hg) = sn at *
    apply hq
    · split_ifs with h1 h2 h2
      · have := hsn h1; positivity
      · have := hsn h1; positivity
      · norm_num
      · norm_num
    · split_ifs with h1 h2 h2
      · norm_num; linarith
      · norm_num; linarith
      · norm_num
      · norm_num

/-- Smooth earth, and a grid that begins beyond the horizons of antennas at most `h` m high. -/
structure LevelArea (p : PropSt ℝ) (g : Grid ℝ) (h : ℝ) : Prop where
  dh : p.dh = 0
  lo0 : 0.5 ≤ p.hg.x0
  lo1 : 0.5 ≤ p.hg.x1
  hi0 : p.hg.x0 ≤ h
  hi1 : p.hg.x1 ≤ h
  fmhz : 381.6 ≤ p.fmhz
  f0 : 5e-5 * 47.7 ≤ p.fmhz * 1.1e-7 * p.hg.x0
  f1 : 5e-5 * 47.7 ≤ p.fmhz * 1.1e-7 * p.hg.x1
  d0 : 0 < g.d0
  beyond : 73 * (h + 1e-5) ≤ g.d0 ^ 2
  within : 73 * (h + 1e-5) ≤ 300 ^ 2
  d1 : g.d0 < g.d1
  ds1 : 0 < g.ds1

theorem area_prep {p : PropSt ℝ} {g : Grid ℝ} {h : ℝ} (H : LevelArea p g h) (kst : Pair Int) :
    ∃ s q, areaSetup p = .ok s ∧ qlra kst s = .ok q ∧ SmoothEarth (inp q) ∧ q.mdp = 1 ∧ CacheInv q ∧ q.klim = some 5 ∧ q.mdvar = some 3 ∧
      q.dl.x0 + q.dl.x1 ≤ g.d0 * 1000.0 := by
  have hw : 8 ≤ p.fmhz / 47.7 := by have := H.fmhz; rw [le_div_iff₀ (by norm_num)]; norm_num at *; linarith
  obtain ⟨wn, ewn⟩ : ∃ wn, wn = p.fmhz / 47.7 := ⟨_, rfl⟩
  obtain ⟨x, ex⟩ : ∃ x : ℝ, x = 376.62 * 0.001 / wn := ⟨_, rfl⟩
  rw [← ewn] at hw
  have hx0 : 0 ≤ x := by rw [ex]; positivity
  have hx1 : x ≤ 1 := by rw [ex, div_le_one (by linarith)]; norm_num; linarith
  obtain ⟨z, ez, zre, zabs⟩ := area_ground_range hx0 hx1 p.ipol
  have hsys : areaSys p.fmhz p.ipol = .ok z := by
    unfold areaSys
    rw [← ewn]
    have e2 : groundZq (15.0 : ℝ) 0.001 wn = .ok ⟨15.0, x⟩ := by
      unfold groundZq; rw [pyDiv_ok (by linarith), ok_bind, ex]; rfl
    have e14 : (15.0 : ℝ) - 1.0 = 14 := by norm_num
    rw [e2, ok_bind, e14, mathSqrt_ok (by norm_num), ok_bind]
    exact ez
  obtain ⟨κ, eκ⟩ : ∃ κ : ℝ, κ = effCurvature 157e-9 301.0 := ⟨_, rfl⟩
  obtain ⟨hκ1, hκ2⟩ := curvature_range (n := 301.0) (by norm_num) (by norm_num)
  rw [← eκ] at hκ1 hκ2
  have hκ : 0 < κ := lt_of_lt_of_le (by norm_num) hκ1
  obtain ⟨b0, c0⟩ := qlraHe_smooth kst.x0 H.lo0
  obtain ⟨b1, c1⟩ := qlraHe_smooth kst.x1 H.lo1
  obtain ⟨he0, e0⟩ : ∃ he0, he0 = qlraHe kst.x0 p.hg.x0 0 := ⟨_, rfl⟩
  obtain ⟨he1, e1⟩ : ∃ he1, he1 = qlraHe kst.x1 p.hg.x1 0 := ⟨_, rfl⟩
  rw [← e0] at b0 c0
  rw [← e1] at b1 c1
  have lo0 := H.lo0
  have lo1 := H.lo1
  have p0 : 0 < he0 := by norm_num at lo0; linarith
  have p1 : 0 < he1 := by norm_num at lo1; linarith
  have rh : ∀ y : ℝ, roughHorizon κ 0 y = Real.sqrt (2 * y / κ) := by
    intro y; unfold roughHorizon smoothReach; simp
  have ra : ∀ y : ℝ, 0 < y → roughAngle κ 0 y = -(κ * Real.sqrt (2 * y / κ)) := by
    intro y hy
    unfold roughAngle
    rw [rh]; unfold smoothReach
    have hp : 0 < Real.sqrt (2 * y / κ) := Real.sqrt_pos.2 (by positivity)
    have h2 := Real.sq_sqrt (show 0 ≤ 2 * y / κ by positivity)
    generalize Real.sqrt (2 * y / κ) = t at *
    have : 2 * y = κ * t ^ 2 := by rw [h2]; field_simp
    rw [this]; field_simp; norm_num
  have hC : qlraC kst p.hg κ p.dh = .ok (⟨he0, he1⟩, ⟨Real.sqrt (2 * he0 / κ), Real.sqrt (2 * he1 / κ)⟩,
      ⟨-(κ * Real.sqrt (2 * he0 / κ)), -(κ * Real.sqrt (2 * he1 / κ))⟩) := by
    unfold qlraC
    rw [H.dh]
    dsimp only
    rw [← e0, ← e1, qlraHorizon_ok hκ p0 le_rfl, ok_bind]
    dsimp only
    rw [qlraHorizon_ok hκ p1 le_rfl, ok_bind]
    dsimp only
    rw [pure_ok, rh, rh, ra _ p0, ra _ p1]
  have hs := areaSetup_eq p
  rw [hsys, ok_bind, pure_ok, ← eκ, ← ewn] at hs
  obtain ⟨s, es⟩ : ∃ s : PropSt ℝ, s = { p with ens0 := 301.0, eps := 15.0, sgm := 0.001, klimx := 5, mdvarx := 3, gma := 157e-9, kwx := 0, wn := wn, ens := 301.0, gme := κ, lvar := 0, zgnd := z } := ⟨_, rfl⟩
  rw [← es] at hs
  have hq : qlra kst s = .ok (prepMarks { s with
      he := ⟨he0, he1⟩
      dl := ⟨Real.sqrt (2 * he0 / κ), Real.sqrt (2 * he1 / κ)⟩
      the := ⟨-(κ * Real.sqrt (2 * he0 / κ)), -(κ * Real.sqrt (2 * he1 / κ))⟩
      mdp := 1 }) := by
    rw [qlra_eq, show s.hg = p.hg by rw [es], show s.gme = κ by rw [es], show s.dh = p.dh by rw [es], hC, ok_bind]
    rfl
  refine ⟨s, _, hs, hq, ?_⟩
  rw [es]
  · have key : ∀ y : ℝ, 0 < y → y ≤ h + 1e-5 → ∀ D : ℝ, 0 ≤ D → 73 * (h + 1e-5) ≤ D ^ 2 → Real.sqrt (2 * y / κ) ≤ D * 500 := by
      intro y y0 y1 D D0 hD
      apply Real.sqrt_le_iff.2
      refine ⟨by positivity, ?_⟩
      rw [div_le_iff₀ hκ]
      have h1 : 73 * y ≤ D ^ 2 := by linarith
      have h2 : D ^ 2 * 1.1e-7 ≤ D ^ 2 * κ := by gcongr
      have h3 : (D * 500) ^ 2 * κ = 250000 * (D ^ 2 * κ) := by ring
      rw [h3]
      generalize D ^ 2 * κ = t at *
      norm_num at h2 ⊢
      linarith
    have hh0 : he0 ≤ h + 1e-5 := by have := H.hi0; linarith
    have hh1 : he1 ≤ h + 1e-5 := by have := H.hi1; linarith
    have big : ∀ y z : ℝ, 5e-5 * 47.7 ≤ p.fmhz * 1.1e-7 * y → y ≤ z → 0 < y → 5e-5 ≤ wn * κ * z := by
      intro y z hy hyz y0
      have h1 : 5e-5 ≤ wn * (1.1e-7 * y) := by
        rw [ewn, div_mul_eq_mul_div, le_div_iff₀ (by norm_num)]
        linarith [mul_assoc p.fmhz 1.1e-7 y]
      have h2 : (1.1e-7:ℝ) * y ≤ κ * z := mul_le_mul hκ1 hyz y0.le hκ.le
      have h3 : wn * (1.1e-7 * y) ≤ wn * (κ * z) := mul_le_mul_of_nonneg_left h2 (by linarith)
      rw [mul_assoc]; linarith
    rw [prepMarks_eq]
    refine ⟨?_, rfl, cacheInv_of_five (by simp), by simp, by simp, ?_⟩
    · constructor
      · change 0 < p.hg.x0; norm_num at lo0; linarith
      · change 0 < p.hg.x1; norm_num at lo1; linarith
      · exact p0
      · exact p1
      · exact H.dh
      · change 2 ≤ wn; linarith
      · change 75e-9 ≤ κ; norm_num at hκ1 ⊢; linarith
      · change κ ≤ 250e-9; norm_num at hκ2 ⊢; linarith
      · rfl
      · rfl
      · rfl
      · rfl
      · change 250 ≤ (301.0:ℝ); norm_num
      · change (301.0:ℝ) ≤ 400; norm_num
      · exact zre
      · exact zabs
      · exact big _ _ H.f0 b0 (by norm_num at lo0; linarith)
      · exact big _ _ H.f1 b1 (by norm_num at lo1; linarith)
      · change Real.sqrt (2 * he0 / κ) + Real.sqrt (2 * he1 / κ) ≤ 300e3
        have k0 := key _ p0 hh0 300 (by norm_num) H.within
        have k1 := key _ p1 hh1 300 (by norm_num) H.within
        norm_num
        linarith
    · change Real.sqrt (2 * he0 / κ) + Real.sqrt (2 * he1 / κ) ≤ g.d0 * 1000.0
      have k0 := key _ p0 hh0 g.d0 H.d0.le H.beyond
      have k1 := key _ p1 hh1 g.d0 H.d0.le H.beyond
      norm_num
      linarith

/-- The plan of a grid with two ends. -/
theorem areaPlan_two {g : Grid ℝ} (h0 : 0 < g.d0) (h1 : g.d0 < g.d1) (hs : 0 < g.ds1) :
    ∃ nd : Int, nd = ⌊(g.d1 - g.d0) / g.ds1 + 1.75⌋ ∧
      ((g.d2 ≤ g.d0 + (nd - 1) * g.ds1 ∨ g.ds2 ≤ 0) ∧ areaPlan g = { d0 := g.d0, nd := nd, ndc := 0, ds := some g.ds1, ds2 := g.ds2 } ∨
       ¬ (g.d2 ≤ g.d0 + (nd - 1) * g.ds1 ∨ g.ds2 ≤ 0) ∧
        areaPlan g = { d0 := g.d0, nd := nd + ⌊(g.d2 - (g.d0 + (nd - 1) * g.ds1)) / g.ds2 + 0.75⌋, ndc := nd, ds := some g.ds1, ds2 := g.ds2 }) := by
  refine ⟨_, rfl, ?_⟩
  unfold areaPlan
  simp only [zero_lit, if_neg (not_le.2 h0), rfloor, rofInt]
  have hc : ¬ (g.d1 ≤ g.d0 ∨ g.ds1 ≤ 0) := by push Not; exact ⟨h1, hs⟩
  simp only [if_neg hc, Int.cast_sub, Int.cast_one]
  by_cases h : g.d2 ≤ g.d0 + ((⌊(g.d1 - g.d0) / g.ds1 + 1.75⌋ : Int) - 1) * g.ds1 ∨ g.ds2 ≤ 0
  · left; rw [if_pos h]; exact ⟨h, rfl⟩
  · right; rw [if_neg h]; exact ⟨h, rfl⟩

/-- The whole run. -/
theorem area_run {p : PropSt ℝ} {g : Grid ℝ} {h : ℝ} (H : LevelArea p g h) (kst : Pair Int) (qt ql : Int) (qc : List Int) :
    ∃ rows r, itmlogicAreaAt qt ql qc g kst p = .ok (rows, r) := by
  obtain ⟨s, q, hs, hq, S, hm, hi, hk, hmd, hd⟩ := area_prep H kst
  obtain ⟨zt, hzt, lt⟩ := C04_qerfi_total [(percent qt : ℝ)]
  obtain ⟨zl, hzl, ll⟩ := C04_qerfi_total [(percent ql : ℝ)]
  obtain ⟨zc, hzc, -⟩ := C04_qerfi_total (qc.map (percent : Int → ℝ))
  have hd0 : (areaPlan g).d0 = g.d0 ∧ (areaPlan g).ds = some g.ds1 ∧ (areaPlan g).ds2 = g.ds2 ∧ ((areaPlan g).ndc ≤ 0 ∨ 0 < g.ds2) := by
    obtain ⟨nd, -, ⟨-, e⟩ | ⟨hn, e⟩⟩ := areaPlan_two H.d0 H.d1 H.ds1
    · rw [e]; exact ⟨rfl, rfl, rfl, .inl le_rfl⟩
    · push Not at hn
      rw [e]; exact ⟨rfl, rfl, rfl, .inr hn.2⟩
  obtain ⟨e1, e2, e3, e4⟩ := hd0
  have one : ∀ l : List ℝ, l.length = [(0:ℝ)].length → ∃ z, pyGet l 0 = .ok z := by
    intro l hl
    match l, hl with
    | [z], _ => exact ⟨z, rfl⟩
  obtain ⟨zt0, hzt0⟩ := one zt lt
  obtain ⟨zl0, hzl0⟩ := one zl ll
  obtain ⟨rows, r, hr⟩ := areaLoop_first S (by omega) hi hk hmd zt0 zl0 (qc.zip zc) (ds2 := g.ds2) e4 (areaPlan g).nd.toNat hd H.ds1
  refine ⟨rows, r, ?_⟩
  unfold itmlogicAreaAt
  rw [hzt, ok_bind, hzl, ok_bind, hzc, ok_bind, hzt0, ok_bind, hzl0, ok_bind]
  dsimp only
  rw [hs, ok_bind, hq, ok_bind, e1, e2, e3]
  exact hr

end Itm
