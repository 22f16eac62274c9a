import Verif.Props.C65
import Verif.Lemmas.AreaTotal
import Verif.Lemmas.SmoothSight

/-! C66: area predictions within the parameter ranges are answered. -/

namespace Itm.Props
open Itm Itm.Spec

/-! ### Rough terrain stays within the limits -/

theorem sitedHe_range (kst : Int) {hg dh : ℝ} (h : 0 ≤ hg) : hg ≤ qlraHe kst hg dh ∧ qlraHe kst hg dh ≤ hg + 10 := by
  unfold qlraHe
  by_cases hk : kst ≤ 0
  · rw [if_pos hk]; exact ⟨le_rfl, by linarith⟩
  · rw [if_neg hk]
    dsimp only
    simp only [pyMin_real, pyMax_real, rexp, rsin]
    have em : (0:ℝ) ≤ min (20.0:ℝ) (2.0 * hg / max 1e-3 dh) := le_min (by norm_num) (by positivity)
    have e1 : Real.exp (-(min (20.0:ℝ) (2.0 * hg / max 1e-3 dh))) ≤ 1 := Real.exp_le_one_iff.2 (by linarith)
    have e0 := Real.exp_pos (-(min (20.0:ℝ) (2.0 * hg / max 1e-3 dh)))
    generalize Real.exp (-(min (20.0:ℝ) (2.0 * hg / max 1e-3 dh))) = e at *
    have hsn : hg < 5 → 0 ≤ Real.sin (0.3141593 * hg) := by
      intro h5
      apply Real.sin_nonneg_of_nonneg_of_le_pi
      · positivity
      · have := Real.pi_gt_three; norm_num; nlinarith
    have hs1 := Real.sin_le_one (0.3141593 * hg)
    have e5 : (5.0:ℝ) = 5 := by norm_num
    rw [e5]
    generalize Real.sin (0.3141593 * hg) = sn at *
    have hq : ∀ q : ℝ, 0 ≤ q → q ≤ 9 → hg ≤ hg + (1.0 + q) * e ∧ hg + (1.0 + q) * e ≤ hg + 10 := by
      intro q q0 q9
      norm_num
      constructor
      · positivity
      · nlinarith
    apply hq
    · split_ifs with h1 h2 h2
      · have := hsn h1; positivity
      · have := hsn h1; positivity
      · norm_num
      · norm_num
    · split_ifs with h1 h2 h2
      · norm_num; linarith
      · norm_num; linarith
      · norm_num
      · norm_num

/-- Horizon distance and angle over terrain of up to 700 m irregularity. -/
theorem rough_limits {κ g he dh : ℝ} (k1 : 1.1e-7 ≤ κ) (k2 : κ ≤ 157e-9) (hg : 1 ≤ g ∧ g ≤ 3000) (h1 : 1 ≤ he) (h2 : he ≤ 3010)
    (d1 : 0 ≤ dh) (d2 : dh ≤ 700) :
    TerminalUsable g he (roughHorizon κ dh he) (roughAngle κ dh he) κ ∧ -(κ * 8000) ≤ roughAngle κ dh he + κ * roughHorizon κ dh he := by
  have hκ : 0 < κ := lt_of_lt_of_le (by norm_num) k1
  have hh : 0 < he := by linarith
  obtain ⟨R, eR⟩ : ∃ R, R = √(2 * he / κ) := ⟨_, rfl⟩
  have R2 : R ^ 2 = 2 * he / κ := by rw [eR]; exact Real.sq_sqrt (by positivity)
  have hR : 3500 ≤ R := by
    rw [eR]; refine sqrt_ge_of (by norm_num) ?_
    rw [le_div_iff₀ hκ]; norm_num at k2 ⊢; linarith
  have hR0 : 0 < R := by linarith
  have hRk : 2 * he = κ * R ^ 2 := by rw [R2]; field_simp
  have hm : 0 < max he 5 := lt_max_of_lt_left hh
  obtain ⟨s, es⟩ : ∃ s, s = 0.07 * √(dh / max he 5) := ⟨_, rfl⟩
  have s0 : 0 ≤ s := by rw [es]; positivity
  have s1 : s ≤ 0.83 := by
    have : √(dh / max he 5) ≤ 11.85 := by
      refine Real.sqrt_le_iff.2 ⟨by norm_num, ?_⟩
      rw [div_le_iff₀ hm]
      have := le_max_right he 5
      norm_num; linarith
    rw [es]; norm_num at this ⊢; linarith
  have x1 : Real.exp s ≤ 2.3 := by
    refine (Real.exp_le_exp.2 s1).trans ?_
    have := Real.exp_bound' (x := 0.83) (by norm_num) (by norm_num) (n := 6) (by norm_num)
    refine this.trans ?_
    simp [Finset.sum_range_succ, Nat.factorial]
    norm_num
  have x0 : 1 ≤ Real.exp s := Real.one_le_exp s0
  have hx : Real.exp (-s) = 1 / Real.exp s := by rw [Real.exp_neg, one_div]
  have hxl : 1 - s ≤ Real.exp (-s) := by have := Real.add_one_le_exp (-s); linarith
  have hH : roughHorizon κ dh he = R * Real.exp (-s) := by
    unfold roughHorizon smoothReach; rw [eR, es]; norm_num
  have hA : roughAngle κ dh he = 0.65 * dh * (Real.exp s - 1) / R - κ * R := by
    unfold roughAngle
    rw [hH, show smoothReach κ he = R from eR.symm, hx]
    have : R / (R * (1 / Real.exp s)) = Real.exp s := by
      have := (Real.exp_pos s).ne'
      field_simp
    rw [this, hRk]
    field_simp
  have kR : κ * R ≤ 0.2 := by
    have : (κ * R) ^ 2 ≤ 0.2 ^ 2 := by
      have : (κ * R) ^ 2 = κ * (2 * he) := by rw [hRk]; ring
      rw [this]; norm_num at k2 ⊢; nlinarith
    exact (sq_le_sq₀ (by positivity) (by norm_num)).1 this
  have kR0 : 0 ≤ κ * R := by positivity
  have up0 : 0 ≤ 0.65 * dh * (Real.exp s - 1) / R := by
    have : 0 ≤ Real.exp s - 1 := by linarith
    positivity
  have up : 0.65 * dh * (Real.exp s - 1) / R ≤ 0.2 := by
    rw [div_le_iff₀ hR0]
    have : dh * (Real.exp s - 1) ≤ 700 * 1.3 := mul_le_mul d2 (by norm_num at x1 ⊢; linarith) (by linarith) (by norm_num)
    rw [mul_assoc]
    norm_num at this ⊢; linarith
  have Rs : R * s ≤ 8000 := by
    have e : R * s = 0.07 * √(2 * he / κ * (dh / max he 5)) := by
      rw [eR, es, Real.sqrt_mul (by positivity)]; ring
    have : √(2 * he / κ * (dh / max he 5)) ≤ 114000 := by
      refine Real.sqrt_le_iff.2 ⟨by norm_num, ?_⟩
      rw [div_mul_div_comm, div_le_iff₀ (by positivity)]
      have a1 : he * dh ≤ max he 5 * 700 := mul_le_mul (le_max_left _ _) d2 d1 hm.le
      have a2 : 1.1e-7 * max he 5 ≤ κ * max he 5 := mul_le_mul_of_nonneg_right k1 hm.le
      rw [mul_assoc]
      generalize κ * max he 5 = t at *
      generalize he * dh = v at *
      generalize max he 5 = m at *
      norm_num at a1 a2 ⊢
      linarith
    rw [e]; norm_num at this ⊢; linarith
  refine ⟨⟨⟨by linarith [hg.1], hg.2⟩, ?_, ?_, ?_⟩, ?_⟩
  · rw [hA, abs_le]; constructor <;> linarith
  · rw [hH, show smoothHorizon he κ = R from eR.symm, hx]
    have : 0.1 ≤ 1 / Real.exp s := by rw [le_div_iff₀ (Real.exp_pos s)]; norm_num at x1 ⊢; linarith
    nlinarith
  · rw [hH, show smoothHorizon he κ = R from eR.symm]
    have : Real.exp (-s) ≤ 1 := Real.exp_le_one_iff.2 (by linarith)
    nlinarith
  · rw [hA, hH]
    have a1 : R * (1 - s) ≤ R * Real.exp (-s) := mul_le_mul_of_nonneg_left hxl hR0.le
    have a2 : κ * (R - 8000) ≤ κ * (R * Real.exp (-s)) := mul_le_mul_of_nonneg_left (by linarith) hκ.le
    linarith

/-- The ground impedance of the area runner from 20 MHz on. -/
theorem area_ground_limits {x : ℝ} (h0 : 0 < x) (h1 : x ≤ 1) (ipol : ℤ) :
    ∃ z : Cx ℝ, (if ipol ≠ 0 then Cx.div (⟨√14, 0.0⟩ : Cx ℝ) ⟨15.0, x⟩ else pure ⟨√14, 0.0⟩) = .ok z ∧
      |z.im| ≤ z.re ∧ (z.im ≠ 0 ∨ 1 ≤ z.re) ∧ 0.025 ≤ √(z.re ^ 2 + z.im ^ 2) := by
  have hs := Real.mul_self_sqrt (show (0:ℝ) ≤ 14 by norm_num)
  have hsp : 0 < √14 := Real.sqrt_pos.2 (by norm_num)
  generalize √14 = u at *
  have hu1 : 1 ≤ u := by nlinarith
  by_cases hp : ipol ≠ 0
  · rw [if_pos hp]
    have hN : (⟨15.0, x⟩ : Cx ℝ).normSq = 225 + x * x := by rw [normSq_real]; norm_num
    have hNp : 0 < 225 + x * x := by positivity
    have e : Cx.div (⟨u, 0.0⟩ : Cx ℝ) ⟨15.0, x⟩ = .ok ⟨u * 15 / (225 + x * x), -(u * x) / (225 + x * x)⟩ := by
      rw [cxdiv_real, hN]
      dsimp only
      rw [pyDiv_ok hNp.ne', ok_bind, pyDiv_ok hNp.ne', ok_bind]
      norm_num
    refine ⟨_, e, ?_, .inl ?_, ?_⟩
    · dsimp only
      rw [abs_div, abs_of_pos hNp, abs_neg, abs_of_nonneg (by positivity)]
      exact div_le_div_of_nonneg_right (by nlinarith) hNp.le
    · exact div_ne_zero (neg_ne_zero.2 (by positivity)) hNp.ne'
    · dsimp only
      refine sqrt_ge_of (by norm_num) ?_
      have : (u * 15 / (225 + x * x)) ^ 2 + (-(u * x) / (225 + x * x)) ^ 2 = 14 / (225 + x * x) := by
        rw [div_pow, div_pow, ← add_div, show (u * 15) ^ 2 + (-(u * x)) ^ 2 = u * u * (225 + x * x) by ring, hs]
        field_simp
      rw [this, le_div_iff₀ hNp]
      norm_num; nlinarith
  · rw [if_neg hp]
    refine ⟨_, rfl, ?_, .inr hu1, ?_⟩
    · dsimp only; rw [zero_lit, abs_zero]; exact hsp.le
    · dsimp only
      refine sqrt_ge_of (by norm_num) ?_
      norm_num; nlinarith

/-- What `areaSetup` and `qlra` arrive at. -/
theorem area_limits {p : PropSt ℝ} (kst : Pair Int) (hf : 20 ≤ p.fmhz ∧ p.fmhz ≤ 20000) (hg0 : 1 ≤ p.hg.x0 ∧ p.hg.x0 ≤ 3000)
    (hg1 : 1 ≤ p.hg.x1 ∧ p.hg.x1 ≤ 3000) (hdh : 0 ≤ p.dh ∧ p.dh ≤ 700) :
    ∃ s q, areaSetup p = .ok s ∧ qlra kst s = .ok q ∧ WithinLimits q ∧ 0 < (linkOf q).scatterAngle (linkOf q).d5 ∧ q.mdp = 1 ∧ CacheInv q ∧
      q.klim = some 5 ∧ q.mdvar = some 3 := by
  obtain ⟨wn, ewn⟩ : ∃ wn, wn = p.fmhz / 47.7 := ⟨_, rfl⟩
  have hw : 0.419 ≤ wn ∧ wn ≤ 420 := by
    rw [ewn, le_div_iff₀ (by norm_num), div_le_iff₀ (by norm_num)]
    constructor
    · norm_num; linarith [hf.1]
    · norm_num; linarith [hf.2]
  have hwp : 0 < wn := lt_of_lt_of_le (by norm_num) hw.1
  obtain ⟨x, ex⟩ : ∃ x : ℝ, x = 376.62 * 0.001 / wn := ⟨_, rfl⟩
  have hx0 : 0 < x := by rw [ex]; positivity
  have hx1 : x ≤ 1 := by rw [ex, div_le_iff₀ hwp]; have := hw.1; norm_num at this ⊢; linarith
  obtain ⟨z, ez, z1, z2, z3⟩ := area_ground_limits hx0 hx1 p.ipol
  have hsys : areaSys p.fmhz p.ipol = .ok z := by
    unfold areaSys
    rw [← ewn]
    have e2 : groundZq (15.0 : ℝ) 0.001 wn = .ok ⟨15.0, x⟩ := by
      unfold groundZq; rw [pyDiv_ok hwp.ne', ok_bind, ex]; rfl
    have e14 : (15.0 : ℝ) - 1.0 = 14 := by norm_num
    rw [e2, ok_bind, e14, mathSqrt_ok (by norm_num), ok_bind]
    exact ez
  obtain ⟨κ, eκ⟩ : ∃ κ : ℝ, κ = effCurvature 157e-9 301.0 := ⟨_, rfl⟩
  obtain ⟨hκ1, hκ2⟩ := curvature_range (n := 301.0) (by norm_num) (by norm_num)
  rw [← eκ] at hκ1 hκ2
  have hκ : 0 < κ := lt_of_lt_of_le (by norm_num) hκ1
  obtain ⟨b0, c0⟩ := sitedHe_range kst.x0 (hg := p.hg.x0) (dh := p.dh) (by linarith [hg0.1])
  obtain ⟨b1, c1⟩ := sitedHe_range kst.x1 (hg := p.hg.x1) (dh := p.dh) (by linarith [hg1.1])
  obtain ⟨he0, e0⟩ : ∃ he0, he0 = qlraHe kst.x0 p.hg.x0 p.dh := ⟨_, rfl⟩
  obtain ⟨he1, e1⟩ : ∃ he1, he1 = qlraHe kst.x1 p.hg.x1 p.dh := ⟨_, rfl⟩
  rw [← e0] at b0 c0
  rw [← e1] at b1 c1
  obtain ⟨t0, a0⟩ := rough_limits (he := he0) hκ1 hκ2 hg0 (by linarith [hg0.1]) (by linarith [hg0.2]) hdh.1 hdh.2
  obtain ⟨t1, a1⟩ := rough_limits (he := he1) hκ1 hκ2 hg1 (by linarith [hg1.1]) (by linarith [hg1.2]) hdh.1 hdh.2
  have hC : qlraC kst p.hg κ p.dh = .ok (⟨he0, he1⟩, ⟨roughHorizon κ p.dh he0, roughHorizon κ p.dh he1⟩,
      ⟨roughAngle κ p.dh he0, roughAngle κ p.dh he1⟩) := by
    unfold qlraC
    dsimp only
    rw [← e0, ← e1, qlraHorizon_ok hκ (by linarith [hg0.1]) hdh.1, ok_bind]
    dsimp only
    rw [qlraHorizon_ok hκ (by linarith [hg1.1]) hdh.1, ok_bind]
    rfl
  have hs := areaSetup_eq p
  rw [hsys, ok_bind, pure_ok, ← eκ, ← ewn] at hs
  obtain ⟨s, es⟩ : ∃ s : PropSt ℝ, s = { p with ens0 := 301.0, eps := 15.0, sgm := 0.001, klimx := 5, mdvarx := 3, gma := 157e-9, kwx := 0, wn := wn, ens := 301.0, gme := κ, lvar := 0, zgnd := z } := ⟨_, rfl⟩
  rw [← es] at hs
  have hq : qlra kst s = .ok (prepMarks { s with
      he := ⟨he0, he1⟩
      dl := ⟨roughHorizon κ p.dh he0, roughHorizon κ p.dh he1⟩
      the := ⟨roughAngle κ p.dh he0, roughAngle κ p.dh he1⟩
      mdp := 1 }) := by
    rw [qlra_eq, show s.hg = p.hg by rw [es], show s.gme = κ by rw [es], show s.dh = p.dh by rw [es], hC, ok_bind]
    rfl
  refine ⟨s, _, hs, hq, ?_⟩
  rw [es, prepMarks_eq]
  refine ⟨⟨hw, ?_, ?_, z1, t0, t1, ?_, ?_, hdh.1, z2, .inl z3⟩, ?_, rfl, cacheInv_of_five (by simp), by simp, by simp⟩
  · show 250 ≤ (301.0 : ℝ) ∧ (301.0 : ℝ) ≤ 400; norm_num
  · show 75e-9 ≤ κ ∧ κ ≤ 250e-9; norm_num at hκ1 hκ2 ⊢; constructor <;> linarith
  · show 0 < he0 ∧ he0 ≤ 20000; constructor <;> linarith [hg0.1, hg0.2]
  · show 0 < he1 ∧ he1 ≤ 20000; constructor <;> linarith [hg1.1, hg1.2]
  · show 0 < roughAngle κ p.dh he0 + roughAngle κ p.dh he1 + (roughHorizon κ p.dh he0 + roughHorizon κ p.dh he1 + 200000) * κ
    have : 0 < κ * 184000 := by positivity
    linarith

/-! ### The sweep -/

/-- Answered, or (only if `b`) a division by zero. -/
def Tame (b : Prop) {β : Type} (x : Py β) : Prop := (∃ a, x = .ok a) ∨ (b ∧ x = .error .zeroDivision)

theorem Tame.ok {b : Prop} {β : Type} (a : β) : Tame b (.ok a : Py β) := .inl ⟨a, rfl⟩

theorem Tame.bind {b : Prop} {β γ : Type} {x : Py β} {f : β → Py γ} (h : Tame b x) (hf : ∀ a, x = .ok a → Tame b (f a)) : Tame b (x >>= f) := by
  rcases h with ⟨a, h⟩ | ⟨hb, h⟩
  · rw [h, ok_bind]; exact hf a h
  · right; rw [h]; exact ⟨hb, rfl⟩

/-- Both coefficient sets of a set-up. -/
structure Coefs (b : Prop) (p : PropSt ℝ) (s : Setup ℝ) : Prop where
  los : Tame b (losC (inp p) s.h s.l)
  scat : Tame b (scatC (inp p) s.h s.l 0.0)

theorem runC_tame {b : Prop} {p : PropSt ℝ} {s : Setup ℝ} (C : Coefs b p s) {D : ℝ} (hD : 0 < D) {c : LrCache ℝ} (I : CInv (inp p) s.h s.l c)
    (ha : c.wlos = true → ∃ a, c.aref = some a) : Tame b (runC (inp p) s.h s.l D c) := by
  have h0' : (0.0 : ℝ) < D := by rw [zero_lit]; exact hD
  unfold runC
  by_cases hn : D < s.h.dlsa
  · have hno : ¬ (D ≤ (0.0 : ℝ) ∨ s.h.dlsa ≤ D) := by rw [zero_lit]; push Not; exact ⟨hD, hn⟩
    refine Tame.bind (x := losStage (inp p) s.h s.l D c) ?_ fun c1 h1 => ?_
    · unfold losStage
      rw [if_pos hn]
      by_cases hw : c.wlos = false
      · rw [if_pos hw]
        refine C.los.bind fun k hk => ?_
        rw [if_pos h0']
        unfold losAref
        rw [npLog_ok hD, ok_bind]
        exact .inl ⟨_, rfl⟩
      · rw [if_neg hw]; exact .ok _
    · have har : ∃ a, c1.aref = some a := by
        unfold losStage at h1
        rw [if_pos hn] at h1
        by_cases hw : c.wlos = false
        · rw [if_pos hw] at h1
          obtain ⟨k, _, h1⟩ := bind_eq_ok.1 h1
          rw [if_pos h0'] at h1
          obtain ⟨a, _, h1⟩ := bind_eq_ok.1 h1
          rw [pure_ok, ok_inj] at h1
          exact ⟨a, by rw [← h1]⟩
        · rw [if_neg hw, pure_ok, ok_inj] at h1
          rw [← h1]; exact ha (by simpa using hw)
      obtain ⟨a, har⟩ := har
      unfold scatStage clampStage
      rw [if_neg hno, pure_bind', har]
      exact .inl ⟨_, rfl⟩
  · have hfar : D ≤ (0.0 : ℝ) ∨ s.h.dlsa ≤ D := .inr (not_lt.1 hn)
    unfold losStage scatStage scatSetupStage clampStage
    rw [if_neg hn, pure_bind', if_pos hfar]
    by_cases hw : c.wscat = false
    · rw [if_pos hw, I.a1 hw]
      refine Tame.bind (Tame.bind (C.scat.bind fun x _ => .ok _) fun c1 h1 => ?_) fun c2 h2 => ?_
      · obtain ⟨⟨x1, x2, x3⟩, _, h1⟩ := bind_eq_ok.1 h1
        dsimp only at h1
        rw [pure_ok, ok_inj] at h1
        rw [← h1]; exact .inl ⟨_, rfl⟩
      · obtain ⟨c1, _, h2⟩ := bind_eq_ok.1 h2
        obtain ⟨k, _, h2⟩ := bind_eq_ok.1 h2
        rw [pure_ok, ok_inj] at h2
        rw [← h2]; exact .inl ⟨_, rfl⟩
    · rw [if_neg hw]
      obtain ⟨x, _, hx, _⟩ := I.scat (by simpa using hw)
      rw [pure_bind', hx]
      exact .inl ⟨_, rfl⟩

theorem lrprop_first_tame {b : Prop} {p : PropSt ℝ} {s : Setup ℝ} (hm : p.mdp ≠ 0) (hs : setupC p.mdp (inp p) = .ok s) (C : Coefs b p s) {d : ℝ}
    (hd : 0 < distOf p d) : Tame b (lrprop d p) := by
  rw [lrprop_setup hm, hs, ok_bind]
  exact (runC_tame C hd (freshCInv _ _ _ _) (fun h => by simp at h)).bind fun c _ => .ok _

theorem lrprop_cont_tame {b : Prop} {p q : PropSt ℝ} {s : Setup ℝ} (I : SInv p s q) (C : Coefs b p s) {d : ℝ} (hd : 0 < d)
    (ha : ∃ a, q.aref = some a) : Tame b (lrprop d q) := by
  rw [lrprop_cont I.mdp I.hor I.line, I.inp]
  exact (runC_tame C hd I.cache (fun _ => ha)).bind fun c _ => .ok _

/-- The rows of one distance. -/
theorem inner_total {q : PropSt ℝ} (hi : CacheInv q) (hk : ∃ k, q.klim = some k) (hm : ∃ m, q.mdvar = some m) (ha : ∃ a, q.aref = some a)
    (hw : 0 < q.wn) (h0 : 0 ≤ q.he.x0) (h1 : 0 ≤ q.he.x1) (hh : 0 ≤ q.dh) (hd : 0 < q.dist) (d zt zl : ℝ) (zc : List (Int × ℝ)) :
    ∃ fs rows r, freeSpace q.wn q.dist = .ok fs ∧ areaInner d fs zt zl zc q = .ok (rows, r) ∧ CacheInv r ∧ AvarFrame q r ∧ (∃ k, r.klim = some k) := by
  obtain ⟨fs, hfs⟩ := freeSpace_total hw hd
  obtain ⟨k, hk⟩ := hk
  obtain ⟨m, hm⟩ := hm
  obtain ⟨a, ha⟩ := ha
  obtain ⟨rows, r, hr⟩ := areaInner_total (d := d) (fs := fs) (zt := zt) (zl := zl) zc hi fun zt zl zc =>
    freshAns_total hi hk hm ha hw h0 h1 hd.le hh zt zl zc
  obtain ⟨⟨i1, k1, f1⟩, _⟩ := areaInner_ok hi hr
  refine ⟨fs, rows, r, hfs, hr, i1, f1, ?_⟩
  unfold ansKey at k1
  have := congrArg Prod.fst k1
  dsimp only at this
  rw [hk] at this
  cases h : r.klim with
  | none => rw [h] at this; simp at this
  | some k => exact ⟨k, rfl⟩

/-- Between two turns, aref included. -/
structure Turn' (p0 : PropSt ℝ) (s : Setup ℝ) (q : PropSt ℝ) : Prop extends Turn p0 s q where
  aref : ∃ a, q.aref = some a

theorem turn_next {p0 q : PropSt ℝ} {s : Setup ℝ} (a : Adm (inp p0)) (T : Turn' p0 s q) (hd : 0 < q.dist) (d zt zl : ℝ) (zc : List (Int × ℝ)) :
    ∃ fs rows r, freeSpace q.wn q.dist = .ok fs ∧ areaInner d fs zt zl zc q = .ok (rows, r) ∧ Turn' p0 s r := by
  have hin := T.inv.inp
  unfold inp at hin
  injection hin with a1 a2 a3 a4 a5 a6 a7 a8 a9
  obtain ⟨fs, rows, r, e1, e2, e3, e4, e5⟩ := inner_total T.cache T.klim T.mdvar T.aref (by rw [a5]; exact a.wn) (by rw [a2]; exact a.he0.le)
    (by rw [a2]; exact a.he1.le) (by rw [a6]; exact a.dh) hd d zt zl zc
  refine ⟨fs, rows, r, e1, e2, ⟨T.inv.avar e4, e3, e5, ?_⟩, ?_⟩
  · obtain ⟨_, _, _, _, _, _, _, _, rfl⟩ := e4; exact T.mdvar
  · obtain ⟨_, _, _, _, _, _, _, _, rfl⟩ := e4; exact T.aref

theorem loop_tame {b : Prop} {p0 : PropSt ℝ} {s : Setup ℝ} (a : Adm (inp p0)) (C : Coefs b p0 s) (zt zl : ℝ) (zc : List (Int × ℝ)) {ndc : Int} {ds2 : ℝ}
    (hn : ndc ≤ 0 ∨ 0 < ds2) (k : Nat) {jd : Int} (hj : 0 ≤ jd) {d dt : ℝ} (hd : 0 < d) (hdt : 0 < dt) {q : PropSt ℝ} (T : Turn' p0 s q) :
    Tame b (areaLoop zt zl zc ndc ds2 k jd d dt q) := by
  induction k generalizing jd d dt q with
  | zero => exact .ok _
  | succ k ih =>
    have hd' : 0 < d * 1000.0 := by positivity
    obtain ⟨k0, hk⟩ := T.klim
    obtain ⟨m0, hm⟩ := T.mdvar
    unfold areaLoop
    dsimp only
    refine (lrprop_cont_tame (T.inv.lvar (max 1 q.lvar)) C hd' T.aref).bind fun r hr => ?_
    have I := (cont_inv (T.inv.lvar (max 1 q.lvar)) hr).1
    have T' := turn_lrprop T.cache hk hm hr I
    obtain ⟨ar, har, -⟩ := C18_aref_nonneg hr
    have hdist : r.dist = d * 1000.0 := by
      rw [(lrprop_dist hr).1, if_pos]
      exact T.inv.mdp.ge
    obtain ⟨fs, rows, r', h1, h2, T''⟩ := turn_next a ⟨T', ar, har⟩ (by rw [hdist]; exact hd') d zt zl zc
    rw [h1, ok_bind, h2, ok_bind]
    dsimp only
    have hdt' : 0 < (if jd + 1 = ndc then ds2 else dt) := by
      split_ifs with h
      · rcases hn with hn | hn
        · omega
        · exact hn
      · exact hdt
    exact (ih (jd := jd + 1) (by omega) (by linarith) hdt' T'').bind fun x _ => .ok _

theorem loop_first_tame {b : Prop} {p : PropSt ℝ} {s : Setup ℝ} (hm : p.mdp = 1) (hs : setupC p.mdp (inp p) = .ok s) (a : Adm (inp p)) (C : Coefs b p s)
    (hi : CacheInv p) {k0 m0 : ℤ} (hk : p.klim = some k0) (hmd : p.mdvar = some m0) (zt zl : ℝ) (zc : List (Int × ℝ)) {ndc : Int} {ds2 : ℝ}
    (hn : ndc ≤ 0 ∨ 0 < ds2) (k : Nat) {d dt : ℝ} (hd : 0 < d) (hdt : 0 < dt) : Tame b (areaLoop zt zl zc ndc ds2 k 0 d dt p) := by
  cases k with
  | zero => exact .ok _
  | succ k =>
    have hd' : 0 < d * 1000.0 := by positivity
    have hdo : distOf { p with lvar := max 1 p.lvar } (d * 1000.0) = d * 1000.0 := by unfold distOf; rw [if_pos (by simp only; omega)]
    unfold areaLoop
    dsimp only
    refine (lrprop_first_tame (p := { p with lvar := max 1 p.lvar }) (s := s) (by simp only; omega) hs ⟨C.los, C.scat⟩ (by rw [hdo]; exact hd')).bind fun r hr => ?_
    obtain ⟨s', hs', I, -, -⟩ := first_inv (p := { p with lvar := max 1 p.lvar }) (by simp only; omega) hr
    rw [show setupC ({ p with lvar := max 1 p.lvar } : PropSt ℝ).mdp (inp { p with lvar := max 1 p.lvar }) = setupC p.mdp (inp p) from rfl, hs, ok_inj] at hs'
    subst hs'
    have I' : SInv p s r := ⟨I.mdp, I.inp, I.hor, I.diff, I.line, I.cache⟩
    have T' := turn_lrprop hi hk hmd hr I'
    obtain ⟨ar, har, -⟩ := C18_aref_nonneg hr
    have hdist : r.dist = d * 1000.0 := by
      rw [(lrprop_dist hr).1, if_pos (by simp only; omega)]
    obtain ⟨fs, rows, r', h1, h2, T''⟩ := turn_next a ⟨T', ar, har⟩ (by rw [hdist]; exact hd') d zt zl zc
    rw [h1, ok_bind, h2, ok_bind]
    dsimp only
    have hdt' : 0 < (if (0:Int) + 1 = ndc then ds2 else dt) := by
      split_ifs with h
      · rcases hn with hn | hn
        · omega
        · exact hn
      · exact hdt
    exact (loop_tame a C zt zl zc hn k (jd := 0 + 1) (by omega) (by linarith) hdt' T'').bind fun x _ => .ok _

/-! ### The coefficients within the limits -/

theorem scatCoef_tame {i : LrIn ℝ} {h : Horizon ℝ} {l : DiffLine ℝ} {d5 a5 a6 : ℝ} (hw : 0 < i.wn) : Tame True (scatCoef (blank 0 i) h l d5 a5 a6) := by
  by_cases hne : l.emd = (a6 - a5) / 200e3
  · unfold scatCoef
    dsimp only
    split_ifs
    · rw [npLog_ok (by exact mul_pos (by norm_num) hw), ok_bind, ← hne, sub_self, pyDiv_zero]
      exact .inr ⟨trivial, rfl⟩
    · exact .inl ⟨_, rfl⟩
  · exact .inl (scatCoef_ok hw hne)

/-- The line-of-sight coefficients exist exactly when the fit has no coincidence. -/
theorem limits_los {p : PropSt ℝ} (h : WithinLimits p) {s : Setup ℝ} (hs : setupC p.mdp (inp p) = .ok s) :
    (¬ (linkOf p).FitClash → ∃ k, losC (inp p) s.h s.l = .ok k) ∧ ((linkOf p).FitClash → losC (inp p) s.h s.l = .error .zeroDivision) := by
  have a := limits_adm h
  obtain ⟨s', hs', hh⟩ := limits_setup h
  rw [hs, ok_inj] at hs'
  subst hs'
  obtain ⟨_, ⟨e1, _, e3⟩, _, hemd, _, hline, _⟩ := line_spec hs
  have haed : s.l.aed = (linkOf p).diffLine 0 := by rw [← hline]; ring
  have hD := losDR_spec hs
  unfold Link.FitClash
  rw [← hD, ← haed, ← hemd, ← e1, hh]
  dsimp only
  constructor
  · intro hc
    simp only [not_or, not_and] at hc
    exact losC_ok (l := s.l) a (limits_zsafe h) (by
      by_contra c
      push Not at c
      exact hc.1 c.1 c.2) (fun c => hc.2.1 c.symm) (fun c1 c2 => hc.2.2 c1 c2.symm)
  · exact losC_clash a (limits_zsafe h)

/-- The scatter coefficients exist exactly when the two lines are not parallel. -/
theorem limits_scat {p : PropSt ℝ} (h : WithinLimits p) {s : Setup ℝ} (hs : setupC p.mdp (inp p) = .ok s)
    (h5 : 0 < (linkOf p).scatterAngle (linkOf p).d5) :
    (¬ (linkOf p).Parallel → ∃ x, scatC (inp p) s.h s.l 0.0 = .ok x) ∧
      ((linkOf p).Parallel → scatC (inp p) s.h s.l 0.0 = .error .zeroDivision) := by
  have a := limits_adm h
  obtain ⟨s', hs', hh⟩ := limits_setup h
  rw [hs, ok_inj] at hs'
  subst hs'
  obtain ⟨_, ⟨e1, _, e3⟩, _, hemd, _, hline, _⟩ := line_spec hs
  rw [hh] at e3 ⊢
  obtain ⟨s', hsc⟩ := scat_split a (l := s.l) e3 h5
  have ems : ((linkOf p).a6 - (linkOf p).a5') / 200e3 = (linkOf p).ms' := by
    unfold Link.ms' Link.d5 Link.d6
    congr 1; norm_num
  have e47 : (0 : ℝ) < 47.7 * (blank 0 (inp p)).wn := mul_pos (by norm_num) a.wn
  rw [hsc]
  unfold scatCoef
  constructor
  · intro hc
    by_cases c1 : (linkOf p).a5' < 1000
    · rw [if_pos (by norm_num; exact c1), npLog_ok e47, ok_bind, ems, pyDiv_ok, ok_bind]
      · exact ⟨_, rfl⟩
      · rw [sub_ne_zero, hemd]; exact fun c => hc ⟨c1, c⟩
    · rw [if_neg (by norm_num; exact not_lt.1 c1)]; exact ⟨_, rfl⟩
  · rintro ⟨c1, c2⟩
    rw [if_pos (by norm_num; exact c1), npLog_ok e47, ok_bind, ems, hemd, c2, sub_self, pyDiv_zero]; rfl

theorem limits_coefs {p : PropSt ℝ} (h : WithinLimits p) (hθ : 0 < (linkOf p).scatterAngle (linkOf p).d5) :
    ∃ s, setupC p.mdp (inp p) = .ok s ∧ Coefs True p s ∧
      (¬ (linkOf p).FitClash → ¬ (linkOf p).Parallel → Coefs False p s) := by
  have a := limits_adm h
  obtain ⟨s, hs, hh⟩ := limits_setup h
  have los := limits_los h hs
  refine ⟨s, hs, ⟨?_, ?_⟩, fun c1 c3 => ⟨.inl (los.1 c1), .inl ((limits_scat h hs hθ).1 c3)⟩⟩
  · by_cases c : (linkOf p).FitClash
    · exact .inr ⟨trivial, los.2 c⟩
    · exact .inl (los.1 c)
  · have ed5 : (horR (inp p)).dla + 200e3 = (linkOf p).d5 := by unfold Link.d5; norm_num; rfl
    rw [hh]
    obtain ⟨s', h6, h5, -, -, -, -, e⟩ := scatC_ok (l := s.l) (a1 := 0.0) a (by rw [ed5]; exact hθ)
    rw [e]
    exact (scatCoef_tame a.wn).bind fun c _ => .ok _

/-- **C66** The area runner, 20 MHz to 20 GHz, antennas of 1 to 3000 m, irregularity up to 700 m, any siting criteria, any levels,
any grid for which the step is assigned: the prepared link is within the limits; the run is answered or divides by zero, nothing
else; and it is answered if the link has none of the coincidences. -/
theorem C66_area {p : PropSt ℝ} {g : Grid ℝ} {dt : ℝ} (qt ql : Int) (qc : List Int) (kst : Pair Int) (hf : 20 ≤ p.fmhz ∧ p.fmhz ≤ 20000)
    (hg0 : 1 ≤ p.hg.x0 ∧ p.hg.x0 ≤ 3000) (hg1 : 1 ≤ p.hg.x1 ∧ p.hg.x1 ≤ 3000) (hdh : 0 ≤ p.dh ∧ p.dh ≤ 700) (hg : (areaPlan g).ds = some dt) :
    ∃ s q, areaSetup p = .ok s ∧ qlra kst s = .ok q ∧ WithinLimits q ∧
      ((∃ rows r, itmlogicAreaAt qt ql qc g kst p = .ok (rows, r)) ∨ itmlogicAreaAt qt ql qc g kst p = .error .zeroDivision) ∧
      (¬ (linkOf q).FitClash → ¬ (linkOf q).Parallel →
        ∃ rows r, itmlogicAreaAt qt ql qc g kst p = .ok (rows, r)) := by
  obtain ⟨s, q, hs, hq, W, hθ, hm, hi, hk, hmd⟩ := area_limits kst hf hg0 hg1 hdh
  obtain ⟨st, hst, CT, CF⟩ := limits_coefs W hθ
  obtain ⟨zt, hzt, lt⟩ := C04_qerfi_total [(percent qt : ℝ)]
  obtain ⟨zl, hzl, ll⟩ := C04_qerfi_total [(percent ql : ℝ)]
  obtain ⟨zc, hzc, -⟩ := C04_qerfi_total (qc.map (percent : Int → ℝ))
  have one : ∀ l : List ℝ, l.length = [(0:ℝ)].length → ∃ z, pyGet l 0 = .ok z := by
    intro l hl
    match l, hl with
    | [z], _ => exact ⟨z, rfl⟩
  obtain ⟨zt0, hzt0⟩ := one zt lt
  obtain ⟨zl0, hzl0⟩ := one zl ll
  have plan : 0 < (areaPlan g).d0 ∧ 0 < dt ∧ ((areaPlan g).ndc ≤ 0 ∨ 0 < (areaPlan g).ds2) := by
    have hd0 : 0 < (areaPlan g).d0 := by
      unfold areaPlan
      dsimp only
      split_ifs <;> dsimp only <;> rw [zero_lit] at * <;> first | (push Not at *; assumption) | (norm_num; done)
    refine ⟨hd0, ?_, ?_⟩
    · unfold areaPlan at hg
      dsimp only at hg
      split_ifs at hg <;> simp only [Option.some.injEq, reduceCtorEq] at hg <;> rw [← hg] <;> rw [zero_lit] at * <;> push Not at * <;> tauto
    · unfold areaPlan
      dsimp only
      split_ifs <;> first | exact .inl le_rfl | (right; rw [zero_lit] at *; push Not at *; tauto)
  obtain ⟨pd, pt, pn⟩ := plan
  have run : itmlogicAreaAt qt ql qc g kst p =
      areaLoop zt0 zl0 (qc.zip zc) (areaPlan g).ndc (areaPlan g).ds2 (areaPlan g).nd.toNat 0 (areaPlan g).d0 dt q := by
    unfold itmlogicAreaAt
    rw [hzt, ok_bind, hzl, ok_bind, hzc, ok_bind, hzt0, ok_bind, hzl0, ok_bind]
    dsimp only
    rw [hs, ok_bind, hq, ok_bind, hg]
    rfl
  refine ⟨s, q, hs, hq, W, ?_, fun c1 c3 => ?_⟩
  · rw [run]
    rcases loop_first_tame hm hst (limits_adm W) CT hi hk hmd zt0 zl0 (qc.zip zc) pn (areaPlan g).nd.toNat pd pt with ⟨⟨rows, r⟩, h⟩ | ⟨-, h⟩
    · exact .inl ⟨rows, r, h⟩
    · exact .inr h
  · rw [run]
    rcases loop_first_tame hm hst (limits_adm W) (CF c1 c3) hi hk hmd zt0 zl0 (qc.zip zc) pn (areaPlan g).nd.toNat pd pt with ⟨⟨rows, r⟩, h⟩ | ⟨h, -⟩
    · exact ⟨rows, r, h⟩
    · exact h.elim

/-- **C66** (smooth earth) Irregularity 0, 400 MHz to 10 GHz, antennas of 1 to 1000 m, frequency times either antenna height at least
21 700 MHz·m: none of the coincidences occurs and every grid with a step is answered, within and beyond line of sight. -/
theorem C66_smooth {p : PropSt ℝ} {g : Grid ℝ} {dt : ℝ} (qt ql : Int) (qc : List Int) (kst : Pair Int) (hf : 400 ≤ p.fmhz ∧ p.fmhz ≤ 10000)
    (hg0 : 1 ≤ p.hg.x0 ∧ p.hg.x0 ≤ 1000) (hg1 : 1 ≤ p.hg.x1 ∧ p.hg.x1 ≤ 1000) (hdh : p.dh = 0) (f0 : 21700 ≤ p.fmhz * p.hg.x0)
    (f1 : 21700 ≤ p.fmhz * p.hg.x1) (hg : (areaPlan g).ds = some dt) :
    ∃ s q, areaSetup p = .ok s ∧ qlra kst s = .ok q ∧ (¬ (linkOf q).FitClash ∧ (linkOf q).ScatterOk (linkOf q).d5 ∧ ¬ (linkOf q).Parallel) ∧
      ∃ rows r, itmlogicAreaAt qt ql qc g kst p = .ok (rows, r) := by
  obtain ⟨s, q, hs, hq, W, -, R⟩ := C66_area qt ql qc kst ⟨by linarith [hf.1], by linarith [hf.2]⟩ ⟨hg0.1, by linarith [hg0.2]⟩
    ⟨hg1.1, by linarith [hg1.2]⟩ ⟨hdh.ge, by rw [hdh]; norm_num⟩ hg
  have H : LevelArea p { (gridDefault : Grid ℝ) with d0 := 300, d1 := 500 } 1000 := by
    constructor
    · exact hdh
    · norm_num; linarith [hg0.1]
    · norm_num; linarith [hg1.1]
    · exact hg0.2
    · exact hg1.2
    · norm_num; linarith [hf.1]
    · norm_num; linarith
    · norm_num; linarith
    all_goals norm_num [gridDefault]
  obtain ⟨s', q', hs', hq', S, -⟩ := area_prep H kst
  rw [hs, ok_inj] at hs'
  subst hs'
  rw [hq, ok_inj] at hq'
  subst hq'
  obtain ⟨t, x, ht, -, hx, -⟩ := S.setup q.mdp
  obtain ⟨k, hk⟩ := S.los (limits_zsafe W) ht
  have h5 : (linkOf q).ScatterOk (linkOf q).d5 := by
    left
    have e0 : q.the.x0 = -(q.gme * q.dl.x0) := S.the0
    have e1 : q.the.x1 = -(q.gme * q.dl.x1) := S.the1
    have r0 : 5e-5 ≤ q.wn * q.gme * q.he.x0 := S.r0
    show 0.2 ≤ 2 * q.wn * (q.the.x0 + q.the.x1 + (q.dl.x0 + q.dl.x1 + 200000) * q.gme) * q.he.x0
    rw [e0, e1, show 2 * q.wn * (-(q.gme * q.dl.x0) + -(q.gme * q.dl.x1) + (q.dl.x0 + q.dl.x1 + 200000) * q.gme) * q.he.x0 =
      400000 * (q.wn * q.gme * q.he.x0) by ring]
    norm_num at *; linarith
  have n1 : ¬ (linkOf q).FitClash := fun c => by
    rw [(limits_los W ht).2 c] at hk; cases hk
  have n2 : ¬ (linkOf q).Parallel := fun c => by
    rw [(limits_scat W ht (scatterOk_angle (limits_adm W).wn (limits_adm W).he0 (limits_adm W).he1 h5)).2 c] at hx; cases hx
  exact ⟨s, q, hs, hq, ⟨n1, h5, n2⟩, R n1 n2⟩

/-- The shipped area program over terrain of 90 m irregularity. -/
noncomputable def roughRun : PropSt ℝ := { smooth with fmhz := 20, dh := 90, ipol := 0, hg := ⟨3.3, 1.3⟩ }
/-- A smooth one: 1 GHz, 30 m and 100 m. -/
noncomputable def levelRun : PropSt ℝ := { smooth with fmhz := 1000, dh := 0, ipol := 1, hg := ⟨30, 100⟩ }

theorem gridDefault_step : (areaPlan (gridDefault : Grid ℝ)).ds = some 10 := by
  unfold areaPlan gridDefault
  dsimp only
  norm_num

example : (∃ rows r, itmlogicArea gridDefault ⟨2, 2⟩ levelRun = .ok (rows, r)) ∧
    ((∃ rows r, itmlogicArea gridDefault ⟨0, 0⟩ roughRun = .ok (rows, r)) ∨ itmlogicArea gridDefault ⟨0, 0⟩ roughRun = .error .zeroDivision) := by
  constructor
  · obtain ⟨_, _, _, _, _, h⟩ := C66_smooth (p := levelRun) 50 50 areaQc ⟨2, 2⟩ (by norm_num [levelRun]) (by norm_num [levelRun]) (by norm_num [levelRun])
      rfl (by norm_num [levelRun]) (by norm_num [levelRun]) gridDefault_step
    exact h
  · obtain ⟨_, _, _, _, _, h, _⟩ := C66_area (p := roughRun) 50 50 areaQc ⟨0, 0⟩ (by norm_num [roughRun]) (by norm_num [roughRun]) (by norm_num [roughRun])
      (by norm_num [roughRun]) gridDefault_step
    exact h

end Itm.Props
