import Verif.Lemmas.Chop
import Verif.Lemmas.Near
import Verif.Props.C55
import Verif.Spec.Report

/-! C74: `qerf` and `qerfi` in rounding arithmetic. -/

namespace Itm.Props

open Itm Spec
variable {α : Type} [PyNum α]

theorem abs_numeral {x y : ℝ} (h1 : -y ≤ x) (h2 : x ≤ y) : |x| ≤ y := abs_le.2 ⟨h1, h2⟩

/-- The exponential branch of `qerf`. -/
theorem tail_round (R : Rounding α) {a : α} (ha : R.fin a) (h10 : |R.val a| < 10) :
    ∃ u, ((4.317008 : α) /! (PyNum.abs a + 4.317008)) = .ok u ∧
      NB R (PyNum.exp (-0.5 * npow a 2) * 0.398942280 *
        ((((1.330274429 * u + -1.821255987) * u + 1.781477937) * u + -0.356563782) * u + 0.319381530) * u) (tail |R.val a|) 3 2e-12 := by
  obtain ⟨x, hx⟩ : ∃ x, x = R.val a := ⟨_, rfl⟩
  rw [← hx] at h10
  have hx0 := abs_nonneg x
  have na : NB R a x 10 0 := by rw [hx]; exact NB.self ha (by rw [← hx]; exact h10.le)
  have nt : NB R (PyNum.abs a) |x| 10 0 := ⟨na.toNear.abs, by rw [abs_abs]; exact h10.le⟩
  have nrp : NB R (4.317008 : α) (4.317008 : ℝ) 5 6e-15 := NB.lit R (by norm_num [abs_of_nonneg]) (by norm_num) (by norm_num)
  have ns := nt.add nrp (Z := 15) (g := 3e-14) (by norm_num) (by norm_num) (by norm_num)
  have hq : |4.317008 / (|x| + 4.317008)| ≤ 1 := by
    rw [abs_of_nonneg (by positivity), div_le_one (by positivity)]; linarith
  obtain ⟨nu', hne⟩ := nrp.toNear.div ns.toNear (Q := 1) (m := 4.3) (M := 2) (g := 1.3e-14) hq
    (by rw [abs_of_nonneg (by positivity)]; have h43 : (4.3 : ℝ) ≤ 4.317008 := by norm_num
        linarith) (by norm_num) (by norm_num) (by norm_num) (by norm_num)
  refine ⟨_, pyDiv_round ns.fin hne, ?_⟩
  have nu : NB R (4.317008 / (PyNum.abs a + 4.317008) : α) (4.317008 / (|x| + 4.317008)) 1 1.3e-14 := ⟨nu', hq⟩
  have hu0 : 0 ≤ 4.317008 / (|x| + 4.317008) := by positivity
  have hu1 := (abs_le.1 hq).2
  clear nu' hq
  generalize (4.317008 / (PyNum.abs a + 4.317008) : α) = u at *
  have htail : tail |x| = Real.exp (-0.5 * x ^ 2) * 0.398942280 *
      ((((1.330274429 * (4.317008 / (|x| + 4.317008)) + -1.821255987) * (4.317008 / (|x| + 4.317008)) + 1.781477937) *
        (4.317008 / (|x| + 4.317008)) + -0.356563782) * (4.317008 / (|x| + 4.317008)) + 0.319381530) * (4.317008 / (|x| + 4.317008)) := by
    unfold tail hastings
    rw [if_neg (not_le.2 h10), sq_abs]
    ring
  rw [← hx, htail]
  generalize 4.317008 / (|x| + 4.317008) = U at *
  clear htail
  have n5 : NB R (1.330274429 : α) (1.330274429 : ℝ) 2 3e-15 := NB.lit R (by norm_num [abs_of_nonneg]) (by norm_num) (by norm_num)
  have n4 : NB R (-1.821255987 : α) (-1.821255987 : ℝ) 2 3e-15 :=
    (NB.lit R (by norm_num [abs_of_nonneg]) (by norm_num) (by norm_num)).neg
  have n3 : NB R (1.781477937 : α) (1.781477937 : ℝ) 2 3e-15 := NB.lit R (by norm_num [abs_of_nonneg]) (by norm_num) (by norm_num)
  have n2 : NB R (-0.356563782 : α) (-0.356563782 : ℝ) 1 2e-15 :=
    (NB.lit R (by norm_num [abs_of_nonneg]) (by norm_num) (by norm_num)).neg
  have n1 : NB R (0.319381530 : α) (0.319381530 : ℝ) 1 2e-15 := NB.lit R (by norm_num [abs_of_nonneg]) (by norm_num) (by norm_num)
  have nr : NB R (0.398942280 : α) (0.398942280 : ℝ) 1 2e-15 := NB.lit R (by norm_num [abs_of_nonneg]) (by norm_num) (by norm_num)
  have nh : NB R (-0.5 : α) (-0.5 : ℝ) 0.5 0 := by
    have h := Near.lit_exact R (m := 5) (s := true) (k := 1) 1 (-1) (by norm_num) (by norm_num) (by norm_num) (by norm_num)
    exact NB.neg ⟨Near.of_eq h.1 h.2, by norm_num [abs_of_nonneg]⟩
  have a1 := n5.mul nu (Z := 2) (g := 4e-14) (by norm_num) (by norm_num) (by norm_num)
  have a2 := (a1.add n4 (Z := 4) (g := 6e-14) (by norm_num) (by norm_num) (by norm_num)).tight (Y := 2)
    (by rw [abs_le]; constructor <;> norm_num at * <;> linarith)
  have a3 := a2.mul nu (Z := 2) (g := 1e-13) (by norm_num) (by norm_num) (by norm_num)
  have a4 := (a3.add n3 (Z := 4) (g := 1.2e-13) (by norm_num) (by norm_num) (by norm_num))
  have a5 := a4.mul nu (Z := 4) (g := 2e-13) (by norm_num) (by norm_num) (by norm_num)
  have a6 := (a5.add n2 (Z := 5) (g := 2.2e-13) (by norm_num) (by norm_num) (by norm_num))
  have a7 := a6.mul nu (Z := 5) (g := 3e-13) (by norm_num) (by norm_num) (by norm_num)
  have a8 := (a7.add n1 (Z := 6) (g := 3.2e-13) (by norm_num) (by norm_num) (by norm_num))
  have b1 := na.sq (Z := 100) (g := 1.1e-13) (by norm_num) (by norm_num) (by norm_num)
  have b2 := nh.mul b1 (Z := 50) (g := 1.06e-13) (by norm_num) (by norm_num) (by norm_num)
  have he1 : Real.exp (-0.5 * x ^ 2) ≤ 1 := Real.exp_le_one_iff.2 (by nlinarith [sq_nonneg x])
  have b3 : NB R (PyNum.exp (-0.5 * npow a 2)) (Real.exp (-0.5 * x ^ 2)) 1 2.2e-13 :=
    ⟨b2.toNear.exp he1 (by norm_num) (by norm_num) (by norm_num), by rw [abs_of_pos (Real.exp_pos _)]; exact he1⟩
  have b4 := (b3.mul nr (Z := 1) (g := 2.3e-13) (by norm_num) (by norm_num) (by norm_num)).tight (Y := 0.4) (by
    rw [abs_of_nonneg (by positivity)]
    exact (mul_le_mul_of_nonneg_right he1 (by norm_num)).trans (by norm_num))
  have b5 := b4.mul a8 (Z := 3) (g := 1.6e-12) (by norm_num) (by norm_num) (by norm_num)
  have b6 := b5.mul nu (Z := 3) (g := 2e-12) (by norm_num) (by norm_num) (by norm_num)
  exact b6

/-- In any arithmetic that rounds like doubles do, `qerf` answers every finite argument with a finite number that is within `3e-12` of
what exact arithmetic gives for the same argument, and so within `1e-5` of the normal tail. -/
theorem C74_qerf (R : Rounding α) (a : α) (ha : R.fin a) :
    ∃ v w, qerf a = .ok v ∧ R.fin v ∧ qerf (R.val a) = .ok w ∧ |R.val v - w| ≤ 3e-12 ∧ |R.val v - normalTail (R.val a)| ≤ 1e-5 := by
  have key : ∃ v, qerf a = .ok v ∧ Near R v (if R.val a < 0 then 1 - tail |R.val a| else tail |R.val a|) 3e-12 := by
    obtain ⟨f10, v10⟩ := Near.lit_int R (m := 100) (s := true) (k := 1) 10 (by norm_num) (by norm_num)
    obtain ⟨f1, v1⟩ := Near.lit_int R (m := 10) (s := true) (k := 1) 1 (by norm_num) (by norm_num)
    obtain ⟨f0, v0⟩ := fin_zero R
    have n1 : NB R (1.0 : α) (1 : ℝ) 1 0 := ⟨Near.of_eq f1 (v1.trans (by norm_num)), by norm_num⟩
    obtain ⟨fa, va⟩ := R.abs a ha
    unfold qerf
    dsimp only
    by_cases h : (10.0 : α) ≤ PyNum.abs a
    · rw [if_pos h, pure_bind']
      rw [R.le _ _ f10 fa, va, v10] at h
      have ht : tail |R.val a| = 0 := by unfold tail; rw [if_pos (by norm_num at h; exact h)]
      have nz : NB R (0.0 : α) (0 : ℝ) 0 0 := ⟨Near.of_eq f0 v0, by simp⟩
      rw [ht]
      by_cases hn : a < (0.0 : α)
      · rw [if_pos hn, pure_ok]
        rw [R.lt _ _ ha f0, v0] at hn
        rw [if_pos hn]
        exact ⟨_, rfl, (n1.sub nz (Z := 1) (g := 3e-12) (by norm_num) (by norm_num) (by norm_num)).toNear⟩
      · rw [if_neg hn, pure_ok]
        rw [R.lt _ _ ha f0, v0] at hn
        rw [if_neg hn]
        exact ⟨_, rfl, nz.toNear.mono (by norm_num)⟩
    · rw [if_neg h]
      rw [R.le _ _ f10 fa, va, v10] at h
      obtain ⟨u, eu, nu⟩ := tail_round R ha (by norm_num at h; exact h)
      rw [eu, ok_bind, pure_bind']
      by_cases hn : a < (0.0 : α)
      · rw [if_pos hn, pure_ok]
        rw [R.lt _ _ ha f0, v0] at hn
        rw [if_pos hn]
        exact ⟨_, rfl, (n1.sub nu (Z := 4) (g := 3e-12) (by norm_num) (by norm_num) (by norm_num)).toNear⟩
      · rw [if_neg hn, pure_ok]
        rw [R.lt _ _ ha f0, v0] at hn
        rw [if_neg hn]
        exact ⟨_, rfl, nu.toNear.mono (by norm_num)⟩
  obtain ⟨v, ev, nv⟩ := key
  refine ⟨v, _, ev, nv.fin, qerf_eq _, nv.err, ?_⟩
  have h := tail_accuracy (abs_nonneg (R.val a))
  have hv := nv.err
  split_ifs at hv with hz
  · have e : normalTail (R.val a) = 1 - normalTail |R.val a| := by
      rw [abs_of_neg hz, ← normalTail_compl, neg_neg]
    rw [e]
    rw [abs_le] at h hv ⊢
    constructor <;> norm_num at * <;> linarith [h.1, h.2, hv.1, hv.2]
  · rw [abs_of_nonneg (not_lt.1 hz)] at h hv
    rw [abs_le] at h hv ⊢
    constructor <;> norm_num at * <;> linarith [h.1, h.2, hv.1, hv.2]

/-- The deviate of the level `q` before it is rounded to four places. -/
noncomputable def sdev (q : ℝ) : ℝ := if 0.5 - q < 0 then -devt (clipq q) else devt (clipq q)

theorem devt_mid {c : ℝ} (h1 : 0.49999999 ≤ c) (h2 : c ≤ 1 / 2) : |devt c| ≤ 2e-6 := by
  have hc : 0 < c := lt_of_lt_of_le (by norm_num) h1
  have lo := devt_anti hc h2
  have hh := (abs_lt.1 devt_half).1
  have hlog : -Real.log c ≤ Real.log 2 + 4.1e-8 := by
    have h := Real.log_le_sub_one_of_pos (x := (2 * c)⁻¹) (by positivity)
    rw [Real.log_inv, Real.log_mul (by norm_num) hc.ne'] at h
    have : (2 * c)⁻¹ ≤ 1 + 4.1e-8 := by
      rw [inv_le_comm₀ (by positivity) (by norm_num)]
      refine le_trans ?_ (show (2 : ℝ) * 0.49999999 ≤ 2 * c by linarith)
      norm_num
    linarith
  have l2 := Real.log_two_lt_d9
  have hr : √(-2 * Real.log c) ≤ 1.1774102 := by
    rw [Real.sqrt_le_iff]; norm_num at *; linarith
  have m2 := dev_mono (Real.sqrt_nonneg _) hr
  have b2 : dev 1.1774102 ≤ 0.000002 := by unfold dev; norm_num
  have e : devt c = dev (√(-2 * Real.log c)) := rfl
  rw [abs_le]
  constructor
  · norm_num at *; linarith
  · rw [e]; norm_num at *; linarith

theorem log_clip_ge (q : ℝ) : -13.83 ≤ Real.log (clipq q) := by
  have h0 : 0.000001 ≤ clipq q := le_max_right _ _
  have hlo : -Real.log 1000000 ≤ Real.log (clipq q) := by
    rw [← Real.log_inv]; exact Real.log_le_log (by norm_num) (by norm_num at *; linarith)
  have := log_million
  linarith

theorem log_clip_le (q : ℝ) : Real.log (clipq q) ≤ -0.693 := by
  have h := Real.log_le_log (clipq_pos q) (clipq_le_half q)
  rw [one_div, Real.log_inv] at h
  have := Real.log_two_gt_d9
  norm_num at *
  linarith

/-- The deviate before rounding to four places, in rounding arithmetic. -/
theorem qerfi1_round (R : Rounding α) {a : α} (ha : R.fin a) (h0 : 0 ≤ R.val a) (h1 : R.val a ≤ 1) :
    ∃ u, qerfi1 a = .ok (PyNum.round4 u) ∧ Near R u (sdev (R.val a)) 5e-6 ∧ |R.val u| ≤ 5.28 := by
  obtain ⟨q, hq⟩ : ∃ q, q = R.val a := ⟨_, rfl⟩
  rw [← hq] at h0 h1
  obtain ⟨fz, vz⟩ := fin_zero R
  have nq : NB R a q 1 0 := by rw [hq]; exact NB.self ha (by rw [← hq]; exact abs_le.2 ⟨by linarith, h1⟩)
  have nh : NB R (0.5 : α) (0.5 : ℝ) 0.5 0 := by
    have h := Near.lit_exact R (m := 5) (s := true) (k := 1) 1 (-1) (by norm_num) (by norm_num) (by norm_num) (by norm_num)
    exact ⟨Near.of_eq h.1 h.2, by norm_num [abs_of_nonneg]⟩
  have n2 : NB R (-2.0 : α) (-2 : ℝ) 2 0 := by
    have h := Near.lit_int R (m := 20) (s := true) (k := 1) 2 (by norm_num) (by norm_num)
    exact NB.neg ⟨Near.of_eq h.1 (h.2.trans (by norm_num)), by norm_num⟩
  have n1 : NB R (1.0 : α) (1 : ℝ) 1 0 := by
    have h := Near.lit_int R (m := 10) (s := true) (k := 1) 1 (by norm_num) (by norm_num)
    exact ⟨Near.of_eq h.1 (h.2.trans (by norm_num)), by norm_num⟩
  have nx := (nh.sub nq (Z := 1.5) (g := 2e-15) (by norm_num) (by norm_num) (by norm_num)).tight (Y := 0.5)
    (by rw [abs_le]; constructor <;> norm_num at * <;> linarith)
  have nax : NB R (PyNum.abs (0.5 - a)) |0.5 - q| 0.5 2e-15 := ⟨nx.toNear.abs, by rw [abs_abs]; exact nx.bound⟩
  have nt1 := nh.sub nax (Z := 1) (g := 4e-15) (by norm_num) (by norm_num) (by norm_num)
  have nmil : NB R (0.000001 : α) (0.000001 : ℝ) 1 4e-15 := NB.lit R (by norm_num [abs_of_nonneg]) (by norm_num) (by norm_num)
  have nt := pyMax_round nt1.toNear nmil.toNear
  rw [max_self] at nt
  change Near R _ (clipq q) _ at nt
  have lo := log_clip_ge q
  have hi := log_clip_le q
  have hc : 0.000001 ≤ clipq q := le_max_right _ _
  obtain ⟨nl, hpos⟩ := nt.log hc (M := 14) (g := 4.1e-9) (by norm_num)
    (by rw [abs_of_nonpos (by norm_num at *; linarith)]; norm_num at *; linarith) (by norm_num)
  have nl' : NB R _ (Real.log (clipq q)) 14 4.1e-9 := ⟨nl, by rw [abs_le]; constructor <;> norm_num at * <;> linarith⟩
  have nm := n2.mul nl' (Z := 28) (g := 1e-8) (by norm_num) (by norm_num) (by norm_num)
  have hrb : √(-2 * Real.log (clipq q)) ≤ 5.26 := by rw [Real.sqrt_le_iff]; norm_num at *; linarith
  obtain ⟨nr, hnn⟩ := nm.toNear.sqrt (m := 1) (M := 6) (g := 2e-8) (by norm_num) (by norm_num at *; linarith) (by norm_num)
    (by norm_num at *; linarith) (by norm_num) (by norm_num)
  have hr0 := Real.sqrt_nonneg (-2 * Real.log (clipq q))
  have nr' : NB R _ (√(-2 * Real.log (clipq q))) 5.26 2e-8 := ⟨nr, by rw [abs_of_nonneg hr0]; exact hrb⟩
  unfold qerfi1
  dsimp only
  rw [npLog_round nt.fin hpos, ok_bind, mathSqrt_round nm.fin hnn, ok_bind]
  have hdevt : devt (clipq q) = dev (√(-2 * Real.log (clipq q))) := rfl
  generalize PyNum.sqrt (-2.0 * PyNum.log (pyMax (0.5 - PyNum.abs (0.5 - a)) 0.000001)) = r at *
  generalize hs : √(-2 * Real.log (clipq q)) = s at *
  have c2 : NB R (0.010328 : α) (0.010328 : ℝ) 0.0104 2e-15 := NB.lit R (by norm_num [abs_of_nonneg]) (by norm_num) (by norm_num)
  have c1 : NB R (0.802853 : α) (0.802853 : ℝ) 0.803 2e-15 := NB.lit R (by norm_num [abs_of_nonneg]) (by norm_num) (by norm_num)
  have c0 : NB R (2.515516698 : α) (2.515516698 : ℝ) 2.52 4e-15 := NB.lit R (by norm_num [abs_of_nonneg]) (by norm_num) (by norm_num)
  have d3 : NB R (0.001308 : α) (0.001308 : ℝ) 0.0014 2e-15 := NB.lit R (by norm_num [abs_of_nonneg]) (by norm_num) (by norm_num)
  have d2 : NB R (0.189269 : α) (0.189269 : ℝ) 0.19 2e-15 := NB.lit R (by norm_num [abs_of_nonneg]) (by norm_num) (by norm_num)
  have d1 : NB R (1.432788 : α) (1.432788 : ℝ) 1.44 3e-15 := NB.lit R (by norm_num [abs_of_nonneg]) (by norm_num) (by norm_num)
  have p1 := c2.mul nr' (Z := 0.055) (g := 3e-10) (by norm_num) (by norm_num) (by norm_num)
  have p2 := p1.add c1 (Z := 0.86) (g := 4e-10) (by norm_num) (by norm_num) (by norm_num)
  have p3 := p2.mul nr' (Z := 4.53) (g := 2e-8) (by norm_num) (by norm_num) (by norm_num)
  have p4 := p3.add c0 (Z := 7.1) (g := 2.1e-8) (by norm_num) (by norm_num) (by norm_num)
  have e1 := d3.mul nr' (Z := 0.0075) (g := 4e-11) (by norm_num) (by norm_num) (by norm_num)
  have e2 := e1.add d2 (Z := 0.198) (g := 5e-11) (by norm_num) (by norm_num) (by norm_num)
  have e3 := e2.mul nr' (Z := 1.05) (g := 5e-9) (by norm_num) (by norm_num) (by norm_num)
  have e4 := e3.add d1 (Z := 2.5) (g := 6e-9) (by norm_num) (by norm_num) (by norm_num)
  have e5 := e4.mul nr' (Z := 13.2) (g := 9e-8) (by norm_num) (by norm_num) (by norm_num)
  have e6 := e5.add n1 (Z := 14.2) (g := 1e-7) (by norm_num) (by norm_num) (by norm_num)
  have hD : 1 ≤ ((0.001308 * s + 0.189269) * s + 1.432788) * s + 1 := by
    have : 0 ≤ ((0.001308 * s + 0.189269) * s + 1.432788) * s := by positivity
    linarith
  have hQ0 : 0 ≤ ((0.010328 * s + 0.802853) * s + 2.515516698) / (((0.001308 * s + 0.189269) * s + 1.432788) * s + 1) := by positivity
  have hQ1 : ((0.010328 * s + 0.802853) * s + 2.515516698) / (((0.001308 * s + 0.189269) * s + 1.432788) * s + 1) ≤ 2.52 := by
    rw [div_le_iff₀ (by linarith)]
    have s2 : 0 ≤ s ^ 2 := sq_nonneg s
    have s3 : 0 ≤ s ^ 3 := by positivity
    norm_num
    nlinarith
  have hQ : |((0.010328 * s + 0.802853) * s + 2.515516698) / (((0.001308 * s + 0.189269) * s + 1.432788) * s + 1)| ≤ 2.52 := by
    rw [abs_of_nonneg hQ0]; exact hQ1
  obtain ⟨nf, hne⟩ := p4.toNear.div e6.toNear (Q := 2.52) (m := 1) (M := 3) (g := 3e-7) hQ
    (by rw [abs_of_nonneg (by linarith)]; exact hD) (by norm_num) (by norm_num) (by norm_num) (by norm_num)
  rw [pyDiv_round e6.fin hne, ok_bind, pure_ok]
  have nf' : NB R _ _ 2.52 3e-7 := ⟨nf, hQ⟩
  have nv := nr'.sub nf' (Z := 7.8) (g := 4e-7) (by norm_num) (by norm_num) (by norm_num)
  change NB R _ (dev s) _ _ at nv
  have hdb : |dev s| ≤ 5.27 := by
    unfold dev; rw [abs_le]; constructor <;> norm_num at * <;> linarith
  rw [← hdevt] at nv hdb
  refine ⟨_, rfl, ?_⟩
  have hvx : R.val (0.5 - a) = R.rnd (0.5 - q) := by
    have hb : |R.val (0.5 : α) - R.val a| ≤ roundBig := by
      have v5 : R.val (0.5 : α) = 0.5 := by have := abs_le.1 nh.err; linarith [this.1, this.2]
      rw [v5, ← hq]
      exact le_roundBig (nx.bound.trans (by norm_num))
    have h := (R.sub (0.5 : α) a nh.fin ha hb).2
    have v5 : R.val (0.5 : α) = 0.5 := by have := abs_le.1 nh.err; linarith [this.1, this.2]
    rw [h, v5, ← hq]
  have nsd : Near R (if (0.5 - a : α) < 0.0 then
      -(r - ((0.010328 * r + 0.802853) * r + 2.515516698) / (((0.001308 * r + 0.189269) * r + 1.432788) * r + 1.0))
      else r - ((0.010328 * r + 0.802853) * r + 2.515516698) / (((0.001308 * r + 0.189269) * r + 1.432788) * r + 1.0)) (sdev q) 5e-6 := by
    unfold sdev
    by_cases hneg : (0.5 - a : α) < 0.0
    · rw [if_pos hneg]
      rw [R.lt _ _ nx.fin fz, vz, hvx] at hneg
      have : 0.5 - q < 0 := by
        by_contra hc
        exact absurd (rnd_nonneg R (not_lt.1 hc)) (not_le.2 hneg)
      rw [if_pos this]
      exact nv.toNear.neg.mono (by norm_num)
    · rw [if_neg hneg]
      rw [R.lt _ _ nx.fin fz, vz, hvx] at hneg
      by_cases hlt : 0.5 - q < 0
      · rw [if_pos hlt]
        have hz : R.rnd (0.5 - q) = 0 := le_antisymm (by rw [← rnd_zero R]; exact R.mono hlt.le) (not_lt.1 hneg)
        have hclose := Near.rnd_err R (x := 0.5 - q) nx.bound (by norm_num)
        rw [hz, zero_sub, abs_neg] at hclose
        have hmid : |devt (clipq q)| ≤ 2e-6 := by
          apply devt_mid _ (clipq_le_half q)
          refine le_trans ?_ (le_max_left _ _)
          norm_num at *
          linarith
        have h2 := nv.err
        refine ⟨nv.fin, ?_⟩
        rw [abs_le] at h2 hmid ⊢
        constructor <;> norm_num at * <;> linarith [h2.1, h2.2, hmid.1, hmid.2]
      · rw [if_neg hlt]
        exact nv.toNear.mono (by norm_num)
  rw [← hq]
  refine ⟨nsd, ?_⟩
  have hsd : |sdev q| ≤ 5.27 := by
    unfold sdev; split_ifs
    · rw [abs_neg]; exact hdb
    · exact hdb
  exact nsd.abs_val.trans (by norm_num at *; linarith)

theorem dev_gap {r s : ℝ} (hr : 0 ≤ r) (h : r ≤ s) : s - r ≤ dev s - dev r := by
  have hs : 0 ≤ s := le_trans hr h
  have hd : ∀ x : ℝ, 0 ≤ x → 0 < ((0.001308 * x + 0.189269) * x + 1.432788) * x + 1 := by
    intro x hx; positivity
  have key : ((0.010328 * s + 0.802853) * s + 2.515516698) / (((0.001308 * s + 0.189269) * s + 1.432788) * s + 1)
      ≤ ((0.010328 * r + 0.802853) * r + 2.515516698) / (((0.001308 * r + 0.189269) * r + 1.432788) * r + 1) := by
    rw [div_le_div_iff₀ (hd s hs) (hd r hr)]
    have e : 0 ≤ s - r := by linarith
    have h1 : 0 ≤ (s - r) * r := mul_nonneg e hr
    have h2 : 0 ≤ (s - r) * s := mul_nonneg e hs
    have h3 : 0 ≤ (s - r) * (r * s) := mul_nonneg e (mul_nonneg hr hs)
    have h4 : 0 ≤ (s - r) * (r * r) := mul_nonneg e (mul_nonneg hr hr)
    have h5 : 0 ≤ (s - r) * (s * s) := mul_nonneg e (mul_nonneg hs hs)
    have h6 : 0 ≤ (s - r) * (r * s * r) := mul_nonneg e (by positivity)
    have h7 : 0 ≤ (s - r) * (r * s * s) := mul_nonneg e (by positivity)
    have h8 : 0 ≤ (s - r) * (r * s * (r * s)) := mul_nonneg e (by positivity)
    linarith
  unfold dev
  linarith

/-- How far apart the deviates of two tail probabilities are at least. -/
theorem devt_gap {s t : ℝ} (hs : 0.000001 ≤ s) (h : s ≤ t) (ht : t ≤ 1 / 2) : 0.38 * (t - s) ≤ devt s - devt t := by
  have hs0 : 0 < s := lt_of_lt_of_le (by norm_num) hs
  have ht0 : 0 < t := hs0.trans_le h
  have hll := Real.log_le_log hs0 h
  have hlh := Real.log_le_log ht0 ht
  rw [one_div, Real.log_inv] at hlh
  have l2 := Real.log_two_gt_d9
  have hm : -13.83 ≤ Real.log s := by
    have hlo : -Real.log 1000000 ≤ Real.log s := by
      rw [← Real.log_inv]; exact Real.log_le_log (by norm_num) (by norm_num at *; linarith)
    have := log_million
    linarith
  have hlog : 2 * (t - s) ≤ Real.log t - Real.log s := by
    have h1 := Real.log_le_sub_one_of_pos (div_pos hs0 ht0)
    rw [Real.log_div hs0.ne' ht0.ne'] at h1
    have h2 : 2 * (t - s) ≤ 1 - s / t := by
      rw [show 1 - s / t = (t - s) / t by field_simp, le_div_iff₀ ht0]
      nlinarith
    linarith
  have hr : √(-2 * Real.log t) ≤ √(-2 * Real.log s) := Real.sqrt_le_sqrt (by linarith)
  have hg := dev_gap (Real.sqrt_nonneg _) hr
  have e1 := Real.sq_sqrt (show 0 ≤ -2 * Real.log t by linarith)
  have e2 := Real.sq_sqrt (show 0 ≤ -2 * Real.log s by linarith)
  have b : √(-2 * Real.log s) ≤ 5.26 := by rw [Real.sqrt_le_iff]; norm_num at *; linarith
  unfold devt
  refine le_trans ?_ hg
  have p1 := Real.sqrt_nonneg (-2 * Real.log t)
  generalize √(-2 * Real.log t) = x at *
  generalize √(-2 * Real.log s) = y at *
  have : 4 * (t - s) ≤ (y - x) * (y + x) := by nlinarith
  have h3 : (y - x) * (y + x) ≤ (y - x) * 10.52 := mul_le_mul_of_nonneg_left (by linarith) (by linarith)
  linarith

theorem clipq_bounds (q : ℝ) : 0.000001 ≤ clipq q ∧ clipq q ≤ 1 / 2 := ⟨le_max_right _ _, clipq_le_half q⟩

/-- Levels `1e-4` apart have deviates apart. -/
theorem sdev_gap {p q : ℝ} (h0 : 0 ≤ p) (h : p + 0.0001 ≤ q) (h1 : q ≤ 1) : 0.35 * (q - p) ≤ sdev p - sdev q := by
  have hdh := abs_lt.1 devt_half
  have low : ∀ x : ℝ, 0 ≤ x → x ≤ 1 / 2 → x ≤ clipq x ∧ clipq x ≤ x + 0.000001 := by
    intro x hx0 hx
    unfold clipq
    rw [abs_of_nonneg (by linarith)]
    exact ⟨le_trans (by linarith) (le_max_left _ _), max_le (by linarith) (by linarith)⟩
  have high : ∀ x : ℝ, x ≤ 1 → 1 / 2 ≤ x → 1 - x ≤ clipq x ∧ clipq x ≤ 1 - x + 0.000001 := by
    intro x hx0 hx
    unfold clipq
    rw [abs_of_nonpos (by linarith)]
    exact ⟨le_trans (by linarith) (le_max_left _ _), max_le (by linarith) (by linarith)⟩
  have bp := clipq_bounds p
  have bq := clipq_bounds q
  unfold sdev
  by_cases hp : 0.5 - p < 0
  · have hq : 0.5 - q < 0 := by linarith
    rw [if_pos hp, if_pos hq]
    have a1 := high p (by linarith) (by linarith)
    have a2 := high q h1 (by linarith)
    have hle : clipq q ≤ clipq p := by linarith [a1.1, a2.2]
    have := devt_gap bq.1 hle bp.2
    linarith [a1.1, a2.2]
  · rw [if_neg hp]
    have a1 := low p h0 (by linarith)
    by_cases hq : 0.5 - q < 0
    · rw [if_pos hq]
      have a2 := high q h1 (by linarith)
      have g1 := devt_gap bp.1 bp.2 le_rfl
      have g2 := devt_gap bq.1 bq.2 le_rfl
      linarith [a1.1, a2.2, hdh.1, hdh.2, a1.2, a2.1]
    · rw [if_neg hq]
      have a2 := low q (by linarith) (by linarith)
      have hle : clipq p ≤ clipq q := by linarith [a1.2, a2.1]
      have := devt_gap bp.1 hle bq.2
      linarith [a1.2, a2.1]

theorem qerfi_one {q v : α} (h : qerfi1 q = .ok v) : qerfi [q] = .ok [v] := by
  unfold qerfi
  rw [List.mapM_cons, h, ok_bind, List.mapM_nil, pure_ok, ok_bind, pure_ok]

/-- The deviate after rounding to four places. -/
theorem round4_val (R : Rounding α) {u : α} {x e : ℝ} (h : Near R u x e) (hb : |R.val u| ≤ 5.28) :
    Near R (PyNum.round4 u) x (e + 0.0000501) := by
  obtain ⟨hf, n, hv, hn⟩ := R.round4 u h.fin (hb.trans (by norm_num))
  refine ⟨hf, ?_⟩
  have h1 : roundEps * (1 + |R.val u|) ≤ 1e-15 * 7 := mul_le_mul roundEps_le (by linarith) (by positivity) (by norm_num)
  have hnb : |(n / 10000 : ℝ)| ≤ 7 := by
    have := abs_sub_abs_le_abs_sub (n / 10000 : ℝ) (R.val u)
    norm_num at *; linarith
  have h2 := Near.rnd_err R hnb (by norm_num)
  have h3 := h.err
  rw [hv]
  rw [abs_le] at h2 h3 hn ⊢
  constructor <;> norm_num at * <;> linarith [h2.1, h2.2, h3.1, h3.2, hn.1, hn.2]

/-- In any arithmetic that rounds like doubles do, `qerfi` answers every level in `[0, 1]`; the answer is within `1.2e-4` of what exact
arithmetic gives for the same level. -/
theorem C74_qerfi (R : Rounding α) (q : α) (hq : R.fin q) (h0 : 0 ≤ R.val q) (h1 : R.val q ≤ 1) :
    ∃ v w, qerfi [q] = .ok [v] ∧ R.fin v ∧ qerfi [R.val q] = .ok [w] ∧ |R.val v - w| ≤ 1.2e-4 := by
  obtain ⟨u, eu, nu, bu⟩ := qerfi1_round R hq h0 h1
  have nv := round4_val R nu bu
  refine ⟨_, _, qerfi_one eu, nv.fin, qerfi_single _, ?_⟩
  have h2 := nv.err
  have h3 := round4_near (sdev (R.val q))
  change |_ - PyNum.round4 (sdev (R.val q))| ≤ _
  rw [abs_le] at h2 h3 ⊢
  constructor <;> norm_num at * <;> linarith [h2.1, h2.2, h3.1, h3.2]

/-- Accuracy: if the level is the tail probability of `x`, the answer is `x` up to `0.0051`. -/
theorem C74_qerfi_accuracy (R : Rounding α) (q : α) (hq : R.fin q) (x : ℝ) (hx : normalTail x = R.val q)
    (h1 : 0.000001 ≤ R.val q) (h2 : R.val q ≤ 1 - 0.000001) : ∃ v, qerfi [q] = .ok [v] ∧ R.fin v ∧ |R.val v - x| ≤ 0.0051 := by
  obtain ⟨u, eu, nu, bu⟩ := qerfi1_round R hq (by linarith) (by linarith)
  have nv := round4_val R nu bu
  refine ⟨_, qerfi_one eu, nv.fin, ?_⟩
  have key : |sdev (R.val q) - x| ≤ 0.005 := by
    rw [← hx] at h1 h2 ⊢
    unfold sdev
    split_ifs with h
    · rw [clipq_high (by linarith) h2]
      have hx : normalTail (-x) = 1 - normalTail x := normalTail_compl x
      have := devt_near (q := 1 - normalTail x) (by linarith) (by linarith) hx
      rw [abs_le] at this ⊢
      constructor <;> linarith [this.1, this.2]
    · rw [clipq_low h1 (by linarith)]
      exact devt_near h1 (by linarith) rfl
  have h2 := nv.err
  rw [abs_le] at h2 key ⊢
  constructor <;> norm_num at * <;> linarith [h2.1, h2.2, key.1, key.2]

/-- Levels at least `1e-4` apart get deviates in the opposite order, exactly. -/
theorem C74_order (R : Rounding α) (p q v w : α) (hp : R.fin p) (hq : R.fin q) (h0 : 0 ≤ R.val p) (h : R.val p + 0.0001 ≤ R.val q)
    (h1 : R.val q ≤ 1) (ev : qerfi [p] = .ok [v]) (ew : qerfi [q] = .ok [w]) : R.val w ≤ R.val v := by
  obtain ⟨u, eu, nu, bu⟩ := qerfi1_round R hp h0 (by linarith)
  obtain ⟨u', eu', nu', bu'⟩ := qerfi1_round R hq (by linarith) h1
  have hv : v = PyNum.round4 u := by
    have := ok_inj.1 (ev.symm.trans (qerfi_one eu)); exact (List.cons.inj this).1
  have hw : w = PyNum.round4 u' := by
    have := ok_inj.1 (ew.symm.trans (qerfi_one eu')); exact (List.cons.inj this).1
  rw [hv, hw]
  apply R.round4_mono _ _ nu'.fin nu.fin (bu'.trans (by norm_num)) (bu.trans (by norm_num))
  have g := sdev_gap h0 h h1
  have a1 := nu.ge
  have a2 := nu'.le
  norm_num at *
  linarith

/-- The level of an integer percentage. -/
theorem percent_round (R : Rounding α) {r : ℤ} (h0 : 0 ≤ r) (h1 : r ≤ 100) :
    R.fin (PyNum.ofInt r / 100.0 : α) ∧ R.val (PyNum.ofInt r / 100.0 : α) = R.rnd (r / 100) := by
  have hr0 : (0 : ℝ) ≤ r := by exact_mod_cast h0
  have hr1 : (r : ℝ) ≤ 100 := by exact_mod_cast h1
  obtain ⟨fi, vi⟩ := R.ofInt r (le_roundBig (by rw [abs_of_nonneg hr0]; norm_num at *; linarith))
  have hex : R.rnd (r : ℝ) = r := by
    have := R.exact r 0 (by rw [abs_of_nonneg h0]; omega) (by norm_num) (by norm_num)
    simpa using this
  rw [hex] at vi
  obtain ⟨fc, vc⟩ := Near.lit_int R (m := 1000) (s := true) (k := 1) 100 (by norm_num) (by norm_num)
  have vc' : R.val (100.0 : α) = 100 := vc.trans (by norm_num)
  obtain ⟨fd, vd⟩ := R.div _ _ fi fc (by rw [vc']; norm_num) (by
    rw [vi, vc', abs_of_nonneg (by positivity)]
    exact le_roundBig (by norm_num at *; linarith))
  exact ⟨fd, by rw [vd, vi, vc']⟩

theorem percent_bounds (R : Rounding α) {r : ℤ} (h0 : 0 ≤ r) (h1 : r ≤ 100) :
    0 ≤ R.rnd (r / 100) ∧ R.rnd (r / 100) ≤ 1 ∧ |R.rnd (r / 100) - r / 100| ≤ 2e-15 := by
  have hr0 : (0 : ℝ) ≤ r := by exact_mod_cast h0
  have hr1 : (r : ℝ) ≤ 100 := by exact_mod_cast h1
  refine ⟨rnd_nonneg R (by positivity), ?_, ?_⟩
  · have e : R.rnd 1 = 1 := by simpa using R.exact 1 0 (by norm_num) (by norm_num) (by norm_num)
    rw [← e]; exact R.mono (by rw [div_le_one (by norm_num)]; exact hr1)
  · have := Near.rnd_err R (x := (r : ℝ) / 100) (M := 1) (by rw [abs_of_nonneg (by positivity), div_le_one (by norm_num)]; exact hr1)
      (by norm_num)
    exact this.trans (by norm_num)

/-- Every integer percentage has a deviate; it is finite and at most `5.3` in size. -/
theorem C74_percent (R : Rounding α) (r : ℤ) (h0 : 0 ≤ r) (h1 : r ≤ 100) : ∃ z : α, DeviateOf r z ∧ R.fin z ∧ |R.val z| ≤ 5.3 := by
  obtain ⟨f, v⟩ := percent_round (α := α) R h0 h1
  obtain ⟨b0, b1, -⟩ := percent_bounds R h0 h1
  obtain ⟨u, eu, nu, bu⟩ := qerfi1_round R f (by rw [v]; exact b0) (by rw [v]; exact b1)
  have nv := round4_val R (Near.self nu.fin) bu
  refine ⟨_, qerfi_one eu, nv.fin, ?_⟩
  have := nv.abs_val
  norm_num at *; linarith

/-- The deviate of 50 percent is exactly 0. -/
theorem C74_median (R : Rounding α) (z : α) (h : DeviateOf 50 z) : R.val z = 0 := by
  obtain ⟨f, v⟩ := percent_round (α := α) R (r := 50) (by norm_num) (by norm_num)
  have e : R.rnd ((50 : ℤ) / 100 : ℝ) = 1 / 2 := by
    have := R.exact 1 (-1) (by norm_num) (by norm_num) (by norm_num)
    norm_num at this ⊢
    exact this
  rw [e] at v
  obtain ⟨u, eu, nu, bu⟩ := qerfi1_round R f (by rw [v]; norm_num) (by rw [v]; norm_num)
  have hz : z = PyNum.round4 u := by
    have := ok_inj.1 (h.symm.trans (qerfi_one eu)); exact (List.cons.inj this).1
  rw [hz]
  obtain ⟨-, n, hv, hn⟩ := R.round4 u nu.fin (bu.trans (by norm_num))
  have hs : |sdev (1 / 2)| ≤ 2e-6 := by
    unfold sdev clipq
    norm_num
    have := devt_mid (c := 1 / 2) (by norm_num) le_rfl
    norm_num at this
    exact this
  rw [v] at nu
  have h1 : roundEps * (1 + |R.val u|) ≤ 1e-15 * 7 := mul_le_mul roundEps_le (by norm_num at *; linarith) (by positivity) (by norm_num)
  have h2 := nu.err
  have hn0 : n = 0 := by
    have hb : |(n : ℝ)| < 1 := by
      rw [abs_le] at hn hs h2
      rw [abs_lt]
      constructor <;> norm_num at * <;> linarith [h2.1, h2.2, hn.1, hn.2, hs.1, hs.2]
    have : |n| < 1 := by exact_mod_cast hb
    exact Int.abs_lt_one_iff.1 this
  rw [hv, hn0]
  norm_num
  exact rnd_zero R

/-- Deviates of integer percentages are strictly ordered: the larger percentage has the smaller deviate, by at least `0.003`. -/
theorem C74_percent_order (R : Rounding α) (r s : ℤ) (y z : α) (h0 : 0 ≤ r) (hrs : r < s) (h1 : s ≤ 100) (hy : DeviateOf r y)
    (hz : DeviateOf s z) : R.val z + 0.003 ≤ R.val y := by
  obtain ⟨f, v⟩ := percent_round (α := α) R h0 (by omega : r ≤ 100)
  obtain ⟨b0, b1, b2⟩ := percent_bounds R h0 (by omega : r ≤ 100)
  obtain ⟨f', v'⟩ := percent_round (α := α) R (by omega : 0 ≤ s) h1
  obtain ⟨b0', b1', b2'⟩ := percent_bounds R (by omega : 0 ≤ s) h1
  obtain ⟨u, eu, nu, bu⟩ := qerfi1_round R f (by rw [v]; exact b0) (by rw [v]; exact b1)
  obtain ⟨u', eu', nu', bu'⟩ := qerfi1_round R f' (by rw [v']; exact b0') (by rw [v']; exact b1')
  have ey : y = PyNum.round4 u := by
    have := ok_inj.1 (hy.symm.trans (qerfi_one eu)); exact (List.cons.inj this).1
  have ez : z = PyNum.round4 u' := by
    have := ok_inj.1 (hz.symm.trans (qerfi_one eu')); exact (List.cons.inj this).1
  have n1 := round4_val R nu bu
  have n2 := round4_val R nu' bu'
  rw [← ey, v] at n1
  rw [← ez, v'] at n2
  have hrs' : (r : ℝ) + 1 ≤ s := by exact_mod_cast hrs
  have hgap : R.rnd (r / 100) + 0.0099 ≤ R.rnd (s / 100) := by
    rw [abs_le] at b2 b2'
    norm_num at *
    linarith [b2.1, b2.2, b2'.1, b2'.2]
  have g := sdev_gap b0 (le_trans (by linarith) hgap) b1'
  have a1 := n1.ge
  have a2 := n2.le
  norm_num at *
  linarith

/-- Round trip: the tail probability of the deviate of a level is that level up to `0.0021`. -/
theorem C74_round_trip (R : Rounding α) (q : α) (hq : R.fin q) (h0 : 0 ≤ R.val q) (h1 : R.val q ≤ 1) :
    ∃ v w, qerfi [q] = .ok [v] ∧ qerf v = .ok w ∧ |R.val w - R.val q| ≤ 0.0021 := by
  obtain ⟨u, eu, nu, bu⟩ := qerfi1_round R hq h0 h1
  have nv := round4_val R nu bu
  obtain ⟨w, w', ew, -, -, -, hw⟩ := C74_qerf R _ nv.fin
  refine ⟨_, w, qerfi_one eu, ew, ?_⟩
  obtain ⟨q', hq'⟩ : ∃ q', q' = R.val q := ⟨_, rfl⟩
  rw [← hq'] at nv h0 h1 ⊢
  generalize PyNum.round4 u = v at *
  clear ew
  have hr := nv.err
  have hc0 : 0.000001 ≤ clipq q' := le_max_right _ _
  have hb := devt_bracket hc0 (clipq_le_half q')
  have hsum : ∀ x : ℝ, |x - devt (clipq q')| ≤ 0.0000551 → |normalTail x - clipq q'| ≤ 0.00203 := by
    intro x hv
    rw [abs_le] at hv
    have a1 := normalTail_lip (show x ≤ devt (clipq q') + 0.005 by linarith [hv.2])
    have a2 := normalTail_lip (show devt (clipq q') - 0.005 ≤ x by linarith [hv.1])
    rw [abs_le]
    constructor <;> linarith [hv.1, hv.2, hb.1, hb.2]
  unfold sdev at hr
  split_ifs at hr with h
  · have hc : |1 - clipq q' - q'| ≤ 0.000001 := by
      unfold clipq
      rw [abs_of_neg h]
      rcases max_cases (0.5 - -(0.5 - q')) (0.000001 : ℝ) with ⟨e, g⟩ | ⟨e, g⟩ <;> rw [e, abs_le] <;> constructor <;>
        linarith
    have hs := hsum (-R.val v) (by rw [abs_le] at hr ⊢; constructor <;> linarith [hr.1, hr.2])
    rw [normalTail_compl] at hs
    rw [abs_le] at hs hw hc ⊢
    constructor <;> linarith [hs.1, hs.2, hw.1, hw.2, hc.1, hc.2]
  · have hc : |clipq q' - q'| ≤ 0.000001 := by
      unfold clipq
      rw [abs_of_nonneg (show 0 ≤ 0.5 - q' by linarith)]
      rcases max_cases (0.5 - (0.5 - q')) (0.000001 : ℝ) with ⟨e, g⟩ | ⟨e, g⟩ <;> rw [e, abs_le] <;> constructor <;>
        linarith
    have hs := hsum (R.val v) (hr.trans (by norm_num))
    rw [abs_le] at hs hw hc ⊢
    constructor <;> linarith [hs.1, hs.2, hw.1, hw.2, hc.1, hc.2]

/-- An arithmetic that satisfies the laws and does round: numbers truncated to 53 binary digits. One third is not among its numbers. -/
example : ∃ R : Rounding Chop, R.rnd (1 / 3) ≠ 1 / 3 := ⟨chopRounding, fun h => by
  change chop (1 / 3) = 1 / 3 at h
  have e : chop (1 / 3) = chopAbs (1 / 3) := by unfold chop; rw [if_pos (by norm_num)]
  rw [e] at h
  unfold chopAbs chopUnit at h
  have l1 := log_le (x := 1 / 3) (by norm_num)
  have l2 := lt_log (1 / 3)
  rw [abs_of_pos (by norm_num : (0 : ℝ) < 1 / 3)] at l1 l2 h
  generalize Int.log 2 (1 / 3 : ℝ) = L at *
  have hL : L = -2 := by
    have h1 : (2 : ℝ) ^ L < 2 ^ (-1 : ℤ) := lt_of_le_of_lt l1 (by norm_num)
    have h2 : (2 : ℝ) ^ (-2 : ℤ) < 2 ^ (L + 1) := lt_trans (by norm_num) l2
    have h3 := (zpow_lt_zpow_iff_right₀ (by norm_num : (1 : ℝ) < 2)).1 h1
    have h4 := (zpow_lt_zpow_iff_right₀ (by norm_num : (1 : ℝ) < 2)).1 h2
    omega
  rw [hL] at h
  obtain ⟨n, hn⟩ : ∃ n : ℤ, n = ⌊(1 / 3 : ℝ) / 2 ^ (-2 - 52 : ℤ)⌋ := ⟨_, rfl⟩
  rw [← hn] at h
  have h3 : (3 * n : ℝ) = 2 ^ 54 := by
    have : (2 : ℝ) ^ (-2 - 52 : ℤ) = 1 / 2 ^ 54 := by norm_num
    rw [this] at h
    field_simp at h
    linarith
  have h4 : 3 * n = 2 ^ 54 := by exact_mod_cast h3
  omega⟩

/-- The levels 10, 50 and 90 percent in that arithmetic. -/
example : ∃ x y z : Chop, DeviateOf 10 x ∧ DeviateOf 50 y ∧ DeviateOf 90 z ∧
    chopRounding.val z + 0.003 ≤ chopRounding.val y ∧ chopRounding.val y = 0 ∧ 0.003 ≤ chopRounding.val x := by
  obtain ⟨x, hx, -⟩ := C74_percent chopRounding 10 (by norm_num) (by norm_num)
  obtain ⟨y, hy, -⟩ := C74_percent chopRounding 50 (by norm_num) (by norm_num)
  obtain ⟨z, hz, -⟩ := C74_percent chopRounding 90 (by norm_num) (by norm_num)
  have h0 := C74_median chopRounding y hy
  have h1 := C74_percent_order chopRounding 10 50 x y (by norm_num) (by norm_num) (by norm_num) hx hy
  exact ⟨x, y, z, hx, hy, hz, C74_percent_order chopRounding 50 90 y z (by norm_num) (by norm_num) (by norm_num) hy hz, h0, by linarith⟩

/-- The hypotheses on levels hold of the level 10 percent and of the pair 10, 90 percent. -/
example (R : Rounding α) : R.fin (PyNum.ofInt 10 / 100.0 : α) ∧ 0.000001 ≤ R.val (PyNum.ofInt 10 / 100.0 : α) ∧
    R.val (PyNum.ofInt 10 / 100.0 : α) + 0.0001 ≤ R.val (PyNum.ofInt 90 / 100.0 : α) ∧
    R.val (PyNum.ofInt 90 / 100.0 : α) ≤ 1 - 0.000001 := by
  obtain ⟨f, v⟩ := percent_round (α := α) R (r := 10) (by norm_num) (by norm_num)
  obtain ⟨-, v'⟩ := percent_round (α := α) R (r := 90) (by norm_num) (by norm_num)
  have b := abs_le.1 (percent_bounds R (r := 10) (by norm_num) (by norm_num)).2.2
  have b' := abs_le.1 (percent_bounds R (r := 90) (by norm_num) (by norm_num)).2.2
  rw [v, v']
  refine ⟨f, ?_, ?_, ?_⟩ <;> norm_num at * <;> linarith [b.1, b.2, b'.1, b'.2]

/-- Exact arithmetic satisfies the laws as well. -/
noncomputable example : Rounding ℝ := realRounding

end Itm.Props
