import Verif.Lemmas.PrepRound
import Verif.Lemmas.Leak

/-! C93: the path parameters survive rounding. -/

namespace Itm.Props
open Itm Spec
variable {α : Type} [PyNum α]

/-- **C93** (usable) In every rounding arithmetic the preparation of every path of ordinary size succeeds, also where terrain only just touches the
line of sight: all parameters are finite, the length is right, the irregularity is not negative, the effective heights are not below the antenna
heights and the horizon distances are positive. -/
theorem C93_usable (R : Rounding α) {p : PropSt α} {n : ℕ} (H : SizedPath R p n) :
    ∃ q, qlrpflPrep p = .ok q ∧ (R.fin q.dist ∧ R.fin q.dh ∧ R.fin q.he.x0 ∧ R.fin q.he.x1 ∧ R.fin q.dl.x0 ∧ R.fin q.dl.x1 ∧ R.fin q.the.x0 ∧ R.fin q.the.x1) ∧
      |R.val q.dist - n * R.val p.pfl.xi| ≤ 2e-15 * (n * R.val p.pfl.xi) ∧ 0 ≤ R.val q.dh ∧ R.val q.dh ≤ 3.1e5 ∧
      R.val p.hg.x0 ≤ R.val q.he.x0 ∧ R.val p.hg.x1 ≤ R.val q.he.x1 ∧ 0 < R.val q.dl.x0 ∧ 0 < R.val q.dl.x1 ∧ q.mdp = -1 := by
  obtain ⟨the, dl, dh, C⟩ := prep_core R H
  by_cases h : 1.5 * (PyNum.ofInt p.pfl.np * p.pfl.xi) ≤ dl.x0 + dl.x1
  · obtain ⟨e0, e1, d0, d1, t0, t1, u, v, c, s, h0, h1, e, L⟩ := C.los H h
    refine ⟨_, e, ?_⟩
    rw [prepMarks_eq]
    exact ⟨⟨C.dist.fin, C.fdh, L.s0.fh, L.s1.fh, L.m0.fin, L.m1.fin, L.a0.fin, L.a1.fin⟩, C.dist.err, C.dh0, C.dh1, L.g0.trans L.l0, L.g1.trans L.l1,
      L.m0.val_pos (by norm_num), L.m1.val_pos (by norm_num), rfl⟩
  · obtain ⟨e0, e1, u, v, c, s, u', v', c', s', e, L0, L1⟩ := C.obs H h
    refine ⟨_, e, ?_⟩
    rw [prepMarks_eq]
    have x1 := H.hz.xi1
    have k0 := C.d0.1
    have k1 := C.d1.1
    refine ⟨⟨C.dist.fin, C.fdh, L0.fin, L1.fin, C.fd0, C.fd1, C.ft0, C.ft1⟩, C.dist.err, C.dh0, C.dh1, L0.g, L1.g, ?_, ?_, rfl⟩
    · change 0 < R.val dl.x0
      clear * - k0 x1; norm_num at *; linarith
    · change 0 < R.val dl.x1
      clear * - k1 x1; norm_num at *; linarith

/-- A window end known up to a fraction of the path length. -/
theorem end_close {ξ D u X x τ : ℝ} {n : ℕ} (hn : n ≤ 1000) (hξ : 0 < ξ) (hD : D = n * ξ) (h1 : |u - X / ξ| ≤ 2e-11) (h2 : |X - x| ≤ τ * D) (hτ : τ ≤ 9.5e-9) :
    |u - x / ξ| ≤ 1e-5 := by
  have hnR : (n : ℝ) ≤ 1000 := by exact_mod_cast hn
  have h3 : |X / ξ - x / ξ| ≤ 9.5e-6 := by
    rw [← sub_div, abs_div, abs_of_pos hξ, div_le_iff₀ hξ]
    have D0 : 0 ≤ D := by rw [hD]; positivity
    have e1 : D ≤ 1000 * ξ := by rw [hD]; exact mul_le_mul_of_nonneg_right hnR hξ.le
    have e2 := mul_le_mul_of_nonneg_right hτ D0
    norm_num at *; linarith
  have := abs_sub_le u (X / ξ) (x / ξ)
  norm_num at *; linarith

/-- The smaller of two numbers, one of them known up to an error. -/
theorem min_close {a x y e : ℝ} (h : |x - y| ≤ e) : |min a x - min a y| ≤ e := by
  rw [abs_le] at *
  constructor
  · rcases min_choice a x with c | c <;> rcases min_choice a y with d | d
    all_goals
      have := min_le_left a x
      have := min_le_right a x
      have := min_le_left a y
      have := min_le_right a y
      rw [c, d] at *
      linarith
  · rcases min_choice a x with c | c <;> rcases min_choice a y with d | d
    all_goals
      have := min_le_left a x
      have := min_le_right a x
      have := min_le_left a y
      have := min_le_right a y
      rw [c, d] at *
      linarith

theorem raise_eq {P : Path} {dh h₀ h₁ : ℝ} (hS : 0 < roughHorizon P.κ dh h₀ + roughHorizon P.κ dh h₁) : P.raise dh h₀ h₁ = raised P.κ dh P.len h₀ h₁ := by
  unfold Path.raise raised
  split_ifs with h
  · rw [max_eq_right ((one_le_div hS).2 h)]
  · rw [max_eq_left ((div_le_one hS).2 (not_le.1 h).le), one_pow]

theorem raised_close {κ dh L L' h₀ h₁ : ℝ} (hS : 0 < roughHorizon κ dh h₀ + roughHorizon κ dh h₁) (h : |L' - L| ≤ 2e-15 * L) :
    |raised κ dh L' h₀ h₁ - raised κ dh L h₀ h₁| ≤ 5e-15 * raised κ dh L h₀ h₁ := by
  unfold raised
  generalize roughHorizon κ dh h₀ + roughHorizon κ dh h₁ = S at *
  have k1 : |max 1 (L' / S) - max 1 (L / S)| ≤ 2e-15 * max 1 (L / S) := by
    rw [max_comm 1, max_comm 1]
    refine (abs_max_sub_max_le_abs _ _ _).trans ?_
    rw [← sub_div, abs_div, abs_of_pos hS]
    have e1 : |L' - L| / S ≤ 2e-15 * (L / S) := by rw [← mul_div_assoc]; exact div_le_div_of_nonneg_right h hS.le
    exact e1.trans (mul_le_mul_of_nonneg_left (le_max_left _ _) (by norm_num))
  have m1 : 1 ≤ max 1 (L / S) := le_max_left _ _
  generalize max 1 (L / S) = m at *
  generalize max 1 (L' / S) = m' at *
  rw [show m' ^ 2 - m ^ 2 = (m' - m) * (m' + m) by ring, abs_mul]
  have k2 := abs_le.1 k1
  have k3 : |m' + m| ≤ 2.1 * m := by rw [abs_le]; constructor <;> (norm_num at *; linarith)
  calc _ ≤ (2e-15 * m) * (2.1 * m) := mul_le_mul k1 k3 (abs_nonneg _) (by norm_num; linarith)
    _ ≤ 5e-15 * m ^ 2 := by
      have := mul_pos (by linarith : 0 < m) (by linarith : 0 < m)
      rw [show (2e-15 * m) * (2.1 * m) = (2e-15 * 2.1) * (m * m) by ring, pow_two]
      exact mul_le_mul_of_nonneg_right (by norm_num) this.le

/-- A raised height, referred to the exact length. -/
theorem raised_height {e h F F' : ℝ} (hh : 0 < h) (h1 : |e - h * F'| ≤ 9e-13 * (h * F')) (h2 : |F' - F| ≤ 5e-15 * F) (hF : 0 < F) : |e - h * F| ≤ 1e-12 * (h * F) := by
  have k := mul_pos hh hF
  have k1 : |h * F' - h * F| ≤ 5e-15 * (h * F) := by
    rw [← mul_sub, abs_mul, abs_of_pos hh]
    have := mul_le_mul_of_nonneg_left h2 hh.le
    linarith
  rw [abs_le] at *
  generalize h * F' = w at *
  generalize h * F = w' at *
  constructor <;> (norm_num at *; linarith)

set_option maxHeartbeats 1000000 in
/-- **C93** (right) If the exact horizons of the terminals stand out, the parameters are those of the algorithm description for the very numbers
given, up to the errors stated in `NearGeometry` (heights up to a micrometre, irregularity up to 0.15 mm, windows up to 1e-5 intervals); in particular
the path is taken for clear exactly if it is. On clear paths the estimated horizons reach over the whole length, up to the fraction 2e-11. (For clear paths
the ground of the receiver is the last but one sample, see C40.) -/
theorem C93_geometry (R : Rounding α) {p : PropSt α} {n : ℕ} (H : SizedPath R p n) {θ₀ θ₁ d₀ d₁ : ℝ} (h : (valPath R p n).Horizons θ₀ θ₁ d₀ d₁)
    (hd : (valPath R p n).Distinct θ₀ θ₁ d₀ d₁) :
    ∃ q, qlrpflPrep p = .ok q ∧ (valPath R p n).NearGeometry ((valPath R p n).z (n - 1)) θ₀ θ₁ d₀ d₁ (valGeometry R q) ∧
      ((valPath R p n).Clear → (1 - 2e-11) * (valPath R p n).len ≤ R.val q.dl.x0 + R.val q.dl.x1) := by
  obtain ⟨the, dl, dh, C⟩ := prep_core R H
  have t1 : (2 : ℝ) * 2e-10 = 4e-10 := by norm_num
  have t2 : (2 : ℝ) * 2e-8 = 4e-8 := by norm_num
  have an0 := C.a.angle h.1
  have an1 := C.b.angle h.2
  have di0 := C.a.distance h.1 (by rw [t1]; exact hd.1.1) (by rw [t1]; exact hd.1.2)
  have di1 := C.b.distance h.2 (by rw [t2]; exact hd.2.1) (by rw [t2]; exact hd.2.2)
  have p0 : 0 ≤ d₀ := by have := (abs_nonneg _).trans di0; norm_num at this; exact this
  have p1 : 0 ≤ d₁ := by have := (abs_nonneg _).trans di1; norm_num at this; exact this
  have n1 : (1 : ℝ) ≤ n := by exact_mod_cast H.hz.n1
  have n2 : (n : ℝ) ≤ 1000 := by exact_mod_cast H.hz.n1000
  have x1 := H.hz.xi1
  have span := H.hz.span
  have x0 : 0 < R.val p.pfl.xi := by linarith
  have xD : R.val p.pfl.xi ≤ n * R.val p.pfl.xi := le_mul_of_one_le_left (by linarith) n1
  have Dx : n * R.val p.pfl.xi ≤ 1000 * R.val p.pfl.xi := mul_le_mul_of_nonneg_right n2 x0.le
  have cs := valPath_cases R H h
  have hlen : (valPath R p n).len = n * R.val p.pfl.xi := rfl
  have wA := C.wA.err
  have wB := C.wB.err
  have dist := C.dist
  have c0 := C.d0
  have c1 := C.d1
  obtain ⟨D, hD⟩ : ∃ D, D = n * R.val p.pfl.xi := ⟨_, rfl⟩
  rw [hlen, ← hD] at cs
  rw [← hD] at span xD Dx wA wB dist c0 c1
  have D1 : 1 ≤ D := by linarith
  have q0 : d₀ ≤ D := by rcases cs with ⟨-, a, -⟩ | ⟨-, a⟩ <;> linarith
  have q1 : d₁ ≤ D := by rcases cs with ⟨-, -, a⟩ | ⟨-, a⟩ <;> linarith
  obtain ⟨x, hx⟩ : ∃ x, x = min (15 * R.val p.hg.x0) (0.1 * d₀) := ⟨_, rfl⟩
  obtain ⟨y, hy⟩ : ∃ y, y = D - min (15 * R.val p.hg.x1) (0.1 * d₁) := ⟨_, rfl⟩
  have eA : |R.val (foreA p dl) - x| ≤ 2e-9 * D := by
    have k : |0.1 * R.val dl.x0 - 0.1 * d₀| ≤ 1e-9 * D := by
      rw [← mul_sub, abs_mul, abs_of_nonneg (by norm_num : (0 : ℝ) ≤ 0.1)]
      clear * - di0 q0 D1; norm_num at *; linarith
    have k1 := min_close (a := 15 * R.val p.hg.x0) k
    rw [← hx] at k1
    have := abs_sub_le (R.val (foreA p dl)) (min (15 * R.val p.hg.x0) (0.1 * R.val dl.x0)) x
    generalize |R.val (foreA p dl) - min (15 * R.val p.hg.x0) (0.1 * R.val dl.x0)| = A at *
    generalize |min (15 * R.val p.hg.x0) (0.1 * R.val dl.x0) - x| = B at *
    clear * - this k1 wA D1; norm_num at *; linarith
  have eB : |R.val (foreB p dl) - y| ≤ 2e-9 * D := by
    have k : |0.1 * R.val dl.x1 - 0.1 * d₁| ≤ 1e-9 * D := by
      rw [← mul_sub, abs_mul, abs_of_nonneg (by norm_num : (0 : ℝ) ≤ 0.1)]
      clear * - di1 q1 D1; norm_num at *; linarith
    have k1 := min_close (a := 15 * R.val p.hg.x1) k
    have k2 : |D - min (15 * R.val p.hg.x1) (0.1 * R.val dl.x1) - y| ≤ 1e-9 * D := by
      rw [hy, show D - min (15 * R.val p.hg.x1) (0.1 * R.val dl.x1) - (D - min (15 * R.val p.hg.x1) (0.1 * d₁)) =
        -(min (15 * R.val p.hg.x1) (0.1 * R.val dl.x1) - min (15 * R.val p.hg.x1) (0.1 * d₁)) by ring, abs_neg]
      exact k1
    have := abs_sub_le (R.val (foreB p dl)) (D - min (15 * R.val p.hg.x1) (0.1 * R.val dl.x1)) y
    generalize |R.val (foreB p dl) - (D - min (15 * R.val p.hg.x1) (0.1 * R.val dl.x1))| = A at *
    generalize |D - min (15 * R.val p.hg.x1) (0.1 * R.val dl.x1) - y| = B at *
    clear * - this k2 wB D1; norm_num at *; linarith
  have irr : (valPath R p n).NearIrregular x y (R.val dh) := by
    rcases C.desc with ⟨z, g⟩ | ⟨u, v, ω, u0, vn, uv, nu, nv, I, w⟩
    · refine Or.inl ⟨z, ?_⟩
      change y / R.val p.pfl.xi - x / R.val p.pfl.xi < 2 + 1e-5
      rw [← sub_div, div_lt_iff₀ x0] at *
      rw [abs_le] at eA eB
      clear * - g eA eB D1 Dx x0; norm_num at *; linarith
    · refine Or.inr ⟨u, v, _, ω, u0, vn, uv, ?_, ?_, ?_, I, w⟩
      · exact end_close H.hz.n1000 x0 hD (nu.trans (by norm_num)) eA (by norm_num)
      · exact end_close H.hz.n1000 x0 hD nv eB (by norm_num)
      · change _ ≤ 1e-5 * R.val p.pfl.xi
        rw [abs_le] at *
        clear * - eA eB D1 Dx x0
        constructor <;> (norm_num at *; linarith)
  have n15 : RL R (1.5 : α) 1.5 1.5e-15 := RL.lit R (by norm_num) (by norm_num)
  have nD : RL R (PyNum.ofInt p.pfl.np * p.pfl.xi) D 2e-15 :=
    ⟨dist.fin, dist.err, by clear * - D1; norm_num at *; linarith, by clear * - span; norm_num at *; linarith⟩
  have n15D := n15.mul nD (t := 5.1e-15) (by norm_num) (by norm_num) (by clear * - D1; norm_num at *; linarith) (by clear * - span; norm_num at *; linarith) (by norm_num)
  have g0 : RL R dl.x0 (R.val dl.x0) 0 := RL.self C.fd0 (by clear * - c0 x1; norm_num at *; linarith) (by clear * - c0 span; norm_num at *; linarith)
  have g1 : RL R dl.x1 (R.val dl.x1) 0 := RL.self C.fd1 (by clear * - c1 x1; norm_num at *; linarith) (by clear * - c1 span; norm_num at *; linarith)
  have gs := g0.add g1 (t := 1.5e-15) (by norm_num) (by clear * - c0 c1 span; norm_num at *; linarith) (by norm_num)
  rcases cs with ⟨cl, rfl, rfl⟩ | ⟨cl, sum⟩
  · have hc : 1.5 * (PyNum.ofInt p.pfl.np * p.pfl.xi) ≤ dl.x0 + dl.x1 := by
      rw [R.le _ _ n15D.fin gs.fin]
      have k1 := n15D.le
      have k2 := gs.ge
      rw [abs_le] at di0 di1
      clear * - k1 k2 di0 di1 D1; norm_num at *; linarith
    obtain ⟨e0, e1, b0, b1, t0, t1, u, v, c, s, h0, h1, e, L⟩ := C.los H hc
    have hk : 0 < (valPath R p n).κ := lt_of_lt_of_le (by norm_num) H.k1
    have hp0 : 0 < h0 := lt_of_lt_of_le (lt_of_lt_of_le (by norm_num) H.a0) L.g0
    have hp1 : 0 < h1 := lt_of_lt_of_le (lt_of_lt_of_le (by norm_num) H.a1) L.g1
    have hS : 0 < roughHorizon (valPath R p n).κ (R.val dh) h0 + roughHorizon (valPath R p n).κ (R.val dh) h1 :=
      add_pos (roughHorizon_pos hk hp0) (roughHorizon_pos hk hp1)
    have F0 : 0 < raised (valPath R p n).κ (R.val dh) (valPath R p n).len h0 h1 := by
      unfold raised
      exact pow_pos (lt_of_lt_of_le one_pos (le_max_left _ _)) 2
    have cl' := raised_close (L := (valPath R p n).len) (L' := R.val (PyNum.ofInt p.pfl.np * p.pfl.xi)) hS (by rw [hlen]; exact C.dist.err)
    refine ⟨_, e, ?_, ?_⟩
    · refine ⟨x, y, hx, by rw [hy, hlen, hD]; rfl, ?_, fun _ => ⟨c, s, ⟨u, v, L.u0, L.uv, L.vn, ?_, ?_, L.line⟩, h0, h1, L.n0, L.n1, ?_, ?_, ?_, ?_⟩, fun k => absurd cl k⟩
      · rw [prepMarks_eq]; exact irr
      · exact end_close H.hz.n1000 x0 hD (L.nu.trans (by norm_num)) eA (by norm_num)
      · exact end_close H.hz.n1000 x0 hD (L.nv.trans (by norm_num)) eB (by norm_num)
      · rw [prepMarks_eq]
        show |R.val e0 - h0 * (valPath R p n).raise (R.val dh) h0 h1| ≤ 1e-12 * (h0 * (valPath R p n).raise (R.val dh) h0 h1)
        rw [raise_eq hS]
        exact raised_height hp0 L.r0.err cl' F0
      · rw [prepMarks_eq]
        show |R.val e1 - h1 * (valPath R p n).raise (R.val dh) h0 h1| ≤ 1e-12 * (h1 * (valPath R p n).raise (R.val dh) h0 h1)
        rw [raise_eq hS]
        exact raised_height hp1 L.r1.err cl' F0
      · rw [prepMarks_eq]; exact ⟨L.m0.err, L.a0.err⟩
      · rw [prepMarks_eq]; exact ⟨L.m1.err, L.a1.err⟩
    · intro _
      rw [prepMarks_eq, hlen]
      have k := L.reach
      have k2 := (abs_le.1 dist.err).1
      change R.val (PyNum.ofInt p.pfl.np * p.pfl.xi) * (1 - 1e-11) ≤ R.val b0 + R.val b1 at k
      change _ ≤ R.val b0 + R.val b1
      rw [← hD]
      clear * - k k2 D1; norm_num at *; linarith
  · have hc : ¬ 1.5 * (PyNum.ofInt p.pfl.np * p.pfl.xi) ≤ dl.x0 + dl.x1 := by
      rw [R.le _ _ n15D.fin gs.fin]
      have k1 := n15D.ge
      have k2 := gs.le
      rw [abs_le] at di0 di1
      clear * - k1 k2 di0 di1 D1 sum p0 p1; norm_num at *; linarith
    obtain ⟨e0, e1, u, v, c, s, u', v', c', s', e, L0, L1⟩ := C.obs H hc
    have V := C.windows H
    have y0 := V.y0.err
    have y1 := V.x1.err
    rw [← hD] at y0 y1
    refine ⟨_, e, ?_, fun k => absurd k cl⟩
    refine ⟨x, y, hx, by rw [hy, hlen, hD]; rfl, ?_, fun k => absurd k cl, fun _ => ⟨⟨c, s, ⟨u, v, L0.u0, L0.uv, L0.vn, ?_, ?_, L0.line⟩, ?_⟩,
      ⟨c', s', ⟨u', v', L1.u0, L1.uv, L1.vn, ?_, ?_, L1.line⟩, ?_⟩, ?_, ?_, ?_, ?_⟩⟩
    · rw [prepMarks_eq]; exact irr
    · exact end_close H.hz.n1000 x0 hD (L0.nu.trans (by norm_num)) eA (by norm_num)
    · refine end_close (τ := 1e-10) H.hz.n1000 x0 hD (L0.nv.trans (by norm_num)) ?_ (by norm_num)
      rw [abs_le] at *
      clear * - y0 di0 q0 D1
      constructor <;> (norm_num at *; linarith)
    · rw [prepMarks_eq]; exact L0.a id
    · refine end_close (τ := 9.1e-9) H.hz.n1000 x0 hD (L1.nu.trans (by norm_num)) ?_ (by norm_num)
      rw [hlen, ← hD]
      rw [abs_le] at *
      clear * - y1 di1 q1 D1
      constructor <;> (norm_num at *; linarith)
    · exact end_close H.hz.n1000 x0 hD (L1.nv.trans (by norm_num)) eB (by norm_num)
    · rw [prepMarks_eq]; exact L1.b trivial
    · rw [prepMarks_eq]; exact di0
    · rw [prepMarks_eq]; exact di1
    · rw [prepMarks_eq]; exact an0
    · rw [prepMarks_eq]; exact an1

/-! Two kilometres over a ridge, antennas of 10 m, in every rounding arithmetic: a ridge of 50 m obstructs the path, without a ridge it is clear. -/

/-- The path. -/
def ridgePath (p : PropSt α) (h : ℤ) : PropSt α :=
  { p with pfl := { np := 2, xi := PyNum.ofInt 1000, z := [PyNum.ofInt 0, PyNum.ofInt h, PyNum.ofInt 0] }, hg := ⟨PyNum.ofInt 10, PyNum.ofInt 10⟩, gme := 1.57e-7 }

theorem ridge_gme (R : Rounding α) : R.fin (1.57e-7 : α) ∧ 1.5e-7 ≤ R.val (1.57e-7 : α) ∧ R.val (1.57e-7 : α) ≤ 1.6e-7 := by
  have g := Near.lit R (m := 157) (s := true) (k := 9) (M := 1.6e-7) (g := 1e-15) (by norm_num [abs_of_nonneg]) (by norm_num) (by norm_num)
  have ge := abs_le.1 g.err
  refine ⟨g.fin, ?_, ?_⟩ <;> norm_num at ge ⊢ <;> linarith

theorem ridge_vals (R : Rounding α) (h : ℤ) (h0 : 0 ≤ h) (h1 : h ≤ 100) :
    ((R.fin (PyNum.ofInt h : α) ∧ R.val (PyNum.ofInt h : α) = h) ∧ (R.fin (PyNum.ofInt 0 : α) ∧ R.val (PyNum.ofInt 0 : α) = 0)) ∧
    (R.fin (PyNum.ofInt 10 : α) ∧ R.val (PyNum.ofInt 10 : α) = 10) ∧ (R.fin (PyNum.ofInt 1000 : α) ∧ R.val (PyNum.ofInt 1000 : α) = 1000) := by
  refine ⟨⟨val_int R h (by rw [abs_of_nonneg h0]; omega), ?_⟩, ?_, ?_⟩
  · have := val_int R (α := α) 0 (by norm_num); simpa using this
  · have := val_int R (α := α) 10 (by norm_num); simpa using this
  · have := val_int R (α := α) 1000 (by norm_num); simpa using this

theorem ridge_sized (R : Rounding α) (p : PropSt α) (h : ℤ) (h0 : 0 ≤ h) (h1 : h ≤ 100) : SizedPath R (ridgePath p h) 2 := by
  obtain ⟨⟨ah, a0⟩, a10, a1000⟩ := ridge_vals R (α := α) h h0 h1
  obtain ⟨g1, g2, g3⟩ := ridge_gme R (α := α)
  have h0' : (0 : ℝ) ≤ h := by exact_mod_cast h0
  have h1' : (h : ℝ) ≤ 100 := by exact_mod_cast h1
  have hj : ∀ j : ℕ, 1 ≤ j → j < 2 → j = 1 := by omega
  refine ⟨rfl, ?_, a10.1, a10.1, ?_, ?_, ?_, ?_, g1, ?_⟩
  · have hza : ((ridgePath p h).pfl.z.map R.val).getD 0 0 + R.val (ridgePath p h).hg.x0 = 10 := by
      change R.val (PyNum.ofInt 0 : α) + R.val (PyNum.ofInt 10 : α) = 10
      rw [a0.2, a10.2]; norm_num
    have hzb : ((ridgePath p h).pfl.z.map R.val).getD 2 0 + R.val (ridgePath p h).hg.x1 = 10 := by
      change R.val (PyNum.ofInt 0 : α) + R.val (PyNum.ofInt 10 : α) = 10
      rw [a0.2, a10.2]; norm_num
    rw [hza, hzb]
    have hv : (valPfl R (ridgePath p h).pfl).h 1 = h := ah.2
    have hx : R.val (ridgePath p h).pfl.xi = 1000 := a1000.2
    constructor
    · norm_num
    · norm_num
    · simp [ridgePath]
    · exact a1000.1
    · rw [hx]; norm_num
    · rw [hx]; norm_num
    · change |R.val (1.57e-7 : α)| ≤ 2.5e-7
      rw [abs_le]; constructor <;> norm_num at * <;> linarith
    · norm_num
    · norm_num
    · intro a ha
      simp only [ridgePath, List.mem_cons, List.not_mem_nil, or_false] at ha
      rcases ha with rfl | rfl | rfl
      · rw [a0.2]; exact ⟨a0.1, by norm_num⟩
      · rw [ah.2]; exact ⟨ah.1, by rw [abs_of_nonneg h0']; norm_num; linarith⟩
      · rw [a0.2]; exact ⟨a0.1, by norm_num⟩
    · intro j j1 j2
      rw [hj j j1 j2, hv, hx, abs_le]; constructor <;> norm_num <;> linarith
    · intro j j1 j2
      rw [hj j j1 j2, hv, hx, abs_le]; constructor <;> norm_num <;> linarith
    · rw [hx]; norm_num
  · change 0.5 ≤ R.val (PyNum.ofInt 10 : α); rw [a10.2]; norm_num
  · change 0.5 ≤ R.val (PyNum.ofInt 10 : α); rw [a10.2]; norm_num
  · change R.val (PyNum.ofInt 10 : α) ≤ 1e4; rw [a10.2]; norm_num
  · change R.val (PyNum.ofInt 10 : α) ≤ 1e4; rw [a10.2]; norm_num
  · change 1e-8 ≤ R.val (1.57e-7 : α); norm_num at g2 ⊢; linarith

theorem ridge_val (R : Rounding α) (p : PropSt α) (h : ℤ) (h0 : 0 ≤ h) (h1 : h ≤ 100) :
    (valPath R (ridgePath p h) 2).ξ = 1000 ∧ (valPath R (ridgePath p h) 2).hg₀ = 10 ∧ (valPath R (ridgePath p h) 2).hg₁ = 10 ∧
    (valPath R (ridgePath p h) 2).z 0 = 0 ∧ (valPath R (ridgePath p h) 2).z 1 = h ∧ (valPath R (ridgePath p h) 2).z 2 = 0 ∧
    1.5e-7 ≤ (valPath R (ridgePath p h) 2).κ ∧ (valPath R (ridgePath p h) 2).κ ≤ 1.6e-7 := by
  obtain ⟨⟨ah, a0⟩, a10, a1000⟩ := ridge_vals R (α := α) h h0 h1
  obtain ⟨g1, g2, g3⟩ := ridge_gme R (α := α)
  exact ⟨a1000.2, a10.2, a10.2, a0.2, ah.2, a0.2, g2, g3⟩

/-- the path over the ridge of 50 m: obstructed -/
example (R : Rounding α) (p : PropSt α) : ∃ q, qlrpflPrep (ridgePath p 50) = .ok q ∧ |R.val q.dl.x0 - 1000| ≤ 1e-11 * 1000 ∧ |R.val q.dl.x1 - 1000| ≤ 1e-8 * 1000 := by
  obtain ⟨b1, b2, b3, b4, b5, b6, b7, b8⟩ := ridge_val R p 50 (by norm_num) (by norm_num)
  have one : ∀ j : ℕ, 1 ≤ j → j ≤ 2 - 1 → j = 1 := by omega
  have len : (valPath R (ridgePath p 50) 2).len = 2000 := by
    change ((2 : ℕ) : ℝ) * (valPath R (ridgePath p 50) 2).ξ = 2000
    rw [b1]; norm_num
  have nn : (valPath R (ridgePath p 50) 2).n = 2 := rfl
  have H : (valPath R (ridgePath p 50) 2).Horizons (40 / 1000 - (valPath R (ridgePath p 50) 2).κ / 2 * 1000) (40 / 1000 - (valPath R (ridgePath p 50) 2).κ / 2 * 1000) 1000 1000 := by
    refine ⟨⟨?_, ?_, Or.inr ⟨1, le_rfl, by rw [nn], ?_, ?_, ?_, ?_⟩⟩, ⟨?_, ?_, Or.inr ⟨1, le_rfl, by rw [nn], ?_, ?_, ?_, ?_⟩⟩⟩
    all_goals try rw [len]
    all_goals try rw [nn]
    all_goals try intro j j1 j2
    all_goals try rw [one j j1 j2]
    all_goals simp only [b1, b2, b3, b4, b5, b6, elevation]
    all_goals norm_num at b7 b8 ⊢
    all_goals first | linarith | omega
  obtain ⟨q, e, ⟨x, y, -, -, -, -, o⟩, -⟩ := C93_geometry R (ridge_sized R p 50 (by norm_num) (by norm_num)) H (by
    refine ⟨⟨fun _ => ?_, fun j j1 j2 hj => absurd ?_ hj⟩, ⟨fun _ => ?_, fun j j1 j2 hj => absurd ?_ hj⟩⟩
    all_goals try rw [one j j1 j2]
    all_goals try rw [len]
    all_goals try rw [nn]
    all_goals simp only [b1, b2, b3, b4, b5, b6, elevation]
    all_goals norm_num at b7 b8 ⊢
    all_goals linarith)
  have obst : ¬ (valPath R (ridgePath p 50) 2).Clear := by
    intro c
    have := c 1 le_rfl (by rw [nn]; norm_num)
    rw [nn] at this
    simp only [b1, b2, b3, b4, b5, b6] at this
    norm_num at this b7 b8
    linarith
  exact ⟨q, e, (o obst).2.2.1, (o obst).2.2.2.1⟩

/-- the path without the ridge: clear -/
example (R : Rounding α) (p : PropSt α) : ∃ q, qlrpflPrep (ridgePath p 0) = .ok q ∧ (1 - 2e-11) * 2000 ≤ R.val q.dl.x0 + R.val q.dl.x1 := by
  obtain ⟨b1, b2, b3, b4, b5, b6, b7, b8⟩ := ridge_val R p 0 (by norm_num) (by norm_num)
  have one : ∀ j : ℕ, 1 ≤ j → j ≤ 2 - 1 → j = 1 := by omega
  have len : (valPath R (ridgePath p 0) 2).len = 2000 := by
    change ((2 : ℕ) : ℝ) * (valPath R (ridgePath p 0) 2).ξ = 2000
    rw [b1]; norm_num
  have nn : (valPath R (ridgePath p 0) 2).n = 2 := rfl
  have clear : (valPath R (ridgePath p 0) 2).Clear := by
    intro j j1 j2
    rw [one j j1 (by rw [nn] at j2; omega), nn]
    simp only [b1, b2, b3, b4, b5, b6]
    norm_num at b7 b8 ⊢
    linarith
  obtain ⟨q, e, -, o⟩ := C93_geometry R (ridge_sized R p 0 (by norm_num) (by norm_num))
    ((clear_horizons (P := valPath R (ridgePath p 0) 2) (by rw [b1]; norm_num) clear).2 ⟨rfl, rfl, rfl, rfl⟩) (by
    refine ⟨⟨fun k => absurd rfl k, fun j j1 j2 _ => ?_⟩, ⟨fun k => absurd rfl k, fun j j1 j2 _ => ?_⟩⟩
    all_goals rw [one j j1 j2]
    all_goals try rw [len]
    all_goals try rw [nn]
    all_goals simp only [b1, b2, b3, b4, b5, b6, elevation]
    all_goals norm_num at b7 b8 ⊢
    all_goals linarith)
  have := o clear
  rw [len] at this
  exact ⟨q, e, this⟩

end Itm.Props
