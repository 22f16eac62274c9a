import Verif.Lemmas.PflRound
import Verif.Spec.NearPath
import Verif.Lemmas.PathSym
import Verif.Props.C39

/-! The path preparation, with rounding. -/

namespace Itm
open Itm.Spec Itm.Props
variable {α : Type} [PyNum α]

/-- A path of ordinary size: as in `HzSized`, with antennas of half a metre to ten kilometres and an earth bent towards the sphere. -/
structure SizedPath (R : Rounding α) (p : PropSt α) (n : ℕ) : Prop where
  np : p.pfl.np = n
  hz : HzSized R p.pfl n (R.val p.gme) ((p.pfl.z.map R.val).getD 0 0 + R.val p.hg.x0) ((p.pfl.z.map R.val).getD n 0 + R.val p.hg.x1)
  f0 : R.fin p.hg.x0
  f1 : R.fin p.hg.x1
  a0 : 0.5 ≤ R.val p.hg.x0
  a1 : 0.5 ≤ R.val p.hg.x1
  b0 : R.val p.hg.x0 ≤ 1e4
  b1 : R.val p.hg.x1 ≤ 1e4
  fk : R.fin p.gme
  k1 : 1e-8 ≤ R.val p.gme

theorem pyMin_val {R : Rounding α} {a b : α} (ha : R.fin a) (hb : R.fin b) : R.fin (pyMin a b) ∧ R.val (pyMin a b) = min (R.val a) (R.val b) := by
  unfold pyMin
  split_ifs with h
  · rw [R.lt b a hb ha] at h; exact ⟨hb, (min_eq_right h.le).symm⟩
  · rw [R.lt b a hb ha] at h; exact ⟨ha, (min_eq_left (not_lt.1 h)).symm⟩

theorem RL.min {R : Rounding α} {a b : α} {x y r : ℝ} (ha : RL R a x r) (hb : RL R b y r) (hr : r ≤ 1) : RL R (pyMin a b) (min x y) r := by
  obtain ⟨f, v⟩ := pyMin_val ha.fin hb.fin
  refine ⟨f, ?_, le_min ha.lo hb.lo, (min_le_left _ _).trans ha.hi⟩
  have h1 := ha.ge
  have h2 := ha.le
  have h3 := hb.ge
  have h4 := hb.le
  have m1 : Min.min x y ≤ x := min_le_left _ _
  have m2 : Min.min x y ≤ y := min_le_right _ _
  have e1 := mul_le_mul_of_nonneg_left m1 (by linarith : 0 ≤ 1 - r)
  have e2 := mul_le_mul_of_nonneg_left m2 (by linarith : 0 ≤ 1 - r)
  have lo : (1 - r) * Min.min x y ≤ R.val (pyMin a b) := by rw [v]; exact le_min (by linarith) (by linarith)
  have hi : R.val (pyMin a b) ≤ (1 + r) * Min.min x y := by
    rw [v]
    rcases le_total x y with h | h
    · rw [min_eq_left h]; exact (min_le_left _ _).trans h2
    · rw [min_eq_right h]; exact (min_le_right _ _).trans h4
  rw [abs_le]
  constructor <;> linarith

/-- The end of the immediate surroundings of an antenna. -/
theorem fore_round (R : Rounding α) {hg dl : α} (fh : R.fin hg) (h1 : 0.5 ≤ R.val hg) (h2 : R.val hg ≤ 1e4) (fd : R.fin dl) (d1 : 0.99 ≤ R.val dl)
    (d2 : R.val dl ≤ 4.1e6) : RL R (pyMin (15.0 * hg) (0.1 * dl)) (min (15 * R.val hg) (0.1 * R.val dl)) 4.6e-15 := by
  have n15 : RL R (15.0 : α) 15 1.5e-15 := by
    have := RL.lit R (m := 150) (s := true) (k := 1) (by norm_num) (by norm_num)
    rwa [show (OfScientific.ofScientific 150 true 1 : ℝ) = 15 by norm_num] at this
  have n01 : RL R (0.1 : α) 0.1 1.5e-15 := RL.lit R (by norm_num) (by norm_num)
  have nh : RL R hg (R.val hg) 0 := RL.self fh (by norm_num at h1 ⊢; linarith) (by norm_num at h2 ⊢; linarith)
  have nd : RL R dl (R.val dl) 0 := RL.self fd (by norm_num at d1 ⊢; linarith) (by norm_num at d2 ⊢; linarith)
  exact (n15.mul nh (t := 4.6e-15) (by norm_num) (by norm_num) (by norm_num at h1 ⊢; linarith) (by norm_num at h2 ⊢; linarith) (by norm_num)).min
    (n01.mul nd (t := 4.6e-15) (by norm_num) (by norm_num) (by norm_num at d1 ⊢; linarith) (by norm_num at d2 ⊢; linarith) (by norm_num)) (by norm_num)

theorem near_dl {view pos : ℕ → ℝ} {far full ε η θ d ξ : ℝ} {m : ℕ} (h : NearHorizon view far pos full m ε η θ d) (hη : η ≤ 1e-8) (hξ : 0 < ξ)
    (hf : ξ ≤ full) (hp : ∀ j, 1 ≤ j → j ≤ m → ξ ≤ pos j ∧ pos j ≤ full) : (1 - 1e-8) * ξ ≤ d ∧ d ≤ (1 + 1e-8) * full := by
  have key : ∀ x, ξ ≤ x → x ≤ full → |d - x| ≤ η * x → (1 - 1e-8) * ξ ≤ d ∧ d ≤ (1 + 1e-8) * full := by
    intro x h1 h2 h3
    have h4 := mul_le_mul_of_nonneg_right hη (by linarith : 0 ≤ x)
    have h5 := abs_le.1 h3
    constructor
    · norm_num at *; linarith
    · norm_num at *; linarith
  rcases h.attained with ⟨-, e⟩ | ⟨j, j1, j2, -, e⟩
  · exact key _ hf le_rfl e
  · exact key _ (hp j j1 j2).1 (hp j j1 j2).2 e

theorem dist_round (R : Rounding α) {n : ℕ} {xi : α} (n1 : 1 ≤ n) (n2 : n ≤ 1000) (fx : R.fin xi) (x1 : 1 ≤ R.val xi) (span : n * R.val xi ≤ 4e6) :
    Near R (PyNum.ofInt (n : ℤ) * xi) (n * R.val xi) (2e-15 * (n * R.val xi)) := by
  obtain ⟨fn, vn⟩ := val_nat R (α := α) n (by omega)
  have h1 : (1 : ℝ) ≤ n := by exact_mod_cast n1
  have h2 : (n : ℝ) ≤ 1000 := by exact_mod_cast n2
  have x2 : R.val xi ≤ n * R.val xi := le_mul_of_one_le_left (by linarith) h1
  have nn : RL R (PyNum.ofInt (n : ℤ) : α) n 0 := RL.of_eq fn vn (by norm_num; linarith) (by norm_num; linarith)
  have nx : RL R xi (R.val xi) 0 := RL.self fx (by norm_num; linarith) (by norm_num at *; linarith)
  have := nn.mul nx (t := 2e-15) (by norm_num) (by norm_num) (by norm_num at *; linarith) (by norm_num at *; linarith) (by norm_num)
  exact ⟨this.fin, this.err⟩

/-- Distance from the first terminal to the end of the surroundings of each antenna. -/
def foreA (p : PropSt α) (dl : Pair α) : α := pyMin (15.0 * p.hg.x0) (0.1 * dl.x0)
def foreB (p : PropSt α) (dl : Pair α) : α := PyNum.ofInt p.pfl.np * p.pfl.xi - pyMin (15.0 * p.hg.x1) (0.1 * dl.x1)

/-- The horizons and the irregularity found by the preparation. -/
structure PrepCore (R : Rounding α) (p : PropSt α) (n : ℕ) (the dl : Pair α) (dh : α) : Prop where
  dist : Near R (PyNum.ofInt p.pfl.np * p.pfl.xi) (n * R.val p.pfl.xi) (2e-15 * (n * R.val p.pfl.xi))
  hz : hzns p.pfl (PyNum.ofInt p.pfl.np * p.pfl.xi) p.hg p.gme = .ok (the, dl)
  ft0 : R.fin the.x0
  ft1 : R.fin the.x1
  fd0 : R.fin dl.x0
  fd1 : R.fin dl.x1
  a : NearHorizon (fun j => elevation (R.val p.gme) ((p.pfl.z.map R.val).getD 0 0 + R.val p.hg.x0) (j * R.val p.pfl.xi) ((p.pfl.z.map R.val).getD j 0))
        (elevation (R.val p.gme) ((p.pfl.z.map R.val).getD 0 0 + R.val p.hg.x0) (n * R.val p.pfl.xi) ((p.pfl.z.map R.val).getD n 0 + R.val p.hg.x1))
        (fun j => j * R.val p.pfl.xi) (n * R.val p.pfl.xi) (n - 1) 2e-10 1e-11 (R.val the.x0) (R.val dl.x0)
  b : NearHorizon (fun j => elevation (R.val p.gme) ((p.pfl.z.map R.val).getD n 0 + R.val p.hg.x1) (((n : ℝ) - j) * R.val p.pfl.xi) ((p.pfl.z.map R.val).getD j 0))
        (elevation (R.val p.gme) ((p.pfl.z.map R.val).getD n 0 + R.val p.hg.x1) (n * R.val p.pfl.xi) ((p.pfl.z.map R.val).getD 0 0 + R.val p.hg.x0))
        (fun j => ((n : ℝ) - j) * R.val p.pfl.xi) (n * R.val p.pfl.xi) (n - 1) 2e-8 1e-8 (R.val the.x1) (R.val dl.x1)
  d0 : (1 - 1e-8) * R.val p.pfl.xi ≤ R.val dl.x0 ∧ R.val dl.x0 ≤ (1 + 1e-8) * (n * R.val p.pfl.xi)
  d1 : (1 - 1e-8) * R.val p.pfl.xi ≤ R.val dl.x1 ∧ R.val dl.x1 ≤ (1 + 1e-8) * (n * R.val p.pfl.xi)
  wA : Near R (foreA p dl) (min (15 * R.val p.hg.x0) (0.1 * R.val dl.x0)) (5e-15 * (n * R.val p.pfl.xi))
  wA1 : R.val (foreA p dl) ≤ 0.101 * R.val dl.x0
  wB : Near R (foreB p dl) (n * R.val p.pfl.xi - min (15 * R.val p.hg.x1) (0.1 * R.val dl.x1)) (5e-15 * (n * R.val p.pfl.xi))
  wB1 : n * R.val p.pfl.xi - 0.101 * R.val dl.x1 ≤ R.val (foreB p dl) + 1e-14 * (n * R.val p.pfl.xi)
  win : SizedWindow R p.pfl n (foreA p dl) (foreB p dl)
  gap : R.val (foreA p dl) / R.val p.pfl.xi + 1e-10 ≤ R.val (foreB p dl) / R.val p.pfl.xi
  irr : dlthx p.pfl (foreA p dl) (foreB p dl) = .ok dh
  fdh : R.fin dh
  dh0 : 0 ≤ R.val dh
  dh1 : R.val dh ≤ 3.1e5
  desc : (R.val dh = 0 ∧ R.val (foreB p dl) / R.val p.pfl.xi - R.val (foreA p dl) / R.val p.pfl.xi < 2 + 1e-11) ∨
    ∃ u v ω : ℝ, 0 ≤ u ∧ v ≤ n ∧ 2 ≤ v - u ∧ |u - R.val (foreA p dl) / R.val p.pfl.xi| ≤ 1e-11 ∧ |v - R.val (foreB p dl) / R.val p.pfl.xi| ≤ 2e-11 ∧
      IsIrregularity (fun j => (p.pfl.z.map R.val).getD j 0) u v (R.val (foreB p dl) - R.val (foreA p dl)) ω ∧ |R.val dh - ω| ≤ 1.5e-4

set_option maxHeartbeats 1000000 in
theorem prep_core (R : Rounding α) {p : PropSt α} {n : ℕ} (H : SizedPath R p n) : ∃ (the dl : Pair α) (dh : α), PrepCore R p n the dl dh := by
  obtain ⟨hnp, hz, f0, f1, a0, a1, b0, b1, fk, k1⟩ := H
  have nd := dist_round R hz.n1 hz.n1000 hz.fxi hz.xi1 hz.span
  rw [← hnp] at nd
  obtain ⟨ta, tb, da, db, eh, ⟨ft0, ft1, fd0, fd1⟩, ha, hb⟩ := C83_horizons R hnp f0 f1 (by rw [abs_of_nonneg (by norm_num at a0; linarith)]; exact b0)
    (by rw [abs_of_nonneg (by norm_num at a1; linarith)]; exact b1) fk hz nd.fin nd.err
  have n1 : (1 : ℝ) ≤ n := by exact_mod_cast hz.n1
  have n2 : (n : ℝ) ≤ 1000 := by exact_mod_cast hz.n1000
  have x1 := hz.xi1
  have span := hz.span
  have x0 : 0 < R.val p.pfl.xi := by linarith
  have xD : R.val p.pfl.xi ≤ n * R.val p.pfl.xi := le_mul_of_one_le_left (by linarith) n1
  have d0 := near_dl ha (by norm_num) x0 xD (by
    intro j j1 j2
    have j1' : (1 : ℝ) ≤ j := by exact_mod_cast j1
    have j2' : (j : ℝ) ≤ n := by exact_mod_cast (by omega : j ≤ n)
    exact ⟨le_mul_of_one_le_left (by linarith) j1', mul_le_mul_of_nonneg_right j2' (by linarith)⟩)
  have d1 := near_dl hb (by norm_num) x0 xD (by
    intro j j1 j2
    have n1' := hz.n1
    have j1' : (0 : ℝ) ≤ j := Nat.cast_nonneg j
    have j2' : (j : ℝ) + 1 ≤ n := by exact_mod_cast (by omega : j + 1 ≤ n)
    exact ⟨le_mul_of_one_le_left (by linarith) (by linarith), mul_le_mul_of_nonneg_right (by linarith) (by linarith)⟩)
  have hi : ∀ {d : ℝ}, d ≤ (1 + 1e-8) * (n * R.val p.pfl.xi) → d ≤ 4.1e6 := by
    intro d h; clear * - h span; norm_num at *; linarith
  have lo : ∀ {d : ℝ}, (1 - 1e-8) * R.val p.pfl.xi ≤ d → 0.99 ≤ d := by
    intro d h; clear * - h x1; norm_num at *; linarith
  have m0 := fore_round R f0 a0 b0 fd0 (lo d0.1) (hi d0.2)
  have m1 := fore_round R f1 a1 b1 fd1 (lo d1.1) (hi d1.2)
  obtain ⟨D, hD⟩ : ∃ D, D = n * R.val p.pfl.xi := ⟨_, rfl⟩
  have i0 : min (15 * R.val p.hg.x0) (0.1 * R.val da) ≤ 0.1 * R.val da := min_le_right _ _
  have i1 : min (15 * R.val p.hg.x1) (0.1 * R.val db) ≤ 0.1 * R.val db := min_le_right _ _
  have j0 : 0.09 ≤ min (15 * R.val p.hg.x0) (0.1 * R.val da) := by
    refine le_min ?_ ?_
    · clear * - a0; norm_num at *; linarith
    · have := lo d0.1; clear * - this; norm_num at *; linarith
  have j1 : 0.09 ≤ min (15 * R.val p.hg.x1) (0.1 * R.val db) := by
    refine le_min ?_ ?_
    · clear * - a1; norm_num at *; linarith
    · have := lo d1.1; clear * - this; norm_num at *; linarith
  obtain ⟨M0, hM0⟩ : ∃ M, M = min (15 * R.val p.hg.x0) (0.1 * R.val da) := ⟨_, rfl⟩
  obtain ⟨M1, hM1⟩ : ∃ M, M = min (15 * R.val p.hg.x1) (0.1 * R.val db) := ⟨_, rfl⟩
  rw [← hM0] at m0 i0 j0
  rw [← hM1] at m1 i1 j1
  have D1 : 1 ≤ D := by linarith
  have D2 : D ≤ 4e6 := by linarith
  have d0' := d0
  have d1' := d1
  rw [← hD] at d0' d1'
  have nA : Near R (foreA p ⟨da, db⟩) M0 (5e-15 * D) := by
    refine ⟨m0.fin, m0.err.trans ?_⟩
    clear * - i0 d0' D1; norm_num at *; linarith
  have wA1 : R.val (foreA p ⟨da, db⟩) ≤ 0.101 * R.val da := by
    refine m0.le.trans ?_
    have := lo d0.1
    clear * - this i0; norm_num at *; linarith
  have nm1 : Near R (pyMin (15.0 * p.hg.x1) (0.1 * db)) M1 (6e-16 * D) := by
    refine ⟨m1.fin, m1.err.trans ?_⟩
    clear * - i1 d1' D1; norm_num at *; linarith
  have nB : Near R (foreB p ⟨da, db⟩) (D - M1) (5e-15 * D) := by
    have nd' : Near R (PyNum.ofInt p.pfl.np * p.pfl.xi) D (2e-15 * D) := by rw [hD]; exact nd
    have P0 : 0 ≤ D - M1 := by clear * - i1 d1' D1; norm_num at *; linarith
    refine nd'.sub nm1 (M := 1.1 * D) ?_ ?_ ?_
    · rw [abs_of_nonneg P0]; clear * - j1 D1; norm_num at *; linarith
    · clear * - D2; norm_num at *; linarith
    · clear * - D1; norm_num at *; linarith
  have bA := abs_le.1 nA.err
  have bB := abs_le.1 nB.err
  have wB1 : D - 0.101 * R.val db ≤ R.val (foreB p ⟨da, db⟩) + 1e-14 * D := by
    have := lo d1.1
    clear * - this bB i1 D1; norm_num at *; linarith
  have W : SizedWindow R p.pfl n (foreA p ⟨da, db⟩) (foreB p ⟨da, db⟩) := by
    refine ⟨hnp, hz.n1000, hz.len, hz.fz, hz.fxi, x0, nA.fin, nB.fin, ?_, ?_, ?_, ?_⟩
    · have := m0.val_pos (by norm_num)
      exact this.le
    · clear * - bA bB i0 i1 d0' d1' D1; norm_num at *; linarith
    · rw [← hD]; clear * - bB j1 D2; norm_num at *; linarith
    · clear * - bB j1 D2 D1; norm_num at *; linarith
  have G : R.val (foreA p ⟨da, db⟩) / R.val p.pfl.xi + 1e-10 ≤ R.val (foreB p ⟨da, db⟩) / R.val p.pfl.xi := by
    rw [div_add' _ _ _ x0.ne', div_le_div_iff_of_pos_right x0]
    have : R.val p.pfl.xi ≤ D := by rw [hD]; exact xD
    clear * - bA bB i0 i1 d0' d1' D1 this; norm_num at *; linarith
  have main : ∃ dh : α, dlthx p.pfl (foreA p ⟨da, db⟩) (foreB p ⟨da, db⟩) = .ok dh ∧ R.fin dh ∧ 0 ≤ R.val dh ∧ R.val dh ≤ 3.1e5 ∧
      ((R.val dh = 0 ∧ R.val (foreB p ⟨da, db⟩) / R.val p.pfl.xi - R.val (foreA p ⟨da, db⟩) / R.val p.pfl.xi < 2 + 1e-11) ∨
      ∃ u v ω : ℝ, 0 ≤ u ∧ v ≤ n ∧ 2 ≤ v - u ∧ |u - R.val (foreA p ⟨da, db⟩) / R.val p.pfl.xi| ≤ 1e-11 ∧ |v - R.val (foreB p ⟨da, db⟩) / R.val p.pfl.xi| ≤ 2e-11 ∧
        IsIrregularity (fun j => (p.pfl.z.map R.val).getD j 0) u v (R.val (foreB p ⟨da, db⟩) - R.val (foreA p ⟨da, db⟩)) ω ∧ |R.val dh - ω| ≤ 1.5e-4) := by
    rcases dlthx_round_at R W.np W.few W.len W.heights W.fin_xi W.pos_xi W.fin1 W.fin2 W.nonneg W.le W.inside W.short (T := fun _ _ => True)
      (fun u0 v0 t' h2 a b c d _ _ => by
        obtain ⟨u, v, h⟩ := window_choice h2 a b c d
        exact ⟨u, v, trivial, h⟩) with ⟨e, g⟩ | ⟨u, v, ω, w, -, a1, a2, a3, a4, a5, a6, a7, a8, a10, a11, a9⟩
    · obtain ⟨z1, z2⟩ := fin_zero R
      exact ⟨_, e, z1, z2.ge, by rw [z2]; norm_num, Or.inl ⟨z2, g⟩⟩
    · refine ⟨w, a6, a8.fin, a10, ?_, Or.inr ⟨u, v, ω, a1, a2, a3, a4, a5, a7, a8.err⟩⟩
      have := (abs_le.1 a8.err).2
      have := (abs_le.1 a11).2
      clear * - this a8
      have := (abs_le.1 a8.err).2
      norm_num at *; linarith
  obtain ⟨dh, e, fdh, dh0, dh1, desc⟩ := main
  subst hD hM0 hM1
  exact ⟨⟨ta, tb⟩, ⟨da, db⟩, dh, nd, eh, ft0, ft1, fd0, fd1, ha, hb, d0, d1, nA, wA1, nB, wB1, W, G, e, fdh, dh0, dh1, desc⟩

theorem get_first (R : Rounding α) {p : Pfl α} {n : ℕ} (hl : n < p.z.length) (hz : ∀ a ∈ p.z, R.fin a ∧ |R.val a| ≤ 1e4) :
    ∃ z, p.get 2 = .ok z ∧ R.fin z ∧ |R.val z| ≤ 1e4 ∧ R.val z = (p.z.map R.val).getD 0 0 := by
  have h0 : 0 < p.z.length := by omega
  refine ⟨p.z[0], ?_, (hz _ (List.getElem_mem _)).1, (hz _ (List.getElem_mem _)).2, ?_⟩
  · have := pfl_get h0
    rw [← this]; congr 1
  · exact (valPfl_h R h0).symm

theorem get_at (R : Rounding α) {p : Pfl α} {n j : ℕ} {i : ℤ} (hl : n < p.z.length) (hz : ∀ a ∈ p.z, R.fin a ∧ |R.val a| ≤ 1e4) (hj : j ≤ n) (hi : i = j + 2) :
    ∃ z, p.get i = .ok z ∧ R.fin z ∧ |R.val z| ≤ 1e4 ∧ R.val z = (p.z.map R.val).getD j 0 := by
  have h0 : j < p.z.length := by omega
  refine ⟨p.z[j], ?_, (hz _ (List.getElem_mem _)).1, (hz _ (List.getElem_mem _)).2, ?_⟩
  · have := pfl_get h0
    rw [hi, ← this]
  · exact (valPfl_h R h0).symm

/-- What `pflLos` returns. -/
structure LosRound (R : Rounding α) (p : PropSt α) (n : ℕ) (xl : Pair α) (e0 e1 d0 d1 t0 t1 : α) (u v c s h0 h1 : ℝ) : Prop where
  u0 : 0 ≤ u
  vn : v ≤ n
  uv : u < v
  nu : |u - R.val xl.x0 / R.val p.pfl.xi| ≤ 1e-11
  nv : |v - R.val xl.x1 / R.val p.pfl.xi| ≤ 1e-11
  line : BestLine (fun j => (p.pfl.z.map R.val).getD j 0) ⌊u⌋₊ (⌈v⌉₊ - ⌊u⌋₊) c s
  n0 : |h0 - (R.val p.hg.x0 + max ((p.pfl.z.map R.val).getD 0 0 - c) 0)| ≤ 1e-6
  n1 : |h1 - (R.val p.hg.x1 + max ((p.pfl.z.map R.val).getD (n - 1) 0 - (c + s * n)) 0)| ≤ 1e-6
  g0 : R.val p.hg.x0 ≤ h0
  g1 : R.val p.hg.x1 ≤ h1
  b0 : h0 ≤ 4e7
  b1 : h1 ≤ 4e7
  s0 : EstSized R e0 p.gme p.dh
  s1 : EstSized R e1 p.gme p.dh
  r0 : RL R e0 (h0 * raised (R.val p.gme) (R.val p.dh) (R.val p.dist) h0 h1) 9e-13
  r1 : RL R e1 (h1 * raised (R.val p.gme) (R.val p.dh) (R.val p.dist) h0 h1) 9e-13
  l0 : h0 ≤ R.val e0
  l1 : h1 ≤ R.val e1
  m0 : RL R d0 (roughHorizon (R.val p.gme) (R.val p.dh) (R.val e0)) 2e-13
  m1 : RL R d1 (roughHorizon (R.val p.gme) (R.val p.dh) (R.val e1)) 2e-13
  a0 : Near R t0 (roughAngle (R.val p.gme) (R.val p.dh) (R.val e0))
      (3e-13 * (0.65 * R.val p.dh / roughHorizon (R.val p.gme) (R.val p.dh) (R.val e0) + 2 * R.val e0 / smoothReach (R.val p.gme) (R.val e0)))
  a1 : Near R t1 (roughAngle (R.val p.gme) (R.val p.dh) (R.val e1))
      (3e-13 * (0.65 * R.val p.dh / roughHorizon (R.val p.gme) (R.val p.dh) (R.val e1) + 2 * R.val e1 / smoothReach (R.val p.gme) (R.val e1)))
  reach : R.val p.dist * (1 - 1e-11) ≤ R.val d0 + R.val d1

theorem pflLos_round (R : Rounding α) {p : PropSt α} {n : ℕ} {xl : Pair α} (H : LosSized R p) (n1 : 1 ≤ n) (W : SizedWindow R p.pfl n xl.x0 xl.x1)
    (g : R.val xl.x0 / R.val p.pfl.xi + 1e-10 ≤ R.val xl.x1 / R.val p.pfl.xi) :
    ∃ (e0 e1 d0 d1 t0 t1 : α) (u v c s h0 h1 : ℝ), pflLos p xl = .ok { p with he := ⟨e0, e1⟩, dl := ⟨d0, d1⟩, the := ⟨t0, t1⟩ } ∧
      LosRound R p n xl e0 e1 d0 d1 t0 t1 u v c s h0 h1 := by
  obtain ⟨u, v, c, s, za, zb, u0, vn, uv, nu, nv, ez, line, na, nb, bc, bn⟩ := line_round R W g
  obtain ⟨z0, gz0, fz0, bz0, vz0⟩ := get_first R W.len W.heights
  obtain ⟨z1, gz1, fz1, bz1, vz1⟩ := get_at R (j := n - 1) (i := p.pfl.np + 1) W.len W.heights (by omega) (by rw [W.np]; omega)
  obtain ⟨k0, i0, j0⟩ := he_round R H.f0 H.a0 H.b0 fz0 bz0 na bc
  obtain ⟨k1, i1, j1⟩ := he_round R H.f1 H.a1 H.b1 fz1 bz1 nb bn
  have E0 : EstSized R (p.hg.x0 + pyMax (z0 - za) 0.0) p.gme p.dh :=
    ⟨k0.fin, H.fk, H.fd, H.a0.trans i0, j0.trans (by norm_num), H.k1, H.k2, H.d1, H.d2⟩
  have E1 : EstSized R (p.hg.x1 + pyMax (z1 - zb) 0.0) p.gme p.dh :=
    ⟨k1.fin, H.fk, H.fd, H.a1.trans i1, j1.trans (by norm_num), H.k1, H.k2, H.d1, H.d2⟩
  obtain ⟨e0, e1, d0, d1, er, s0, s1, r0, r1, m0, m1, l0, l1, rc⟩ := raising_round R H E0 E1 j0 j1
  obtain ⟨t0, et0, a0⟩ := pflThe_round R s0 m0
  obtain ⟨t1, et1, a1⟩ := pflThe_round R s1 m1
  refine ⟨e0, e1, d0, d1, t0, t1, u, v, c, s, _, _, ?_, u0, vn, uv, nu, nv, line, by rw [← vz0]; exact k0.err, by rw [← vz1]; exact k1.err, i0, i1, j0, j1,
    s0, s1, r0, r1, l0, l1, m0, m1, a0, a1, rc⟩
  have : pflLos p xl = (do
      let (za, zb) ← zlsq1 p.pfl xl.x0 xl.x1
      let z0 ← p.pfl.get 2
      let z1 ← p.pfl.get (p.pfl.np + 1)
      let x ← (do
        let dl0 ← pflDl (p.hg.x0 + pyMax (z0 - za) 0.0) p.gme p.dh
        let dl1 ← pflDl (p.hg.x1 + pyMax (z1 - zb) 0.0) p.gme p.dh
        let q := dl0 + dl1
        if q ≤ p.dist then do
          let q := npow (← p.dist /! q) 2
          let he0 := (p.hg.x0 + pyMax (z0 - za) 0.0) * q
          let dl0 ← pflDl he0 p.gme p.dh
          let he1 := (p.hg.x1 + pyMax (z1 - zb) 0.0) * q
          let dl1 ← pflDl he1 p.gme p.dh
          pure (he0, he1, dl0, dl1)
        else pure (p.hg.x0 + pyMax (z0 - za) 0.0, p.hg.x1 + pyMax (z1 - zb) 0.0, dl0, dl1) : Py (α × α × α × α))
      let the0 ← pflThe x.1 x.2.2.1 p.gme p.dh
      let the1 ← pflThe x.2.1 x.2.2.2 p.gme p.dh
      pure { p with he := ⟨x.1, x.2.1⟩, dl := ⟨x.2.2.1, x.2.2.2⟩, the := ⟨the0, the1⟩ }) := by
    have ib : ∀ {β γ : Type} {c : Prop} [Decidable c] (a b : Py β) (f : β → Py γ), (if c then a else b) >>= f = if c then a >>= f else b >>= f := by
      intros; split_ifs <;> rfl
    unfold pflLos
    simp only [bind_assoc, ib]
  rw [this, ez, ok_bind]
  dsimp only
  rw [gz0, ok_bind, gz1, ok_bind, er, ok_bind]
  dsimp only
  rw [et0, ok_bind, et1, ok_bind, pure_ok]

/-- What `pflObs` returns for one terminal: the height over the line fitted to the samples from `x` to `y`. -/
structure ObsRound (R : Rounding α) (p : Pfl α) (n : ℕ) (hg z : ℝ) (x y he : α) (at_end : Prop) (u v c s : ℝ) : Prop where
  u0 : 0 ≤ u
  vn : v ≤ n
  uv : u < v
  nu : |u - R.val x / R.val p.xi| ≤ 1e-11
  nv : |v - R.val y / R.val p.xi| ≤ 1e-11
  line : BestLine (fun j => (p.z.map R.val).getD j 0) ⌊u⌋₊ (⌈v⌉₊ - ⌊u⌋₊) c s
  fin : R.fin he
  a : ¬ at_end → |R.val he - (hg + max (z - c) 0)| ≤ 1e-6
  b : at_end → |R.val he - (hg + max (z - (c + s * n)) 0)| ≤ 1e-6
  g : hg ≤ R.val he

theorem pflObs_round (R : Rounding α) {p : PropSt α} {n : ℕ} {xl : Pair α} (H : LosSized R p) (W0 : SizedWindow R p.pfl n xl.x0 (0.9 * p.dl.x0))
    (W1 : SizedWindow R p.pfl n (p.dist - 0.9 * p.dl.x1) xl.x1)
    (g0 : R.val xl.x0 / R.val p.pfl.xi + 1e-10 ≤ R.val (0.9 * p.dl.x0) / R.val p.pfl.xi)
    (g1 : R.val (p.dist - 0.9 * p.dl.x1) / R.val p.pfl.xi + 1e-10 ≤ R.val xl.x1 / R.val p.pfl.xi) :
    ∃ (e0 e1 : α) (u v c s u' v' c' s' : ℝ), pflObs p xl = .ok { p with he := ⟨e0, e1⟩ } ∧
      ObsRound R p.pfl n (R.val p.hg.x0) ((p.pfl.z.map R.val).getD 0 0) xl.x0 (0.9 * p.dl.x0) e0 False u v c s ∧
      ObsRound R p.pfl n (R.val p.hg.x1) ((p.pfl.z.map R.val).getD n 0) (p.dist - 0.9 * p.dl.x1) xl.x1 e1 True u' v' c' s' := by
  obtain ⟨u, v, c, s, za, zb, u0, vn, uv, nu, nv, ez, line, na, nb, bc, bn⟩ := line_round R W0 g0
  obtain ⟨u', v', c', s', za', zb', u0', vn', uv', nu', nv', ez', line', na', nb', bc', bn'⟩ := line_round R W1 g1
  obtain ⟨z0, gz0, fz0, bz0, vz0⟩ := get_first R W0.len W0.heights
  obtain ⟨z1, gz1, fz1, bz1, vz1⟩ := get_at R (j := n) (i := p.pfl.np + 2) W0.len W0.heights le_rfl (by rw [W0.np])
  obtain ⟨k0, i0, j0⟩ := he_round R H.f0 H.a0 H.b0 fz0 bz0 na bc
  obtain ⟨k1, i1, j1⟩ := he_round R H.f1 H.a1 H.b1 fz1 bz1 nb' bn'
  refine ⟨_, _, u, v, c, s, u', v', c', s', ?_, ⟨u0, vn, uv, nu, nv, line, k0.fin, fun _ => by rw [← vz0]; exact k0.err, fun h => h.elim, i0⟩,
    ⟨u0', vn', uv', nu', nv', line', k1.fin, fun h => (h trivial).elim, fun _ => by rw [← vz1]; exact k1.err, i1⟩⟩
  unfold pflObs
  rw [ez, ok_bind]
  dsimp only
  rw [ez', ok_bind]
  dsimp only
  rw [gz0, ok_bind, gz1, ok_bind, pure_ok]

/-- The windows for the foregrounds on obstructed paths. -/
structure ObsWindows (R : Rounding α) (p : PropSt α) (n : ℕ) (dl : Pair α) : Prop where
  y0 : Near R (0.9 * dl.x0) (0.9 * R.val dl.x0) (1e-14 * (n * R.val p.pfl.xi))
  x1 : Near R (PyNum.ofInt p.pfl.np * p.pfl.xi - 0.9 * dl.x1) (n * R.val p.pfl.xi - 0.9 * R.val dl.x1) (1e-14 * (n * R.val p.pfl.xi))
  w0 : SizedWindow R p.pfl n (foreA p dl) (0.9 * dl.x0)
  w1 : SizedWindow R p.pfl n (PyNum.ofInt p.pfl.np * p.pfl.xi - 0.9 * dl.x1) (foreB p dl)
  g0 : R.val (foreA p dl) / R.val p.pfl.xi + 1e-10 ≤ R.val (0.9 * dl.x0) / R.val p.pfl.xi
  g1 : R.val (PyNum.ofInt p.pfl.np * p.pfl.xi - 0.9 * dl.x1) / R.val p.pfl.xi + 1e-10 ≤ R.val (foreB p dl) / R.val p.pfl.xi

theorem PrepCore.windows {R : Rounding α} {p : PropSt α} {n : ℕ} {the dl : Pair α} {dh : α} (H : SizedPath R p n) (C : PrepCore R p n the dl dh) :
    ObsWindows R p n dl := by
  have n1 : (1 : ℝ) ≤ n := by exact_mod_cast H.hz.n1
  have n2 : (n : ℝ) ≤ 1000 := by exact_mod_cast H.hz.n1000
  have x1 := H.hz.xi1
  have span := H.hz.span
  have x0 : 0 < R.val p.pfl.xi := by linarith
  have xD : R.val p.pfl.xi ≤ n * R.val p.pfl.xi := le_mul_of_one_le_left (by linarith) n1
  have Dx : n * R.val p.pfl.xi ≤ 1000 * R.val p.pfl.xi := mul_le_mul_of_nonneg_right n2 x0.le
  have c0 := C.d0
  have c1 := C.d1
  have wA := C.wA1
  have wB := C.wB1
  have W := C.win
  have nd := C.dist
  obtain ⟨D, hD⟩ : ∃ D, D = n * R.val p.pfl.xi := ⟨_, rfl⟩
  rw [← hD] at span xD Dx c0 c1 wB nd
  have n09 : RL R (0.9 : α) 0.9 1.5e-15 := RL.lit R (by norm_num) (by norm_num)
  have prod : ∀ {d : α}, R.fin d → (1 - 1e-8) * R.val p.pfl.xi ≤ R.val d → R.val d ≤ (1 + 1e-8) * D → Near R (0.9 * d) (0.9 * R.val d) (5e-15 * D) := by
    intro d fd h1 h2
    have nd : RL R d (R.val d) 0 := RL.self fd (by clear * - h1 x1; norm_num at *; linarith) (by clear * - h2 span; norm_num at *; linarith)
    have k := n09.mul nd (t := 4.6e-15) (by norm_num) (by norm_num) (by clear * - h1 x1; norm_num at *; linarith) (by clear * - h2 span; norm_num at *; linarith)
      (by norm_num)
    refine ⟨k.fin, k.err.trans ?_⟩
    clear * - h1 h2 x1; norm_num at *; linarith
  have p0 := prod C.fd0 c0.1 c0.2
  have p1 := prod C.fd1 c1.1 c1.2
  have q1 : Near R (PyNum.ofInt p.pfl.np * p.pfl.xi - 0.9 * dl.x1) (D - 0.9 * R.val dl.x1) (1e-14 * D) := by
    refine nd.sub p1 (M := 1.1 * D) ?_ ?_ ?_
    · rw [abs_of_nonneg (by clear * - c1 x1 xD; norm_num at *; linarith)]; clear * - c1 x1 xD; norm_num at *; linarith
    · clear * - span; norm_num at *; linarith
    · clear * - x1 xD; norm_num at *; linarith
  have b0 := abs_le.1 p0.err
  have b1 := abs_le.1 q1.err
  have D1 : 1 ≤ D := by linarith
  have e0 : R.val (foreA p dl) + 1e-10 * R.val p.pfl.xi ≤ R.val (0.9 * dl.x0) := by
    clear * - b0 c0 wA Dx x1; norm_num at *; linarith
  have e1 : R.val (PyNum.ofInt p.pfl.np * p.pfl.xi - 0.9 * dl.x1) + 1e-10 * R.val p.pfl.xi ≤ R.val (foreB p dl) := by
    clear * - b1 c1 wB Dx x1; norm_num at *; linarith
  have s0 : 0 ≤ 1e-10 * R.val p.pfl.xi := mul_nonneg (by norm_num) x0.le
  refine ⟨by rw [← hD]; exact p0.mono (by clear * - D1; norm_num at *; linarith), by rw [← hD]; exact q1, ?_, ?_, ?_, ?_⟩
  · refine ⟨W.np, W.few, W.len, W.heights, W.fin_xi, W.pos_xi, W.fin1, p0.fin, W.nonneg, by linarith, ?_, ?_⟩
    · rw [← hD]; clear * - b0 c0 D1; norm_num at *; linarith
    · clear * - b0 c0 D1 span; norm_num at *; linarith
  · refine ⟨W.np, W.few, W.len, W.heights, W.fin_xi, W.pos_xi, q1.fin, W.fin2, ?_, by linarith, W.inside, W.short⟩
    clear * - b1 c1 D1; norm_num at *; linarith
  · rw [div_add' _ _ _ x0.ne', div_le_div_iff_of_pos_right x0]; exact e0
  · rw [div_add' _ _ _ x0.ne', div_le_div_iff_of_pos_right x0]; exact e1

/-- The state in which the cases are distinguished. -/
def midState (p : PropSt α) (the dl : Pair α) (dh : α) : PropSt α := { p with dist := PyNum.ofInt p.pfl.np * p.pfl.xi, the, dl, dh }

theorem PrepCore.run {R : Rounding α} {p : PropSt α} {n : ℕ} {the dl : Pair α} {dh : α} (C : PrepCore R p n the dl dh) :
    qlrpflPrep p = (do
      let q ← if 1.5 * (PyNum.ofInt p.pfl.np * p.pfl.xi) ≤ dl.x0 + dl.x1 then pflLos (midState p the dl dh) ⟨foreA p dl, foreB p dl⟩
        else pflObs (midState p the dl dh) ⟨foreA p dl, foreB p dl⟩
      pure (prepMarks { q with mdp := -1 })) := by
  unfold qlrpflPrep
  dsimp only
  rw [C.hz, ok_bind]
  dsimp only
  have := C.irr
  unfold foreA foreB at this
  rw [this, ok_bind]
  rfl

theorem PrepCore.losSized {R : Rounding α} {p : PropSt α} {n : ℕ} {the dl : Pair α} {dh : α} (H : SizedPath R p n) (C : PrepCore R p n the dl dh) :
    LosSized R (midState p the dl dh) := by
  have n1 : (1 : ℝ) ≤ n := by exact_mod_cast H.hz.n1
  have x1 := H.hz.xi1
  have span := H.hz.span
  have xD : R.val p.pfl.xi ≤ n * R.val p.pfl.xi := le_mul_of_one_le_left (by linarith) n1
  have e := abs_le.1 C.dist.err
  refine ⟨H.f0, H.f1, H.a0, H.a1, H.b0, H.b1, H.fk, H.k1, (le_abs_self _).trans H.hz.hκ, C.fdh, C.dh0, C.dh1, C.dist.fin, ?_, ?_⟩
  · change 0.9 ≤ R.val (PyNum.ofInt p.pfl.np * p.pfl.xi)
    clear * - e xD x1; norm_num at *; linarith
  · change R.val (PyNum.ofInt p.pfl.np * p.pfl.xi) ≤ 4.1e6
    clear * - e span; norm_num at *; linarith

theorem PrepCore.los {R : Rounding α} {p : PropSt α} {n : ℕ} {the dl : Pair α} {dh : α} (H : SizedPath R p n) (C : PrepCore R p n the dl dh)
    (h : 1.5 * (PyNum.ofInt p.pfl.np * p.pfl.xi) ≤ dl.x0 + dl.x1) :
    ∃ (e0 e1 d0 d1 t0 t1 : α) (u v c s h0 h1 : ℝ),
      qlrpflPrep p = .ok (prepMarks { p with dist := PyNum.ofInt p.pfl.np * p.pfl.xi, dh, he := ⟨e0, e1⟩, dl := ⟨d0, d1⟩, the := ⟨t0, t1⟩, mdp := -1 }) ∧
      LosRound R (midState p the dl dh) n ⟨foreA p dl, foreB p dl⟩ e0 e1 d0 d1 t0 t1 u v c s h0 h1 := by
  obtain ⟨e0, e1, d0, d1, t0, t1, u, v, c, s, h0, h1, e, L⟩ := pflLos_round R (C.losSized H) H.hz.n1 (xl := ⟨foreA p dl, foreB p dl⟩) C.win C.gap
  refine ⟨e0, e1, d0, d1, t0, t1, u, v, c, s, h0, h1, ?_, L⟩
  rw [C.run, if_pos h, e, ok_bind]
  rfl

theorem PrepCore.obs {R : Rounding α} {p : PropSt α} {n : ℕ} {the dl : Pair α} {dh : α} (H : SizedPath R p n) (C : PrepCore R p n the dl dh)
    (h : ¬ 1.5 * (PyNum.ofInt p.pfl.np * p.pfl.xi) ≤ dl.x0 + dl.x1) :
    ∃ (e0 e1 : α) (u v c s u' v' c' s' : ℝ),
      qlrpflPrep p = .ok (prepMarks { p with dist := PyNum.ofInt p.pfl.np * p.pfl.xi, dh, he := ⟨e0, e1⟩, dl, the, mdp := -1 }) ∧
      ObsRound R p.pfl n (R.val p.hg.x0) ((p.pfl.z.map R.val).getD 0 0) (foreA p dl) (0.9 * dl.x0) e0 False u v c s ∧
      ObsRound R p.pfl n (R.val p.hg.x1) ((p.pfl.z.map R.val).getD n 0) (PyNum.ofInt p.pfl.np * p.pfl.xi - 0.9 * dl.x1) (foreB p dl) e1 True u' v' c' s' := by
  have V := C.windows H
  obtain ⟨e0, e1, u, v, c, s, u', v', c', s', e, L⟩ := pflObs_round R (C.losSized H) (xl := ⟨foreA p dl, foreB p dl⟩) V.w0 V.w1 V.g0 V.g1
  refine ⟨e0, e1, u, v, c, s, u', v', c', s', ?_, L⟩
  rw [C.run, if_neg h, e, ok_bind]
  rfl

theorem isHorizon_unique {view pos : ℕ → ℝ} {far full θ d θ' d' : ℝ} {m : ℕ} (h : IsHorizon view far pos full m θ d)
    (h' : IsHorizon view far pos full m θ' d') : θ = θ' ∧ d = d' := by
  rcases h.attained with ⟨a, b⟩ | ⟨j, j1, j2, j3, j4, j5, j6⟩ <;> rcases h'.attained with ⟨a', b'⟩ | ⟨i, i1, i2, i3, i4, i5, i6⟩
  · exact ⟨a.trans a'.symm, b.trans b'.symm⟩
  · have := h.view_le i i1 i2; linarith
  · have := h'.view_le j j1 j2; linarith
  · have k1 := h.view_le i i1 i2
    have k2 := h'.view_le j j1 j2
    have e : j = i := by
      rcases lt_trichotomy j i with l | l | l
      · have := i6 j j1 l; linarith
      · exact l
      · have := j6 i i1 l; linarith
    subst e
    exact ⟨j4.trans i4.symm, j5.trans i5.symm⟩

/-- The path whose numbers are those of a dictionary. -/
noncomputable def valPath (R : Rounding α) (p : PropSt α) (n : ℕ) : Path :=
  { n := n, ξ := R.val p.pfl.xi, κ := R.val p.gme, hg₀ := R.val p.hg.x0, hg₁ := R.val p.hg.x1, z := fun j => (p.pfl.z.map R.val).getD j 0 }

/-- The parameters written to a dictionary, as numbers. -/
noncomputable def valGeometry (R : Rounding α) (q : PropSt α) : Geometry :=
  { he₀ := R.val q.he.x0, he₁ := R.val q.he.x1, dl₀ := R.val q.dl.x0, dl₁ := R.val q.dl.x1, the₀ := R.val q.the.x0, the₁ := R.val q.the.x1, dh := R.val q.dh }

theorem valPath_cases (R : Rounding α) {p : PropSt α} {n : ℕ} (H : SizedPath R p n) {θ₀ θ₁ d₀ d₁ : ℝ} (h : (valPath R p n).Horizons θ₀ θ₁ d₀ d₁) :
    ((valPath R p n).Clear ∧ d₀ = (valPath R p n).len ∧ d₁ = (valPath R p n).len) ∨ (¬ (valPath R p n).Clear ∧ d₀ + d₁ ≤ (valPath R p n).len) := by
  have hx : 0 < R.val p.pfl.xi := by linarith [H.hz.xi1]
  by_cases hc : (valPath R p n).Clear
  · have := (clear_horizons (P := valPath R p n) hx hc).1 h
    exact Or.inl ⟨hc, this.2.2.1, this.2.2.2⟩
  · refine Or.inr ⟨hc, ?_⟩
    have hl : n < (valPfl R p.pfl).z.length := by unfold valPfl; simpa using H.hz.len
    obtain ⟨the', dl', e, ha, hb⟩ := hzns_ok (p := valPfl R p.pfl) (hg := ⟨R.val p.hg.x0, R.val p.hg.x1⟩) (κ := R.val p.gme) H.hz.n1 H.np hx hl
    obtain ⟨-, e0⟩ := isHorizon_unique h.1 ha
    obtain ⟨-, e1⟩ := isHorizon_unique h.2 hb
    rcases hz_sum H.hz.n1 H.np hx hl e with ⟨-, k⟩ | ⟨-, -, k, -⟩
    · refine absurd ?_ hc
      exact (clear_iff (p := { pathState [] with pfl := valPfl R p.pfl, hg := ⟨R.val p.hg.x0, R.val p.hg.x1⟩, gme := R.val p.gme }) H.hz.n1 hx).2 k
    · rw [e0, e1]; exact k

end Itm
