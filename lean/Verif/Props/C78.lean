import Verif.Lemmas.Relief
import Verif.Props.C37
import Verif.Props.C73

/-! C78: the terrain irregularity is bounded by the relief. -/

namespace Itm.Props
open Itm Spec

theorem window_factor {L : ℝ} (h : 0 ≤ L) : 0.2 ≤ 1 - 0.8 * Real.exp (-L / 50000) := by
  have : Real.exp (-L / 50000) ≤ 1 := Real.exp_le_one_iff.2 (by rw [neg_div]; linarith [div_nonneg h (by norm_num : (0 : ℝ) ≤ 50000)])
  generalize Real.exp (-L / 50000) = e at *
  norm_num; linarith

/-- If all heights of the profile lie between `lo` and `hi`, `dlthx` returns a value between 0 and `2.4 (hi - lo)`, referred to the length of
the window; never more than `12 (hi - lo)`. -/
theorem C78_relief {p : Pfl ℝ} {x1 x2 lo hi v : ℝ} (hx : 0 < p.xi) (hn : 0 ≤ p.np) (hl : p.np < p.z.length) (h1 : 0 ≤ x1)
    (h2 : x2 ≤ p.np * p.xi) (hz : ∀ z ∈ p.z, lo ≤ z ∧ z ≤ hi) (h : dlthx p x1 x2 = .ok v) :
    0 ≤ v ∧ v * (1 - 0.8 * Real.exp (-(x2 - x1) / 50000)) ≤ 2.4 * (hi - lo) ∧ v ≤ 12 * (hi - lo) := by
  have v0 := C37_nonneg hx hl h1 h2 h
  obtain ⟨w, e, hw, hw0⟩ := C37_value hx hl h1 h2
  rw [h, ok_inj] at e
  subst e
  rcases le_or_gt 2 (x2 / p.xi - x1 / p.xi) with c | c
  · have hA0 : 0 ≤ x1 / p.xi := by positivity
    have hBn : x2 / p.xi ≤ p.np := by rw [div_le_iff₀ hx]; exact h2
    obtain ⟨n, hn⟩ := Int.eq_ofNat_of_zero_le hn
    have h12 : 0 ≤ x2 - x1 := by
      by_contra hc
      have : x2 / p.xi ≤ x1 / p.xi := div_le_div_of_nonneg_right (by linarith) hx.le
      linarith
    have hz' : ∀ j, j ≤ n → lo ≤ p.z.getD j 0 ∧ p.z.getD j 0 ≤ hi := by
      intro j hj
      have : j < p.z.length := by omega
      rw [List.getD_eq_getElem?_getD, List.getElem?_eq_getElem this, Option.getD_some]
      exact hz _ (List.getElem_mem this)
    have k := irregularity_relief hA0 c (by rw [hn] at hBn; exact_mod_cast hBn) h12 hz' (hw c)
    refine ⟨v0, k, ?_⟩
    have f := mul_le_mul_of_nonneg_left (window_factor h12) v0
    norm_num at f k ⊢
    linarith
  · rw [hw0 c]
    have hH : 0 ≤ hi - lo := by
      obtain ⟨z, hzm⟩ := List.exists_mem_of_length_pos (by omega : 0 < p.z.length)
      linarith [(hz z hzm).1, (hz z hzm).2]
    refine ⟨le_rfl, by rw [zero_mul]; positivity, by positivity⟩

theorem horizon_dist {view pos : ℕ → ℝ} {far full θ d : ℝ} {m : ℕ} (h : IsHorizon view far pos full m θ d) (h0 : 0 ≤ full)
    (hp : ∀ j, 1 ≤ j → j ≤ m → 0 ≤ pos j) : 0 ≤ d := by
  rcases h.attained with ⟨-, e⟩ | ⟨j, j1, j2, -, -, e, -⟩
  · rw [e]; exact h0
  · rw [e]; exact hp j j1 j2

/-- **C78** (of a path) Whatever the path, clear or not: its irregularity lies between 0 and twelve times its relief. -/
theorem C78_path {P : Path} {zr lo hi : ℝ} {G : Geometry} (hx : 0 < P.ξ) (hg0 : 0 ≤ P.hg₀) (hg1 : 0 ≤ P.hg₁)
    (hz : ∀ j, j ≤ P.n → lo ≤ P.z j ∧ P.z j ≤ hi) (h : P.IsGeometry zr G) : 0 ≤ G.dh ∧ G.dh ≤ 12 * (hi - lo) := by
  obtain ⟨θ₀, θ₁, d₀, d₁, x, y, ⟨H0, H1⟩, ex, ey, ⟨I1, I2⟩, -, -⟩ := h
  have hlen : 0 ≤ P.len := mul_nonneg (Nat.cast_nonneg _) hx.le
  have hd0 : 0 ≤ d₀ := horizon_dist H0 hlen fun j _ _ => mul_nonneg (Nat.cast_nonneg _) hx.le
  have hd1 : 0 ≤ d₁ := horizon_dist H1 hlen fun j _ j2 => by
    have : (j : ℝ) ≤ P.n := by exact_mod_cast (by omega : j ≤ P.n)
    exact mul_nonneg (by linarith) hx.le
  have hx0 : 0 ≤ x := by rw [ex]; exact le_min (by positivity) (by positivity)
  have hy : y ≤ P.n * P.ξ := by
    have : 0 ≤ min (15 * P.hg₁) (0.1 * d₁) := le_min (by positivity) (by positivity)
    have e : P.len = P.n * P.ξ := rfl
    linarith
  have hH : 0 ≤ hi - lo := by linarith [(hz 0 (Nat.zero_le _)).1, (hz 0 (Nat.zero_le _)).2]
  rcases le_or_gt 2 (y / P.ξ - x / P.ξ) with c | c
  · have hL : 0 ≤ y - x := by
      by_contra hc
      have : y / P.ξ ≤ x / P.ξ := div_le_div_of_nonneg_right (by linarith) hx.le
      linarith
    have v0 := irregularity_nonneg hL (I1 c)
    have k := irregularity_relief (div_nonneg hx0 hx.le) c (by rw [div_le_iff₀ hx]; exact hy) hL hz (I1 c)
    refine ⟨v0, ?_⟩
    have f := mul_le_mul_of_nonneg_left (window_factor hL) v0
    norm_num at f k ⊢
    linarith
  · rw [I2 c]; exact ⟨le_rfl, by positivity⟩

/-- **C78** (of a run) The irregularity in the dictionary of the point-to-point runner, once the profile is read. -/
theorem C78_run {p s q : PropSt ℝ} {profile : List ℝ} {lo hi : ℝ} (hd : 0 < p.d) (hl : 2 ≤ profile.length) (hg0 : 0 < p.hg.x0) (hg1 : 0 < p.hg.x1)
    (hs : p2pSetup p profile = .ok s) (hq : qlrpfl s = .ok q) (hz : ∀ z ∈ profile, lo ≤ z ∧ z ≤ hi) :
    0 ≤ q.dh ∧ q.dh ≤ 12 * (hi - lo) := by
  unfold qlrpfl at hq
  obtain ⟨t, ht, hq⟩ := bind_eq_ok.1 hq
  obtain ⟨G, z, hG, -, e⟩ := prep_link hd hl hg0 hg1 hs ht rfl
  have hn : (0 : ℝ) < ((profile.length - 1 : ℕ) : ℝ) := by exact_mod_cast (by omega : 0 < profile.length - 1)
  have e1 : q.dh = G.dh := by
    obtain ⟨_, _, _, _, _, _, _, k⟩ := lrprop_frame hq
    have : q.dh = t.dh := by rw [k]; rfl
    rw [this]
    exact congrArg Link.dh e
  rw [e1]
  refine C78_path (by unfold profilePath; exact div_pos (by linarith) hn) hg0.le hg1.le (fun j hj => ?_) hG
  have hj' : j < profile.length := by
    have : (profilePath p.d p.hg.x0 p.hg.x1 profile).n = profile.length - 1 := rfl
    omega
  show lo ≤ profile.getD j 0 ∧ profile.getD j 0 ≤ hi
  rw [List.getD_eq_getElem?_getD, List.getElem?_eq_getElem hj', Option.getD_some]
  exact hz _ (List.getElem_mem hj')

theorem docs_heights : ∀ z ∈ (docsProfile : List ℝ), (15 : ℝ) ≤ z ∧ z ≤ 201 := by
  have h : ∀ z ∈ docsInt, (15 : ℤ) ≤ z ∧ z ≤ 201 := by decide +kernel
  intro z hz
  have e : (docsProfile (α := ℝ)) = docsInt.map PyNum.ofInt := rfl
  rw [e] at hz
  obtain ⟨i, hi, rfl⟩ := List.mem_map.1 hz
  rw [rofInt]
  exact ⟨by exact_mod_cast (h i hi).1, by exact_mod_cast (h i hi).2⟩

/-- The hypotheses are met by the documented run, whose heights lie between 15 and 201 m. -/
example (p : PropSt ℝ) : 0 < (p2pUser p).d ∧ 2 ≤ (docsProfile (α := ℝ)).length ∧ 0 < (p2pUser p).hg.x0 ∧ 0 < (p2pUser p).hg.x1 ∧
    (∃ s q, p2pSetup (p2pUser p) docsProfile = .ok s ∧ qlrpfl s = .ok q) ∧ ∀ z ∈ (docsProfile : List ℝ), (15 : ℝ) ≤ z ∧ z ≤ 201 := by
  obtain ⟨rows, msgs, r, h⟩ := docs_answered [] [] p
  obtain ⟨s, q, _, _, _, hs, hq, -⟩ := itmlogicP2PAt_ok h
  refine ⟨by rw [(docs_user p).1]; norm_num, by rw [docs_length]; norm_num, by rw [(docs_user p).2.2.1]; norm_num,
    by rw [(docs_user p).2.2.1]; norm_num, ⟨s, q, hs, hq⟩, docs_heights⟩

end Itm.Props
