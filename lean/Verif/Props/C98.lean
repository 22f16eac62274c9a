import Verif.Lemmas.RefinePath
import Verif.Lemmas.Hill
import Verif.Props.C95

/-! C98: the parameters found from a terrain profile approach the published ones as precision grows. -/

namespace Itm.Props
open Itm Itm.Spec Filter Asymptotics Topology

variable {ι : Type} {l : Filter ι} {α : ι → Type} [∀ i, PyNum (α i)] {ε : ι → ℝ}

/-- **C98** The parameters of a path, prepared in arithmetics that grow precise: profile, antenna heights and curvature are approximated,
and the path is in general position. Then the preparation finally returns, and effective heights, horizons and irregularity approach
those of the link whose receiver, if the path is clear, stands at the height of the last but one profile point, as fast as the arithmetics
grow precise. Samples that merely tie before a later one stands out do no harm, whichever of them rounding takes for the horizon. -/
theorem C98_path (F : Refining l α ε) {P : ∀ i, PropSt (α i)} {p : PropSt ℝ} {n : ℕ} (h : TermApx F P p) (hn : 1 ≤ n) (hnp : p.pfl.np = n)
    (hx : 0 < p.pfl.xi) (hl : n < p.pfl.z.length) (hg0 : 0 < p.hg.x0) (hg1 : 0 < p.hg.x1) (hκ : 0 < p.gme) {G : Geometry}
    (hG : (pathOf p n).IsGeometry (p.pfl.z.getD (n - 1) 0) G) (g : (pathOf p n).Generic (p.pfl.z.getD (n - 1) 0) G.dh) :
    ∃ Q : ∀ i, PropSt (α i), (∀ᶠ i in l, qlrpflPrep (P i) = .ok (Q i)) ∧ F.Approx (fun i => (Q i).dist) (n * p.pfl.xi) ∧
      F.Approx (fun i => (Q i).he.x0) G.he₀ ∧ F.Approx (fun i => (Q i).he.x1) G.he₁ ∧
      F.Approx (fun i => (Q i).dl.x0) G.dl₀ ∧ F.Approx (fun i => (Q i).dl.x1) G.dl₁ ∧
      F.Approx (fun i => (Q i).the.x0) G.the₀ ∧ F.Approx (fun i => (Q i).the.x1) G.the₁ ∧ F.Approx (fun i => (Q i).dh) G.dh := by
  obtain ⟨q, e, PR⟩ := qlrpflPrep_ok hn hnp hx hl hg0 hg1 hκ
  have eG : G = geometryOf q := C58_determined hn hx (C58_clear_shifted hn hnp hx hl hg0 hg1 hκ e) hG
  subst eG
  obtain ⟨Q, hQ, w⟩ := refine_way h hn hnp hx hl hg0 hg1 hκ e g
  have rd : q.dist = n * p.pfl.xi := by rw [PR.rest]
  exact ⟨Q, hQ, by rw [← rd]; exact w.dist, w.he.1, w.he.2, w.dl.1, w.dl.2, w.the.1, w.the.2, w.dh⟩

/-- **C98** (published) On obstructed paths, and on clear ones whose last two points are of one height, these are the published parameters. -/
theorem C98_published (F : Refining l α ε) {P : ∀ i, PropSt (α i)} {p : PropSt ℝ} {n : ℕ} (h : TermApx F P p) (hn : 1 ≤ n) (hnp : p.pfl.np = n)
    (hx : 0 < p.pfl.xi) (hl : n < p.pfl.z.length) (hg0 : 0 < p.hg.x0) (hg1 : 0 < p.hg.x1) (hκ : 0 < p.gme) {G : Geometry}
    (he : (pathOf p n).Clear → p.pfl.z.getD n 0 = p.pfl.z.getD (n - 1) 0)
    (hG : (pathOf p n).IsGeometry (p.pfl.z.getD n 0) G) (g : (pathOf p n).Generic (p.pfl.z.getD n 0) G.dh) :
    ∃ Q : ∀ i, PropSt (α i), (∀ᶠ i in l, qlrpflPrep (P i) = .ok (Q i)) ∧ F.Approx (fun i => (Q i).dist) (n * p.pfl.xi) ∧
      F.Approx (fun i => (Q i).he.x0) G.he₀ ∧ F.Approx (fun i => (Q i).he.x1) G.he₁ ∧
      F.Approx (fun i => (Q i).dl.x0) G.dl₀ ∧ F.Approx (fun i => (Q i).dl.x1) G.dl₁ ∧
      F.Approx (fun i => (Q i).the.x0) G.the₀ ∧ F.Approx (fun i => (Q i).the.x1) G.the₁ ∧ F.Approx (fun i => (Q i).dh) G.dh := by
  refine C98_path F h hn hnp hx hl hg0 hg1 hκ (G := G) ?_ ?_
  · obtain ⟨t0, t1, d0, d1, x, y, H, ex, ey, r, c, o⟩ := hG
    exact ⟨t0, t1, d0, d1, x, y, H, ex, ey, r, fun k => by rw [← he k]; exact c k, o⟩
  · intro t0 t1 d0 d1 x y H ex ey
    have k := g t0 t1 d0 d1 x y H ex ey
    exact ⟨k.horizons, k.start, k.stop, k.spread, k.rough, fun w => by rw [← he w]; exact k.reach w, k.fore, k.aft⟩

/-! A hill of 200 m halfway along 9 km of flat land, antennas of 10 m, numbers with `n` binary digits after the point. -/

/-- The profile over any arithmetic. -/
def ridgeZ {β : Type} (a b : β) : List β := [a, a, a, a, b, b, a, a, a, a]
noncomputable def ridge : PropSt ℝ := { blank 1 hillIn with pfl := { np := 9, xi := 1000, z := ridgeZ 0 200 }, hg := ⟨10, 10⟩ }

/-- The angle under which the near edge of the hill is seen from either end. -/
noncomputable def ridgeTop : ℝ := elevation 1.25e-7 (0 + 10) (4 * 1000) 200

theorem ridge_views (j : ℕ) (h1 : 1 ≤ j) (h2 : j ≤ 8) :
    (j ≠ 4 → elevation 1.25e-7 (0 + 10) (j * 1000) ((ridgeZ (0 : ℝ) 200).getD j 0) < ridgeTop) ∧
    (j ≠ 5 → elevation 1.25e-7 (0 + 10) (((9 : ℕ) - j) * 1000) ((ridgeZ (0 : ℝ) 200).getD j 0) < ridgeTop) := by
  unfold ridgeTop elevation
  interval_cases j <;> simp [ridgeZ] <;> norm_num

theorem ridge_horizons {θ₀ θ₁ d₀ d₁ : ℝ} (h : (pathOf ridge 9).Horizons θ₀ θ₁ d₀ d₁) : (θ₀ = ridgeTop ∧ d₀ = 4000) ∧ θ₁ = ridgeTop ∧ d₁ = 4000 := by
  obtain ⟨h0, h1⟩ := h
  have f0 : elevation 1.25e-7 (0 + 10) (((9 : ℕ) : ℝ) * 1000) (0 + 10) < ridgeTop := by unfold ridgeTop elevation; norm_num
  have k0 : elevation 1.25e-7 (0 + 10) (((4 : ℕ) : ℝ) * 1000) ((ridgeZ (0 : ℝ) 200).getD 4 0) = ridgeTop := by
    unfold ridgeTop; simp [ridgeZ]
  have k1 : elevation 1.25e-7 (0 + 10) ((((9 : ℕ) : ℝ) - ((5 : ℕ) : ℝ)) * 1000) ((ridgeZ (0 : ℝ) 200).getD 5 0) = ridgeTop := by
    unfold ridgeTop; simp [ridgeZ]; norm_num
  constructor
  · have v := h0.view_le 4 (by norm_num) (by decide)
    have v' : ridgeTop ≤ θ₀ := by rw [← k0]; exact v
    rcases h0.attained with ⟨e, -⟩ | ⟨j, j1, j2, -, e, ed, -⟩
    · exfalso
      have e' : θ₀ = elevation 1.25e-7 (0 + 10) (((9 : ℕ) : ℝ) * 1000) (0 + 10) := e
      linarith
    · have e' : θ₀ = elevation 1.25e-7 (0 + 10) (j * 1000) ((ridgeZ (0 : ℝ) 200).getD j 0) := e
      have hj : j = 4 := by
        by_contra hj
        have := (ridge_views j j1 j2).1 hj
        linarith
      subst hj
      refine ⟨e'.trans k0, ed.trans ?_⟩
      show ((4 : ℕ) : ℝ) * 1000 = 4000; norm_num
  · have v := h1.view_le 5 (by norm_num) (by decide)
    have v' : ridgeTop ≤ θ₁ := by rw [← k1]; exact v
    rcases h1.attained with ⟨e, -⟩ | ⟨j, j1, j2, -, e, ed, -⟩
    · exfalso
      have e' : θ₁ = elevation 1.25e-7 (0 + 10) (((9 : ℕ) : ℝ) * 1000) (0 + 10) := e
      linarith
    · have e' : θ₁ = elevation 1.25e-7 (0 + 10) (((9 : ℕ) - j) * 1000) ((ridgeZ (0 : ℝ) 200).getD j 0) := e
      have hj : j = 5 := by
        by_contra hj
        have := (ridge_views j j1 j2).2 hj
        linarith
      subst hj
      refine ⟨e'.trans k1, ed.trans ?_⟩
      show (((9 : ℕ) : ℝ) - ((5 : ℕ) : ℝ)) * 1000 = 4000; norm_num

theorem ridge_obstructed : ¬ (pathOf ridge 9).Clear := by
  intro h
  have := h 4 (by norm_num) (by decide)
  have e : (200 : ℝ) + 1.25e-7 / 2 * (((4 : ℕ) : ℝ) * 1000) * ((((9 : ℕ) : ℝ) - ((4 : ℕ) : ℝ)) * 1000) ≤
    (1 - ((4 : ℕ) : ℝ) / ((9 : ℕ) : ℝ)) * (0 + 10) + ((4 : ℕ) : ℝ) / ((9 : ℕ) : ℝ) * (0 + 10) := this
  norm_num at e

theorem offGrid_of {t : ℝ} {a : ℤ} (h1 : (a : ℝ) < t) (h2 : t < a + 1) : OffGrid t := by
  intro k e
  rw [e] at h1 h2
  have h1' : a < k := by exact_mod_cast h1
  have h2' : k < a + 1 := by exact_mod_cast h2
  omega

theorem ridge_spread : SpreadClear 0.15 8.85 := by
  refine ⟨by norm_num, fun _ k k1 _ => ?_⟩
  have : (5 : ℝ) ≤ k := by exact_mod_cast k1
  intro h; norm_num at h; linarith

theorem ridge_generic (zr dh : ℝ) : (pathOf ridge 9).Generic zr dh := by
  intro θ₀ θ₁ d₀ d₁ x y H ex ey
  obtain ⟨⟨rfl, rfl⟩, rfl, rfl⟩ := ridge_horizons H
  have f0 : elevation 1.25e-7 (0 + 10) (((9 : ℕ) : ℝ) * 1000) (0 + 10) + 0 < ridgeTop := by unfold ridgeTop elevation; norm_num
  have ex' : x = 150 := by
    rw [ex]
    show min (15 * 10 : ℝ) (0.1 * 4000) = 150
    norm_num
  have ey' : y = 8850 := by
    rw [ey]
    show ((9 : ℕ) : ℝ) * 1000 - min (15 * 10 : ℝ) (0.1 * 4000) = 8850
    norm_num
  subst ex' ey'
  have x1 : (150 : ℝ) / (pathOf ridge 9).ξ = 0.15 := by show (150 : ℝ) / 1000 = 0.15; norm_num
  have x2 : (8850 : ℝ) / (pathOf ridge 9).ξ = 8.85 := by show (8850 : ℝ) / 1000 = 8.85; norm_num
  have x3 : 0.9 * (4000 : ℝ) / (pathOf ridge 9).ξ = 3.6 := by show 0.9 * (4000 : ℝ) / 1000 = 3.6; norm_num
  have x4 : ((pathOf ridge 9).len - 0.9 * (4000 : ℝ)) / (pathOf ridge 9).ξ = 5.4 := by
    show (((9 : ℕ) : ℝ) * 1000 - 0.9 * (4000 : ℝ)) / 1000 = 5.4; norm_num
  refine ⟨⟨⟨fun _ => f0, fun j j1 j2 hd => ?_⟩, ⟨fun _ => f0, fun j j1 j2 hd => ?_⟩⟩, ?_, ?_, ?_, fun c => absurd c ridge_obstructed, fun c => absurd c ridge_obstructed, fun _ => ?_, fun _ => ?_⟩
  · rw [add_zero]
    refine (ridge_views j j1 j2).1 ?_
    rintro rfl
    apply hd
    show (4000 : ℝ) = ((4 : ℕ) : ℝ) * 1000; norm_num
  · rw [add_zero]
    refine (ridge_views j j1 j2).2 ?_
    rintro rfl
    apply hd
    show (4000 : ℝ) = (((9 : ℕ) : ℝ) - ((5 : ℕ) : ℝ)) * 1000; norm_num
  · rw [x1]; exact offGrid_of (a := 0) (by norm_num) (by norm_num)
  · rw [x2]; exact offGrid_of (a := 8) (by norm_num) (by norm_num)
  · rw [x1, x2]; exact ridge_spread
  · rw [x3]; exact offGrid_of (a := 3) (by norm_num) (by norm_num)
  · rw [x4]; exact offGrid_of (a := 5) (by norm_num) (by norm_num)

/-- The profile with `n` binary digits after the point. -/
noncomputable def ridgeAt (n : ℕ) : PropSt (Fixed n) :=
  { blank 1 (gridIn n hillIn) with pfl := { np := 9, xi := ⟨grid n 1000⟩, z := ridgeZ ⟨grid n 0⟩ ⟨grid n 200⟩ }, hg := ⟨⟨grid n 10⟩, ⟨grid n 10⟩⟩ }

theorem ridge_approx : TermApx gridRefining ridgeAt ridge := by
  refine ⟨⟨Eventually.of_forall fun _ => rfl, Eventually.of_forall fun _ => rfl, grid_approx _, fun j x h => ?_⟩, ⟨grid_approx _, grid_approx _⟩, grid_approx _⟩
  refine ⟨fun n => ⟨grid n x⟩, Eventually.of_forall fun n => ?_, grid_approx x⟩
  have : (ridgeZ (⟨grid n 0⟩ : Fixed n) ⟨grid n 200⟩) = (ridgeZ (0 : ℝ) 200).map fun x => ⟨grid n x⟩ := rfl
  show (ridgeZ (⟨grid n 0⟩ : Fixed n) ⟨grid n 200⟩)[j]? = _
  rw [this, List.getElem?_map, show (ridgeZ (0 : ℝ) 200)[j]? = some x from h]
  rfl

example : ∃ (G : Geometry) (Q : ∀ n, PropSt (Fixed n)), (pathOf ridge 9).IsGeometry 0 G ∧ G.dl₀ = 4000 ∧ G.the₀ = 190 / 4000 - 0.00025 ∧
    (∀ᶠ n in atTop, qlrpflPrep (ridgeAt n) = .ok (Q n)) ∧
    (fun n => (Q n).dl.x0.val - 4000) =O[atTop] (fun n => (1 / 2 : ℝ) ^ n) ∧ (fun n => (Q n).the.x0.val - G.the₀) =O[atTop] (fun n => (1 / 2 : ℝ) ^ n) ∧
    (fun n => (Q n).dh.val - G.dh) =O[atTop] fun n => (1 / 2 : ℝ) ^ n := by
  have hx : 0 < ridge.pfl.xi := show (0 : ℝ) < 1000 by norm_num
  have hg : (0 : ℝ) < 10 := by norm_num
  have hκ : 0 < ridge.gme := show (0 : ℝ) < 1.25e-7 by norm_num
  obtain ⟨q, e, -⟩ := qlrpflPrep_ok (p := ridge) (n := 9) (by norm_num) rfl hx (by decide) hg hg hκ
  have hG : (pathOf ridge 9).IsGeometry 0 (geometryOf q) := C58_clear_shifted (by norm_num) rfl hx (by decide) hg hg hκ e
  obtain ⟨Q, hQ, -, -, -, a1, -, a2, -, a3⟩ := C98_path gridRefining ridge_approx (by norm_num) rfl hx (by decide) hg hg hκ hG (ridge_generic _ _)
  have k : (geometryOf q).dl₀ = 4000 ∧ (geometryOf q).the₀ = ridgeTop := by
    obtain ⟨t0, t1, d0, d1, x, y, H, -, -, -, -, o⟩ := hG
    obtain ⟨-, -, o1, -, o2, -⟩ := o ridge_obstructed
    obtain ⟨⟨w1, w2⟩, -⟩ := ridge_horizons H
    exact ⟨o1.trans w2, o2.trans w1⟩
  refine ⟨geometryOf q, Q, hG, k.1, ?_, hQ, ?_, a2.2, a3.2⟩
  · rw [k.2]; unfold ridgeTop elevation; norm_num
  · rw [k.1] at a1; exact a1.2

end Itm.Props
