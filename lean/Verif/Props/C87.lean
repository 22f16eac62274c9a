import Verif.Props.C79
import Verif.Props.C41

/-! C87: weaker refraction never opens a path. -/

namespace Itm.Props
open Itm Itm.Spec

/-- A stronger curvature lowers every angle in proportion to its distance: far points most. -/
theorem horizon_bend {view view' pos : ℕ → ℝ} {far far' full θ d θ' d' η : ℝ} {m : ℕ} (hη : 0 ≤ η)
    (hv : ∀ j, 1 ≤ j → j ≤ m → view' j = view j - η * pos j) (hf : far' = far - η * full)
    (h : IsHorizon view far pos full m θ d) (h' : IsHorizon view' far' pos full m θ' d') :
    d' ≤ d ∧ θ - η * d ≤ θ' ∧ θ' ≤ θ - η * d' := by
  have a : θ - η * d ≤ θ' := by
    rcases h.attained with ⟨et, e⟩ | ⟨j, j1, j2, -, jt, je, -⟩
    · rw [et, e, ← hf]; exact h'.far_le
    · rw [jt, je, ← hv j j1 j2]; exact h'.view_le j j1 j2
  have b : θ' ≤ θ - η * d' := by
    rcases h'.attained with ⟨et, e⟩ | ⟨j, j1, j2, -, jt, je, -⟩
    · rw [et, e, hf]; linarith [h.far_le]
    · rw [jt, je, hv j j1 j2]; linarith [h.view_le j j1 j2]
  refine ⟨?_, a, b⟩
  rcases eq_or_lt_of_le hη with e | e
  · have hv' : ∀ j, 1 ≤ j → j ≤ m → view' j = view j := fun j j1 j2 => by rw [hv j j1 j2, ← e]; ring
    have hf' : far' = far := by rw [hf, ← e]; ring
    have : IsHorizon view far pos full m θ' d' := by
      refine ⟨hf' ▸ h'.far_le, fun j j1 j2 => hv' j j1 j2 ▸ h'.view_le j j1 j2, ?_⟩
      rcases h'.attained with ⟨x, y⟩ | ⟨j, j1, j2, jf, jt, je, jm⟩
      · exact .inl ⟨by rw [← hf']; exact x, y⟩
      · exact .inr ⟨j, j1, j2, by rw [← hf', ← hv' j j1 j2]; exact jf, by rw [← hv' j j1 j2]; exact jt, je,
          fun i i1 i2 => by rw [← hv' j j1 j2, ← hv' i i1 (by omega)]; exact jm i i1 i2⟩
    exact (C35_determined h this).2.le
  · have : η * d' ≤ η * d := by linarith
    exact le_of_mul_le_mul_left this e

theorem elevation_bend {κ κ' h s z : ℝ} : elevation κ' h s z = elevation κ h s z - (κ' - κ) / 2 * s := by
  unfold elevation; ring

/-- **C87** A stronger effective curvature of the earth brings no horizon farther away; each horizon angle sinks, by at least `(κ' - κ)/2` times
the new and at most that times the old horizon distance; the angle between the two horizon rays, `θ₀ + θ₁ + D κ` for a path of
length `D`, by which diffraction and scatter bend, does not shrink; an obstructed path stays obstructed. -/
theorem C87_curvature {p : Pfl ℝ} {n : ℕ} {κ κ' ha hb : ℝ} {the dl the' dl' : Pair ℝ} (hn : 1 ≤ n) (hnp : p.np = n) (hx : 0 < p.xi) (hl : n < p.z.length)
    (hκ : κ ≤ κ') (h : hzns p (n * p.xi) ⟨ha, hb⟩ κ = .ok (the, dl)) (h' : hzns p (n * p.xi) ⟨ha, hb⟩ κ' = .ok (the', dl')) :
    dl'.x0 ≤ dl.x0 ∧ dl'.x1 ≤ dl.x1 ∧
    (the.x0 - (κ' - κ) / 2 * dl.x0 ≤ the'.x0 ∧ the'.x0 ≤ the.x0 - (κ' - κ) / 2 * dl'.x0) ∧
    (the.x1 - (κ' - κ) / 2 * dl.x1 ≤ the'.x1 ∧ the'.x1 ≤ the.x1 - (κ' - κ) / 2 * dl'.x1) ∧
    the.x0 + the.x1 + n * p.xi * κ ≤ the'.x0 + the'.x1 + n * p.xi * κ' ∧ (dl'.x0 = n * p.xi → dl.x0 = n * p.xi) := by
  obtain ⟨ta, tb, da, db, e, A, B⟩ := C35_horizons (κ := κ) (ha := ha) (hb := hb) hn hnp hx hl
  obtain ⟨ta', tb', da', db', e', A', B'⟩ := C35_horizons (κ := κ') (ha := ha) (hb := hb) hn hnp hx hl
  obtain ⟨-, -, l0, -, l1⟩ := C35_both_or_neither hn hnp hx hl h
  rw [h, ok_inj, Prod.mk.injEq] at e
  rw [h', ok_inj, Prod.mk.injEq] at e'
  obtain ⟨rfl, rfl⟩ := e
  obtain ⟨rfl, rfl⟩ := e'
  have hη : 0 ≤ (κ' - κ) / 2 := by linarith
  obtain ⟨a1, a2, a3⟩ := horizon_bend hη (fun j _ _ => elevation_bend) elevation_bend A A'
  obtain ⟨b1, b2, b3⟩ := horizon_bend hη (fun j _ _ => elevation_bend) elevation_bend B B'
  dsimp only at *
  refine ⟨a1, b1, ⟨a2, a3⟩, ⟨b2, b3⟩, ?_, fun ed => le_antisymm l0 (by rw [← ed]; exact a1)⟩
  have k0 := mul_le_mul_of_nonneg_left l0 hη
  have k1 := mul_le_mul_of_nonneg_left l1 hη
  linarith

/-- **C87** In terms of what the user enters: with a larger surface refractivity, or a system at a smaller height above the sea, no horizon is nearer
and the bending angle is not larger, whatever frequency, ground and polarization. -/
theorem C87_refractivity {p : Pfl ℝ} {n : ℕ} {ha hb fmhz fmhz' zsys zsys' en0 en0' eps eps' sgm sgm' : ℝ} {ipol ipol' : ℤ} {r r' : Qlrps ℝ}
    {the dl the' dl' : Pair ℝ} (hn : 1 ≤ n) (hnp : p.np = n) (hx : 0 < p.xi) (hl : n < p.z.length) (hf : 0 < fmhz) (hf' : 0 < fmhz') (he : 0 < eps)
    (he' : 0 < eps') (hr : qlrps fmhz zsys en0 ipol eps sgm = .ok r) (hr' : qlrps fmhz' zsys' en0' ipol' eps' sgm' = .ok r') (h0 : 0 ≤ en0)
    (hN : en0 ≤ en0') (hs : zsys' ≤ zsys) (h : hzns p (n * p.xi) ⟨ha, hb⟩ r.gme = .ok (the, dl))
    (h' : hzns p (n * p.xi) ⟨ha, hb⟩ r'.gme = .ok (the', dl')) :
    dl.x0 ≤ dl'.x0 ∧ dl.x1 ≤ dl'.x1 ∧ the'.x0 + the'.x1 + n * p.xi * r'.gme ≤ the.x0 + the.x1 + n * p.xi * r.gme ∧
      (dl.x0 = n * p.xi → dl'.x0 = n * p.xi) := by
  obtain ⟨s, e, -, ens, eg, -⟩ := C41_values (zsys := zsys) (en0 := en0) (sgm := sgm) (ipol := ipol) hf he
  rw [hr, ok_inj] at e; subst e
  obtain ⟨s, e, -, ens', eg', -⟩ := C41_values (zsys := zsys') (en0 := en0') (sgm := sgm') (ipol := ipol') hf' he'
  rw [hr', ok_inj] at e; subst e
  have hens : r.ens ≤ r'.ens := by
    rw [ens, ens']
    exact mul_le_mul hN (Real.exp_le_exp.2 (by gcongr)) (Real.exp_pos _).le (h0.trans hN)
  have hg : r'.gme ≤ r.gme := by
    rw [eg, eg']
    have : Real.exp (r.ens / 179.3) ≤ Real.exp (r'.ens / 179.3) := Real.exp_le_exp.2 (by gcongr)
    gcongr
  obtain ⟨a, b, -, -, c, d⟩ := C87_curvature hn hnp hx hl hg h' h
  exact ⟨a, b, c, d⟩

/-- A path of 40 km over a rise of 15 m in the middle between masts of 30 m: without curvature the sight is free, on an earth without refraction
the rise is the horizon of both. -/
example : ∃ the dl the' dl' : Pair ℝ, hzns ({ np := 2, xi := 20000, z := [0, 15, 0] } : Pfl ℝ) (((2 : ℕ) : ℝ) * 20000) ⟨30, 30⟩ 0 = .ok (the, dl) ∧
    hzns ({ np := 2, xi := 20000, z := [0, 15, 0] } : Pfl ℝ) (((2 : ℕ) : ℝ) * 20000) ⟨30, 30⟩ 157e-9 = .ok (the', dl') ∧ dl.x0 = 40000 ∧ dl'.x0 = 20000 := by
  obtain ⟨ta, tb, da, db, e, A, -⟩ := C35_horizons (p := { np := 2, xi := 20000, z := [0, 15, 0] }) (n := 2) (κ := 0) (ha := 30) (hb := 30)
    (by norm_num) rfl (by norm_num) (by simp)
  obtain ⟨ta', tb', da', db', e', A', -⟩ := C35_horizons (p := { np := 2, xi := 20000, z := [0, 15, 0] }) (n := 2) (κ := 157e-9) (ha := 30) (hb := 30)
    (by norm_num) rfl (by norm_num) (by simp)
  refine ⟨_, _, _, _, e, e', ?_, ?_⟩
  · rcases A.attained with ⟨-, ed⟩ | ⟨j, j1, j2, jf, -, -, -⟩
    · rw [ed]; norm_num
    · have : j = 1 := by omega
      rw [this] at jf
      unfold elevation at jf
      norm_num at jf
  · rcases A'.attained with ⟨et, -⟩ | ⟨j, j1, j2, -, -, ed, -⟩
    · have := A'.view_le 1 le_rfl le_rfl
      rw [et] at this
      unfold elevation at this
      norm_num at this
    · have : j = 1 := by omega
      rw [ed, this]; norm_num

/-- Two climates that the second theorem compares. -/
example : ∃ r r' : Qlrps ℝ, qlrps 300 100 280 0 15 0.005 = .ok r ∧ qlrps 300 0 350 0 15 0.005 = .ok r' := by
  obtain ⟨r, e, -⟩ := C41_values (fmhz := 300) (zsys := 100) (en0 := 280) (ipol := 0) (eps := 15) (sgm := 0.005) (by norm_num) (by norm_num)
  obtain ⟨r', e', -⟩ := C41_values (fmhz := 300) (zsys := 0) (en0 := 350) (ipol := 0) (eps := 15) (sgm := 0.005) (by norm_num) (by norm_num)
  exact ⟨r, r', e, e'⟩

end Itm.Props
