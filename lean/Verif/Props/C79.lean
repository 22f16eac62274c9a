import Verif.Props.C35

/-! C79: raising an antenna never brings a horizon nearer. -/

namespace Itm.Props
open Itm Itm.Spec

/-- Raising the observer by `δ` lowers every angle by `δ` over its distance: near points most. -/
theorem horizon_raise {view view' pos : ℕ → ℝ} {far far' full θ d θ' d' δ : ℝ} {m : ℕ} (hδ : 0 ≤ δ) (hp : ∀ j, 1 ≤ j → j ≤ m → 0 < pos j ∧ pos j ≤ full)
    (hf : 0 < full) (hv : ∀ j, 1 ≤ j → j ≤ m → view' j = view j - δ / pos j) (he : far' = far - δ / full)
    (h : IsHorizon view far pos full m θ d) (h' : IsHorizon view' far' pos full m θ' d') :
    d ≤ d' ∧ θ - δ / d ≤ θ' ∧ θ' ≤ θ - δ / full := by
  refine ⟨?_, ?_, ?_⟩
  · by_contra hc
    rw [not_le] at hc
    have hd : d ≤ full := by
      rcases h.attained with ⟨-, e⟩ | ⟨j, j1, j2, -, -, e, -⟩
      · rw [e]
      · rw [e]; exact (hp j j1 j2).2
    rcases h'.attained with ⟨-, e⟩ | ⟨k, k1, k2, kf, kt, ke, kmin⟩
    · rw [e] at hc; linarith
    obtain ⟨pk, pk'⟩ := hp k k1 k2
    have hk := h.view_le k k1 k2
    have hvk := hv k k1 k2
    rcases h.attained with ⟨et, e⟩ | ⟨j, j1, j2, jf, jt, je, jmin⟩
    · have : δ / full ≤ δ / pos k := div_le_div_of_nonneg_left hδ pk pk'
      linarith
    · obtain ⟨pj, -⟩ := hp j j1 j2
      have hvj := hv j j1 j2
      have hlt : pos k < pos j := by rw [← ke, ← je]; exact hc
      rcases eq_or_lt_of_le hδ with e0 | e0
      · rw [← e0] at hvj he
        have hv0 : ∀ i, 1 ≤ i → i ≤ m → view' i = view i := fun i i1 i2 => by rw [hv i i1 i2, ← e0]; simp
        rw [zero_div, sub_zero] at he
        have hjk := h'.view_le j j1 j2
        rw [kt, hv0 j j1 j2, hv0 k k1 k2] at hjk
        rcases lt_trichotomy k j with c | c | c
        · linarith [jmin k k1 c]
        · rw [c] at hlt; exact lt_irrefl _ hlt
        · have := kmin j j1 c
          rw [hv0 j j1 j2, hv0 k k1 k2] at this
          linarith
      · have : δ / pos j < δ / pos k := div_lt_div_of_pos_left e0 pk hlt
        linarith [h'.view_le j j1 j2]
  · rcases h.attained with ⟨et, e⟩ | ⟨j, j1, j2, -, jt, je, -⟩
    · rw [et, e, ← he]; exact h'.far_le
    · rw [jt, je, ← hv j j1 j2]; exact h'.view_le j j1 j2
  · rcases h'.attained with ⟨et, -⟩ | ⟨k, k1, k2, -, kt, -, -⟩
    · rw [et, he]; linarith [h.far_le]
    · rw [kt, hv k k1 k2]
      obtain ⟨pk, pk'⟩ := hp k k1 k2
      have : δ / full ≤ δ / pos k := div_le_div_of_nonneg_left hδ pk pk'
      linarith [h.view_le k k1 k2]

/-- Raising the target. -/
theorem horizon_target {view pos : ℕ → ℝ} {far far' full θ d θ' d' : ℝ} {m : ℕ} (hp : ∀ j, 1 ≤ j → j ≤ m → pos j ≤ full)
    (hf : far ≤ far') (h : IsHorizon view far pos full m θ d) (h' : IsHorizon view far' pos full m θ' d') :
    d ≤ d' ∧ θ ≤ θ' ∧ θ' ≤ θ + (far' - far) := by
  refine ⟨?_, ?_, ?_⟩
  · rcases h'.attained with ⟨-, e⟩ | ⟨k, k1, k2, kf, kt, ke, kmin⟩
    · rw [e]
      rcases h.attained with ⟨-, e⟩ | ⟨j, j1, j2, -, -, e, -⟩
      · rw [e]
      · rw [e]; exact hp j j1 j2
    · refine le_of_eq ?_
      have : IsHorizon view far pos full m θ' d' := ⟨hf.trans h'.far_le, h'.view_le, .inr ⟨k, k1, k2, lt_of_le_of_lt hf kf, kt, ke, kmin⟩⟩
      exact (C35_determined this h).2
  · rcases h.attained with ⟨et, -⟩ | ⟨j, j1, j2, -, jt, -, -⟩
    · rw [et]; exact hf.trans h'.far_le
    · rw [jt]; exact h'.view_le j j1 j2
  · rcases h'.attained with ⟨et, -⟩ | ⟨k, k1, k2, -, kt, -, -⟩
    · rw [et]; linarith [h.far_le]
    · rw [kt]; linarith [h.view_le k k1 k2]

theorem elevation_raise {κ h δ s z : ℝ} : elevation κ (h + δ) s z = elevation κ h s z - δ / s := by
  unfold elevation; ring

theorem elevation_target {κ h δ s z : ℝ} : elevation κ h s (z + δ) = elevation κ h s z + δ / s := by
  unfold elevation; ring

/-- **C79** Raising the first antenna by `δ`: neither horizon comes nearer; its own angle sinks, by at least `δ` over the path length and at most
`δ` over the distance of the old horizon; the angle of the other terminal does not sink and rises by at most `δ` over the path length. -/
theorem C79_first {p : Pfl ℝ} {n : ℕ} {κ ha hb δ : ℝ} {the dl the' dl' : Pair ℝ} (hn : 1 ≤ n) (hnp : p.np = n) (hx : 0 < p.xi) (hl : n < p.z.length)
    (hδ : 0 ≤ δ) (h : hzns p (n * p.xi) ⟨ha, hb⟩ κ = .ok (the, dl)) (h' : hzns p (n * p.xi) ⟨ha + δ, hb⟩ κ = .ok (the', dl')) :
    dl.x0 ≤ dl'.x0 ∧ dl.x1 ≤ dl'.x1 ∧ (the.x0 - δ / dl.x0 ≤ the'.x0 ∧ the'.x0 ≤ the.x0 - δ / (n * p.xi)) ∧
      the.x1 ≤ the'.x1 ∧ the'.x1 ≤ the.x1 + δ / (n * p.xi) := by
  obtain ⟨ta, tb, da, db, e, A, B⟩ := C35_horizons (κ := κ) (ha := ha) (hb := hb) hn hnp hx hl
  obtain ⟨ta', tb', da', db', e', A', B'⟩ := C35_horizons (κ := κ) (ha := ha + δ) (hb := hb) hn hnp hx hl
  rw [h, ok_inj, Prod.mk.injEq] at e
  rw [h', ok_inj, Prod.mk.injEq] at e'
  obtain ⟨rfl, rfl⟩ := e
  obtain ⟨rfl, rfl⟩ := e'
  have hD : 0 < (n : ℝ) * p.xi := mul_pos (by exact_mod_cast hn) hx
  have hj : ∀ j : ℕ, 1 ≤ j → j ≤ n - 1 → (0 < (j : ℝ) * p.xi ∧ (j : ℝ) * p.xi ≤ n * p.xi) ∧ ((n : ℝ) - j) * p.xi ≤ n * p.xi := by
    intro j j1 j2
    have a : (1 : ℝ) ≤ j := by exact_mod_cast j1
    have b : (j : ℝ) ≤ n := by exact_mod_cast (by omega : j ≤ n)
    refine ⟨⟨by positivity, mul_le_mul_of_nonneg_right b hx.le⟩, mul_le_mul_of_nonneg_right (by linarith) hx.le⟩
  obtain ⟨a1, a2, a3⟩ := horizon_raise hδ (fun j j1 j2 => (hj j j1 j2).1) hD
    (fun j _ _ => by rw [← add_assoc, elevation_raise]) (by rw [← add_assoc, elevation_raise]) A A'
  have eB : elevation κ (p.z.getD n 0 + hb) (n * p.xi) (p.z.getD 0 0 + (ha + δ)) =
      elevation κ (p.z.getD n 0 + hb) (n * p.xi) (p.z.getD 0 0 + ha) + δ / (n * p.xi) := by rw [← add_assoc, elevation_target]
  obtain ⟨b1, b2, b3⟩ := horizon_target (fun j j1 j2 => (hj j j1 j2).2) (by rw [eB]; have := div_nonneg hδ hD.le; linarith) B B'
  rw [eB] at b3
  exact ⟨a1, b1, ⟨a2, a3⟩, b2, by linarith⟩

/-- **C79** The same for the second antenna. -/
theorem C79_second {p : Pfl ℝ} {n : ℕ} {κ ha hb δ : ℝ} {the dl the' dl' : Pair ℝ} (hn : 1 ≤ n) (hnp : p.np = n) (hx : 0 < p.xi) (hl : n < p.z.length)
    (hδ : 0 ≤ δ) (h : hzns p (n * p.xi) ⟨ha, hb⟩ κ = .ok (the, dl)) (h' : hzns p (n * p.xi) ⟨ha, hb + δ⟩ κ = .ok (the', dl')) :
    dl.x0 ≤ dl'.x0 ∧ dl.x1 ≤ dl'.x1 ∧ (the.x1 - δ / dl.x1 ≤ the'.x1 ∧ the'.x1 ≤ the.x1 - δ / (n * p.xi)) ∧
      the.x0 ≤ the'.x0 ∧ the'.x0 ≤ the.x0 + δ / (n * p.xi) := by
  obtain ⟨ta, tb, da, db, e, A, B⟩ := C35_horizons (κ := κ) (ha := ha) (hb := hb) hn hnp hx hl
  obtain ⟨ta', tb', da', db', e', A', B'⟩ := C35_horizons (κ := κ) (ha := ha) (hb := hb + δ) hn hnp hx hl
  rw [h, ok_inj, Prod.mk.injEq] at e
  rw [h', ok_inj, Prod.mk.injEq] at e'
  obtain ⟨rfl, rfl⟩ := e
  obtain ⟨rfl, rfl⟩ := e'
  have hD : 0 < (n : ℝ) * p.xi := mul_pos (by exact_mod_cast hn) hx
  have hj : ∀ j : ℕ, 1 ≤ j → j ≤ n - 1 → (j : ℝ) * p.xi ≤ n * p.xi ∧ 0 < ((n : ℝ) - j) * p.xi ∧ ((n : ℝ) - j) * p.xi ≤ n * p.xi := by
    intro j j1 j2
    have a : (1 : ℝ) ≤ j := by exact_mod_cast j1
    have b : (j : ℝ) + 1 ≤ n := by exact_mod_cast (by omega : j + 1 ≤ n)
    exact ⟨mul_le_mul_of_nonneg_right (by linarith) hx.le, mul_pos (by linarith) hx, mul_le_mul_of_nonneg_right (by linarith) hx.le⟩
  obtain ⟨b1, b2, b3⟩ := horizon_raise hδ (fun j j1 j2 => (hj j j1 j2).2) hD
    (fun j _ _ => by rw [← add_assoc, elevation_raise]) (by rw [← add_assoc, elevation_raise]) B B'
  have eA : elevation κ (p.z.getD 0 0 + ha) (n * p.xi) (p.z.getD n 0 + (hb + δ)) =
      elevation κ (p.z.getD 0 0 + ha) (n * p.xi) (p.z.getD n 0 + hb) + δ / (n * p.xi) := by rw [← add_assoc, elevation_target]
  obtain ⟨a1, a2, a3⟩ := horizon_target (fun j j1 j2 => (hj j j1 j2).1) (by rw [eA]; have := div_nonneg hδ hD.le; linarith) A A'
  rw [eA] at a3
  exact ⟨a1, b1, ⟨b2, b3⟩, a2, by linarith⟩

/-- **C79** Raising either antenna or both brings no horizon nearer and does not raise the sum of the horizon angles, by which diffraction and
scatter bend; a path with free sight keeps it. -/
theorem C79_both {p : Pfl ℝ} {n : ℕ} {κ ha hb ha' hb' : ℝ} {the dl the' dl' : Pair ℝ} (hn : 1 ≤ n) (hnp : p.np = n) (hx : 0 < p.xi) (hl : n < p.z.length)
    (h0 : ha ≤ ha') (h1 : hb ≤ hb') (h : hzns p (n * p.xi) ⟨ha, hb⟩ κ = .ok (the, dl)) (h' : hzns p (n * p.xi) ⟨ha', hb'⟩ κ = .ok (the', dl')) :
    dl.x0 ≤ dl'.x0 ∧ dl.x1 ≤ dl'.x1 ∧ the'.x0 + the'.x1 ≤ the.x0 + the.x1 ∧ (dl.x0 = n * p.xi → dl'.x0 = n * p.xi) := by
  obtain ⟨ta, tb, da, db, e, -⟩ := C35_horizons (κ := κ) (ha := ha') (hb := hb) hn hnp hx hl
  obtain ⟨a1, a2, a3, a4, a5⟩ := C79_first (δ := ha' - ha) hn hnp hx hl (by linarith) h (by rw [add_sub_cancel]; exact e)
  obtain ⟨b1, b2, b3, b4, b5⟩ := C79_second (δ := hb' - hb) hn hnp hx hl (by linarith) e (by rw [add_sub_cancel]; exact h')
  refine ⟨a1.trans b1, a2.trans b2, by linarith [a3.2, b3.2], fun ed => le_antisymm ?_ ?_⟩
  · exact (C35_both_or_neither hn hnp hx hl h').2.2.1
  · rw [← ed]; exact a1.trans b1

/-- **C79** (terrain) Raising points between the terminals never lowers a horizon angle. -/
theorem C79_terrain {p q : Pfl ℝ} {n : ℕ} {κ ha hb : ℝ} {the dl the' dl' : Pair ℝ} (hn : 1 ≤ n) (hnp : p.np = n) (hx : 0 < p.xi) (hl : n < p.z.length)
    (hnq : q.np = n) (hxq : q.xi = p.xi) (hlq : n < q.z.length) (h0 : q.z.getD 0 0 = p.z.getD 0 0) (h1 : q.z.getD n 0 = p.z.getD n 0)
    (hz : ∀ j, 1 ≤ j → j < n → p.z.getD j 0 ≤ q.z.getD j 0) (h : hzns p (n * p.xi) ⟨ha, hb⟩ κ = .ok (the, dl))
    (h' : hzns q (n * p.xi) ⟨ha, hb⟩ κ = .ok (the', dl')) : the.x0 ≤ the'.x0 ∧ the.x1 ≤ the'.x1 := by
  obtain ⟨ta, tb, da, db, e, A, B⟩ := C35_horizons (κ := κ) (ha := ha) (hb := hb) hn hnp hx hl
  obtain ⟨ta', tb', da', db', e', A', B'⟩ := C35_horizons (κ := κ) (ha := ha) (hb := hb) hn hnq (by rw [hxq]; exact hx) hlq
  rw [h, ok_inj, Prod.mk.injEq] at e
  rw [hxq, h', ok_inj, Prod.mk.injEq] at e'
  obtain ⟨rfl, rfl⟩ := e
  obtain ⟨rfl, rfl⟩ := e'
  rw [hxq, h0, h1] at A' B'
  have mono : ∀ (c s z z' : ℝ), 0 < s → z ≤ z' → elevation κ c s z ≤ elevation κ c s z' := by
    intro c s z z' hs hzz
    unfold elevation
    have := div_le_div_of_nonneg_right (by linarith : z - c ≤ z' - c) hs.le
    linarith
  have hj : ∀ j : ℕ, 1 ≤ j → j ≤ n - 1 → 0 < (j : ℝ) * p.xi ∧ 0 < ((n : ℝ) - j) * p.xi := by
    intro j j1 j2
    have a : (1 : ℝ) ≤ j := by exact_mod_cast j1
    have b : (j : ℝ) + 1 ≤ n := by exact_mod_cast (by omega : j + 1 ≤ n)
    exact ⟨by positivity, mul_pos (by linarith) hx⟩
  constructor
  · rcases A.attained with ⟨et, -⟩ | ⟨j, j1, j2, -, jt, -, -⟩
    · exact le_of_eq_of_le et A'.far_le
    · refine (le_of_eq jt).trans (le_trans ?_ (A'.view_le j j1 j2))
      exact mono _ _ _ _ (hj j j1 j2).1 (hz j j1 (by omega))
  · rcases B.attained with ⟨et, -⟩ | ⟨j, j1, j2, -, jt, -, -⟩
    · exact le_of_eq_of_le et B'.far_le
    · refine (le_of_eq jt).trans (le_trans ?_ (B'.view_le j j1 j2))
      exact mono _ _ _ _ (hj j j1 j2).2 (hz j j1 (by omega))

/-- A ridge that the raised antenna looks over: the hypotheses are met, and the horizon of the first terminal really moves. -/
example : ∃ the dl the' dl' : Pair ℝ, hzns ({ np := 2, xi := 1000, z := [0, 50, 0] } : Pfl ℝ) (((2 : ℕ) : ℝ) * 1000) ⟨10, 10⟩ 0 = .ok (the, dl) ∧
    hzns ({ np := 2, xi := 1000, z := [0, 50, 0] } : Pfl ℝ) (((2 : ℕ) : ℝ) * 1000) ⟨100, 10⟩ 0 = .ok (the', dl') ∧ dl.x0 = 1000 ∧ dl'.x0 = 2000 := by
  obtain ⟨ta, tb, da, db, e, A, -⟩ := C35_horizons (p := { np := 2, xi := 1000, z := [0, 50, 0] }) (n := 2) (κ := 0) (ha := 10) (hb := 10)
    (by norm_num) rfl (by norm_num) (by simp)
  obtain ⟨ta', tb', da', db', e', A', -⟩ := C35_horizons (p := { np := 2, xi := 1000, z := [0, 50, 0] }) (n := 2) (κ := 0) (ha := 100) (hb := 10)
    (by norm_num) rfl (by norm_num) (by simp)
  refine ⟨_, _, _, _, e, e', ?_, ?_⟩
  · rcases A.attained with ⟨et, -⟩ | ⟨j, j1, j2, -, -, ed, -⟩
    · have := A.view_le 1 le_rfl le_rfl
      rw [et] at this
      unfold elevation at this
      norm_num at this
    · have : j = 1 := by omega
      rw [ed, this]; norm_num
  · rcases A'.attained with ⟨-, ed⟩ | ⟨j, j1, j2, jf, -, -, -⟩
    · rw [ed]; norm_num
    · have : j = 1 := by omega
      rw [this] at jf
      unfold elevation at jf
      norm_num at jf

end Itm.Props
