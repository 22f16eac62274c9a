import Verif.Lemmas.Hzns

/-! C35, C36: the horizons found by `hzns`. -/

namespace Itm.Props
open Itm Itm.Spec

/-- **C35** For every profile of `n ≥ 1` intervals `hzns` succeeds and returns, for each terminal, the largest elevation angle
over the other terminal and the intermediate points `1 … n-1`, together with the distance at which it is attained. -/
theorem C35_horizons {p : Pfl ℝ} {n : ℕ} {κ ha hb : ℝ} (hn : 1 ≤ n) (hnp : p.np = n) (hx : 0 < p.xi) (hl : n < p.z.length) :
    ∃ ta tb da db, hzns p (n * p.xi) ⟨ha, hb⟩ κ = .ok (⟨ta, tb⟩, ⟨da, db⟩) ∧
      IsHorizon (fun j => elevation κ (p.z.getD 0 0 + ha) (j * p.xi) (p.z.getD j 0))
        (elevation κ (p.z.getD 0 0 + ha) (n * p.xi) (p.z.getD n 0 + hb)) (fun j => j * p.xi) (n * p.xi) (n - 1) ta da ∧
      IsHorizon (fun j => elevation κ (p.z.getD n 0 + hb) (((n : ℝ) - j) * p.xi) (p.z.getD j 0))
        (elevation κ (p.z.getD n 0 + hb) (n * p.xi) (p.z.getD 0 0 + ha)) (fun j => ((n : ℝ) - j) * p.xi) (n * p.xi) (n - 1) tb db := by
  obtain ⟨⟨ta, tb⟩, ⟨da, db⟩, h⟩ := hzns_ok (hg := ⟨ha, hb⟩) (κ := κ) hn hnp hx hl
  exact ⟨ta, tb, da, db, h⟩

/-- **C35** The specification determines the angle and the distance. -/
theorem C35_determined {view pos : ℕ → ℝ} {far full θ d θ' d' : ℝ} {m : ℕ} (h : IsHorizon view far pos full m θ d)
    (h' : IsHorizon view far pos full m θ' d') : θ' = θ ∧ d' = d := by
  have hθ : θ' = θ := by
    apply le_antisymm
    · rcases h'.attained with h1 | ⟨j, h1, h2, -, h3, -⟩
      · rw [h1.1]; exact h.far_le
      · rw [h3]; exact h.view_le _ h1 h2
    · rcases h.attained with h1 | ⟨j, h1, h2, -, h3, -⟩
      · rw [h1.1]; exact h'.far_le
      · rw [h3]; exact h'.view_le _ h1 h2
  refine ⟨hθ, ?_⟩
  rcases h.attained with h1 | ⟨j, h1, h2, h3, h4, h5, h6⟩
  · rcases h'.attained with h1' | ⟨j, h1', h2', h3', h4', -⟩
    · rw [h1.2, h1'.2]
    · exfalso; linarith [h1.1]
  · rcases h'.attained with h1' | ⟨i, h1', h2', h3', h4', h5', h6'⟩
    · exfalso; linarith [h1'.1]
    · rw [h5, h5']
      rcases Nat.lt_trichotomy i j with c | c | c
      · exact absurd (h6 i h1' c) (by linarith)
      · rw [c]
      · exact absurd (h6' j h1 c) (by linarith)

/-- **C35** Both horizons are full-path together: an obstacle for one terminal is one for the other. -/
theorem C35_both_or_neither {p : Pfl ℝ} {n : ℕ} {κ ha hb : ℝ} {the dl : Pair ℝ} (hn : 1 ≤ n) (hnp : p.np = n) (hx : 0 < p.xi)
    (hl : n < p.z.length) (h : hzns p (n * p.xi) ⟨ha, hb⟩ κ = .ok (the, dl)) :
    (dl.x0 = n * p.xi ↔ dl.x1 = n * p.xi) ∧ 0 < dl.x0 ∧ dl.x0 ≤ n * p.xi ∧ 0 < dl.x1 ∧ dl.x1 ≤ n * p.xi := by
  obtain ⟨the', dl', h', a, b⟩ := hzns_ok (hg := ⟨ha, hb⟩) (κ := κ) hn hnp hx hl
  rw [h, ok_inj, Prod.mk.injEq] at h'
  obtain ⟨rfl, rfl⟩ := h'
  have hn' : (0 : ℝ) < n := by exact_mod_cast hn
  have hlt : ∀ j : ℕ, j ≤ n - 1 → ((j : ℝ)) < n := by intro j hj; exact_mod_cast (by omega : j < n)
  have hex : ∀ j : ℕ, 1 ≤ j → j ≤ n - 1 →
      (elevation κ (p.h 0 + ha) (n * p.xi) (p.h n + hb) < hzA p κ (p.h 0 + ha) j ↔
        elevation κ (p.h n + hb) (n * p.xi) (p.h 0 + ha) < hzB p n κ (p.h n + hb) j) := by
    intro j h1 h2
    have hj : (0 : ℝ) < j := by exact_mod_cast h1
    have := exceeds_iff (κ := κ) (za := p.h 0 + ha) (zb := p.h n + hb) (z := p.h j) (s := j * p.xi) (t := ((n : ℝ) - j) * p.xi)
      (by positivity) (mul_pos (by linarith [hlt j h2]) hx)
    rwa [show (j : ℝ) * p.xi + ((n : ℝ) - j) * p.xi = n * p.xi by ring] at this
  have bound : ∀ j : ℕ, 1 ≤ j → j ≤ n - 1 → (0 < (j : ℝ) * p.xi ∧ (j : ℝ) * p.xi < n * p.xi) ∧
      0 < ((n : ℝ) - j) * p.xi ∧ ((n : ℝ) - j) * p.xi < n * p.xi := by
    intro j h1 h2
    have hj : (0 : ℝ) < j := by exact_mod_cast h1
    have := hlt j h2
    exact ⟨⟨by positivity, mul_lt_mul_of_pos_right this hx⟩, mul_pos (by linarith) hx, mul_lt_mul_of_pos_right (by linarith) hx⟩
  rcases a.attained with a1 | ⟨j, j1, j2, j3, j4, j5, -⟩
  · rcases b.attained with b1 | ⟨i, i1, i2, i3, i4, i5, -⟩
    · rw [a1.2, b1.2]; have : 0 < n * p.xi := by positivity
      exact ⟨Iff.rfl, this, le_rfl, this, le_rfl⟩
    · exfalso
      have := a.view_le i i1 i2
      have := (hex i i1 i2).2 i3
      linarith [a1.1]
  · rcases b.attained with b1 | ⟨i, i1, i2, i3, i4, i5, -⟩
    · exfalso
      have := b.view_le j j1 j2
      have := (hex j j1 j2).1 j3
      linarith [b1.1]
    · have bj := bound j j1 j2
      have bi := bound i i1 i2
      rw [j5, i5]
      refine ⟨⟨fun e => absurd e bj.1.2.ne, fun e => absurd e bi.2.2.ne⟩, bj.1.1, bj.1.2.le, bi.2.1, bi.2.2.le⟩

/-- A hill in the middle of a flat path of two intervals. -/
example : ∃ ta tb da db, hzns (⟨2, 1, [0, 5, 0]⟩ : Pfl ℝ) (2 * 1) ⟨1, 1⟩ 0 = .ok (⟨ta, tb⟩, ⟨da, db⟩) ∧ ta = 4 ∧ da = 1 := by
  obtain ⟨ta, tb, da, db, h, a, -⟩ := C35_horizons (p := ⟨2, 1, [0, 5, 0]⟩) (n := 2) (κ := 0) (ha := 1) (hb := 1) (by norm_num) rfl (by norm_num) (by norm_num)
  refine ⟨ta, tb, da, db, h, ?_⟩
  have v1 := a.view_le 1 le_rfl le_rfl
  rcases a.attained with a1 | ⟨j, j1, j2, -, j4, j5, -⟩
  · exfalso; rw [a1.1] at v1; norm_num [elevation] at v1
  · have : j = 1 := by omega
    subst this
    rw [j4, j5]; norm_num [elevation]

/-! ### C36 -/

/-- The profile read from the other end. -/
def revPfl (p : Pfl ℝ) : Pfl ℝ := { p with z := p.z.reverse }

theorem rev_getD {l : List ℝ} {j : ℕ} (h : j < l.length) : l.reverse.getD j 0 = l.getD (l.length - 1 - j) 0 := by
  simp only [List.getD]
  rw [List.getElem?_reverse h]

/-- **C36** Reading the profile from the other end and exchanging the antennas exchanges the angles. -/
theorem C36_angles {p : Pfl ℝ} {n : ℕ} {κ ha hb : ℝ} {the dl : Pair ℝ} (hn : 1 ≤ n) (hnp : p.np = n) (hx : 0 < p.xi)
    (hl : p.z.length = n + 1) (h : hzns p (n * p.xi) ⟨ha, hb⟩ κ = .ok (the, dl)) :
    ∃ dl', hzns (revPfl p) (n * p.xi) ⟨hb, ha⟩ κ = .ok (⟨the.x1, the.x0⟩, dl') ∧
      ((∀ i j, 1 ≤ i → i < j → j < n → elevation κ (p.z.getD 0 0 + ha) (i * p.xi) (p.z.getD i 0) ≠
          elevation κ (p.z.getD 0 0 + ha) (j * p.xi) (p.z.getD j 0)) → dl'.x1 = dl.x0) ∧
      ((∀ i j, 1 ≤ i → i < j → j < n → elevation κ (p.z.getD n 0 + hb) (((n : ℝ) - i) * p.xi) (p.z.getD i 0) ≠
          elevation κ (p.z.getD n 0 + hb) (((n : ℝ) - j) * p.xi) (p.z.getD j 0)) → dl'.x0 = dl.x1) := by
  obtain ⟨the', dl', h', a, b⟩ := hzns_ok (hg := ⟨ha, hb⟩) (κ := κ) hn hnp hx (by omega)
  rw [h, ok_inj, Prod.mk.injEq] at h'
  obtain ⟨rfl, rfl⟩ := h'
  obtain ⟨⟨t0, t1⟩, dl', h', a', b'⟩ := hzns_ok (p := revPfl p) (hg := ⟨hb, ha⟩) (κ := κ) hn hnp hx (by simp [revPfl, hl])
  have hrev : ∀ j, j ≤ n → (revPfl p).h j = p.h (n - j) := by
    intro j hj
    unfold Pfl.h revPfl
    dsimp only
    rw [rev_getD (by omega), hl]; congr 1
  rw [hrev 0 (by omega), hrev n le_rfl, Nat.sub_zero, Nat.sub_self] at a' b'
  have hva : ∀ j, 1 ≤ j → j ≤ n - 1 → hzB (revPfl p) n κ (p.h 0 + ha) j = hzA p κ (p.h 0 + ha) (n - 1 + 1 - j) := by
    intro j h1 h2
    unfold hzA hzB
    rw [hrev j (by omega), show n - 1 + 1 - j = n - j by omega, Nat.cast_sub (by omega)]; rfl
  have hvb : ∀ j, 1 ≤ j → j ≤ n - 1 → hzA (revPfl p) κ (p.h n + hb) j = hzB p n κ (p.h n + hb) (n - 1 + 1 - j) := by
    intro j h1 h2
    unfold hzA hzB
    rw [hrev j (by omega), show n - 1 + 1 - j = n - j by omega, Nat.cast_sub (by omega), sub_sub_cancel]; rfl
  have e0 : t1 = the.x0 := IsHorizon.angle_eq a b' hva
  have e1 : t0 = the.x1 := IsHorizon.angle_eq b a' hvb
  refine ⟨dl', by rw [← e0, ← e1]; exact h', fun hi => ?_, fun hi => ?_⟩
  · exact IsHorizon.dist_eq a b' hva (fun j h1 h2 => by
      rw [show n - 1 + 1 - j = n - j by omega, Nat.cast_sub (by omega)]; rfl) (fun i j h1 h2 h3 => hi i j h1 h2 (by omega))
  · exact IsHorizon.dist_eq b a' hvb (fun j h1 h2 => by
      rw [show n - 1 + 1 - j = n - j by omega, Nat.cast_sub (by omega), sub_sub_cancel]; rfl) (fun i j h1 h2 h3 => hi i j h1 h2 (by omega))

/-- An asymmetric profile of three intervals. -/
example : ∃ the dl, hzns (⟨3, 1, [0, 5, 1, 0]⟩ : Pfl ℝ) ((3 : ℕ) * 1) ⟨1, 2⟩ 0 = .ok (the, dl) ∧
    ∃ dl', hzns (revPfl ⟨3, 1, [0, 5, 1, 0]⟩) ((3 : ℕ) * 1) ⟨2, 1⟩ 0 = .ok (⟨the.x1, the.x0⟩, dl') := by
  obtain ⟨ta, tb, da, db, h, -⟩ := C35_horizons (p := ⟨3, 1, [0, 5, 1, 0]⟩) (n := 3) (κ := 0) (ha := 1) (hb := 2) (by norm_num) rfl (by norm_num) (by norm_num)
  obtain ⟨dl', h', -⟩ := C36_angles (p := ⟨3, 1, [0, 5, 1, 0]⟩) (n := 3) (by norm_num) rfl (by norm_num) (by norm_num) h
  exact ⟨_, _, h, dl', h'⟩

end Itm.Props
