import Verif.Lemmas.Zlsq
import Verif.Spec.Horizon

/-! `hzns` over the reals. -/

namespace Itm
open Itm.Spec

theorem IsHorizon.hit {view pos : ℕ → ℝ} {far full θ d : ℝ} {m : ℕ} (h : IsHorizon view far pos full m θ d) (hv : θ < view (m + 1)) :
    IsHorizon view far pos full (m + 1) (view (m + 1)) (pos (m + 1)) where
  far_le := h.far_le.trans hv.le
  view_le := by
    intro j h1 h2
    rcases Nat.lt_or_ge m j with hj | hj
    · rw [show j = m + 1 by omega]
    · exact (h.view_le j h1 hj).trans hv.le
  attained := .inr ⟨m + 1, by omega, le_rfl, h.far_le.trans_lt hv, rfl, rfl, fun i h1 h2 => (h.view_le i h1 (by omega)).trans_lt hv⟩

theorem IsHorizon.miss {view pos : ℕ → ℝ} {far full θ d : ℝ} {m : ℕ} (h : IsHorizon view far pos full m θ d) (hv : view (m + 1) ≤ θ) :
    IsHorizon view far pos full (m + 1) θ d where
  far_le := h.far_le
  view_le := by
    intro j h1 h2
    rcases Nat.lt_or_ge m j with hj | hj
    · rw [show j = m + 1 by omega]; exact hv
    · exact h.view_le j h1 hj
  attained := by
    rcases h.attained with h | ⟨j, h1, h2, h3⟩
    · exact .inl h
    · exact .inr ⟨j, h1, by omega, h3⟩

theorem IsHorizon.start (view pos : ℕ → ℝ) (far full : ℝ) : IsHorizon view far pos full 0 far full where
  far_le := le_rfl
  view_le := by intro j h1 h2; omega
  attained := .inl ⟨rfl, rfl⟩

/-- The angle is determined. -/
theorem IsHorizon.angle_eq {view view' pos pos' : ℕ → ℝ} {far full full' θ d θ' d' : ℝ} {m : ℕ} (h : IsHorizon view far pos full m θ d)
    (h' : IsHorizon view' far pos' full' m θ' d') (hv : ∀ j, 1 ≤ j → j ≤ m → view' j = view (m + 1 - j)) : θ' = θ := by
  apply le_antisymm
  · rcases h'.attained with h1 | ⟨j, h1, h2, -, h3, -⟩
    · rw [h1.1]; exact h.far_le
    · rw [h3, hv j h1 h2]; exact h.view_le _ (by omega) (by omega)
  · rcases h.attained with h1 | ⟨j, h1, h2, -, h3, -⟩
    · rw [h1.1]; exact h'.far_le
    · rw [h3]
      have := h'.view_le (m + 1 - j) (by omega) (by omega)
      rwa [hv _ (by omega) (by omega), show m + 1 - (m + 1 - j) = j by omega] at this

/-- The distance is determined if no two points have the same angle. -/
theorem IsHorizon.dist_eq {view view' pos pos' : ℕ → ℝ} {far full θ d θ' d' : ℝ} {m : ℕ} (h : IsHorizon view far pos full m θ d)
    (h' : IsHorizon view' far pos' full m θ' d') (hv : ∀ j, 1 ≤ j → j ≤ m → view' j = view (m + 1 - j))
    (hp : ∀ j, 1 ≤ j → j ≤ m → pos' j = pos (m + 1 - j))
    (hi : ∀ i j, 1 ≤ i → i < j → j ≤ m → view i ≠ view j) : d' = d := by
  have hθ := IsHorizon.angle_eq h h' hv
  rcases h.attained with h1 | ⟨j, h1, h2, h3, h4, h5, -⟩
  · rcases h'.attained with h1' | ⟨j, h1', h2', h3', h4', -⟩
    · rw [h1.2, h1'.2]
    · exfalso; linarith [h1.1]
  · rcases h'.attained with h1' | ⟨i, h1', h2', h3', h4', h5', -⟩
    · exfalso; linarith [h1'.1]
    · have e : view (m + 1 - i) = view j := by rw [← hv i h1' h2', ← h4', hθ, h4]
      have : m + 1 - i = j := by
        rcases Nat.lt_trichotomy (m + 1 - i) j with c | c | c
        · exact absurd e (hi _ _ (by omega) c h2)
        · exact c
        · exact absurd e.symm (hi _ _ h1 c (by omega))
      rw [h5', hp i h1' h2', this, h5]

/-- A point rises above the line between the terminals as seen from one end exactly if it does as seen from the other. -/
theorem exceeds_iff {κ za zb s t z : ℝ} (hs : 0 < s) (ht : 0 < t) :
    elevation κ za (s + t) zb < elevation κ za s z ↔ elevation κ zb (s + t) za < elevation κ zb t z := by
  have hst : 0 < s + t := by linarith
  unfold elevation
  have e1 : (z - za) / s - κ / 2 * s - ((zb - za) / (s + t) - κ / 2 * (s + t)) =
      ((z - za) * (s + t) - (zb - za) * s + κ / 2 * s * t * (s + t)) / (s * (s + t)) := by field_simp; ring
  have e2 : (z - zb) / t - κ / 2 * t - ((za - zb) / (s + t) - κ / 2 * (s + t)) =
      ((z - za) * (s + t) - (zb - za) * s + κ / 2 * s * t * (s + t)) / (t * (s + t)) := by field_simp; ring
  rw [← sub_pos, e1, ← sub_pos (a := (z - zb) / t - κ / 2 * t), e2, div_pos_iff_of_pos_right (by positivity), div_pos_iff_of_pos_right (by positivity)]

/-- One comparison of the loop. -/
theorem above_iff {κ h s z θ : ℝ} (hs : 0 < s) : 0 < z - (0.5 * κ * s + θ) * s - h ↔ θ < elevation κ h s z := by
  have e : z - (0.5 * κ * s + θ) * s - h = s * (elevation κ h s z - θ) := by
    unfold elevation; field_simp; norm_num; ring
  rw [e]
  constructor
  · intro hp; have := (pos_iff_pos_of_mul_pos hp).1 hs; linarith
  · intro hp; exact mul_pos hs (by linarith)

theorem above_val {κ h s z θ : ℝ} (hs : 0 < s) : θ + (z - (0.5 * κ * s + θ) * s - h) / s = elevation κ h s z := by
  unfold elevation; field_simp; norm_num; ring

/-- View from the first terminal. -/
noncomputable def hzA (p : Pfl ℝ) (κ za : ℝ) (j : ℕ) : ℝ := elevation κ za (j * p.xi) (p.h j)
/-- View from the second terminal. -/
noncomputable def hzB (p : Pfl ℝ) (n : ℕ) (κ zb : ℝ) (j : ℕ) : ℝ := elevation κ zb (((n : ℝ) - j) * p.xi) (p.h j)

/-- Loop invariant after `m` turns. -/
structure HzInv (p : Pfl ℝ) (n : ℕ) (κ za zb : ℝ) (m : ℕ) (s : HzSt ℝ) : Prop where
  sa : s.sa = m * p.xi
  sb : s.sb = ((n : ℝ) - m) * p.xi
  a : IsHorizon (hzA p κ za) (elevation κ za (n * p.xi) zb) (fun j => j * p.xi) (n * p.xi) m s.the.x0 s.dl.x0
  b : IsHorizon (hzB p n κ zb) (elevation κ zb (n * p.xi) za) (fun j => ((n : ℝ) - j) * p.xi) (n * p.xi) m s.the.x1 s.dl.x1
  wq : s.wq = true → s.the.x0 = elevation κ za (n * p.xi) zb ∧ s.the.x1 = elevation κ zb (n * p.xi) za

theorem hznsStep_ok {p : Pfl ℝ} {n m : ℕ} {κ za zb : ℝ} {s : HzSt ℝ} (hx : 0 < p.xi) (hl : n < p.z.length) (hm : m + 1 < n)
    (h : HzInv p n κ za zb m s) : ∃ s', hznsStep p (0.5 * κ) za zb ((m : ℤ) + 2) s = .ok s' ∧ HzInv p n κ za zb (m + 1) s' := by
  obtain ⟨sa, sb, ⟨t0, t1⟩, ⟨d0, d1⟩, wq⟩ := s
  obtain ⟨isa, isb, ia, ib, iw⟩ := h
  dsimp only at isa isb ia ib iw
  have esa : sa + p.xi = ((m + 1 : ℕ) : ℝ) * p.xi := by rw [isa]; push_cast; ring
  have esb : sb - p.xi = ((n : ℝ) - ((m + 1 : ℕ) : ℝ)) * p.xi := by rw [isb]; push_cast; ring
  have hmn : ((m + 1 : ℕ) : ℝ) < n := by exact_mod_cast hm
  have psa : 0 < ((m + 1 : ℕ) : ℝ) * p.xi := by positivity
  have psb : 0 < ((n : ℝ) - ((m + 1 : ℕ) : ℝ)) * p.xi := mul_pos (by linarith) hx
  have hadd : ((m + 1 : ℕ) : ℝ) * p.xi + ((n : ℝ) - ((m + 1 : ℕ) : ℝ)) * p.xi = n * p.xi := by ring
  have hg : p.get ((m : ℤ) + 2 + 1) = .ok (p.h (m + 1)) := by
    have := Pfl.get_ok (p := p) (j := m + 1) (by omega)
    rw [← this]; rfl
  unfold hznsStep
  dsimp only
  rw [hg, ok_bind, esa, esb]
  have hex := exceeds_iff (κ := κ) (za := za) (zb := zb) (z := p.h (m + 1)) psa psb
  rw [hadd] at hex
  simp only [zero_lit, above_iff psa]
  by_cases ha : t0 < elevation κ za (((m + 1 : ℕ) : ℝ) * p.xi) (p.h (m + 1))
  · rw [if_pos ha, pyDiv_ok psa.ne', ok_bind, pure_ok, ok_bind, above_val psa]
    simp only [if_true, ok_bind, above_iff psb]
    by_cases hb : t1 < elevation κ zb (((n : ℝ) - ((m + 1 : ℕ) : ℝ)) * p.xi) (p.h (m + 1))
    · rw [if_pos hb, pyDiv_ok psb.ne', ok_bind, pure_ok, above_val psb]
      exact ⟨_, rfl, rfl, rfl, IsHorizon.hit ia ha, IsHorizon.hit ib hb, by simp⟩
    · rw [if_neg hb, pure_ok]
      exact ⟨_, rfl, rfl, rfl, IsHorizon.hit ia ha, IsHorizon.miss ib (not_lt.1 hb), by simp⟩
  · rw [if_neg ha, pure_ok, ok_bind]
    cases wq
    · simp only [if_true, ok_bind, above_iff psb]
      by_cases hb : t1 < elevation κ zb (((n : ℝ) - ((m + 1 : ℕ) : ℝ)) * p.xi) (p.h (m + 1))
      · rw [if_pos hb, pyDiv_ok psb.ne', ok_bind, pure_ok, above_val psb]
        exact ⟨_, rfl, rfl, rfl, IsHorizon.miss ia (not_lt.1 ha), IsHorizon.hit ib hb, by simp⟩
      · rw [if_neg hb, pure_ok]
        exact ⟨_, rfl, rfl, rfl, IsHorizon.miss ia (not_lt.1 ha), IsHorizon.miss ib (not_lt.1 hb), by simp⟩
    · rw [if_neg (by simp), pure_ok]
      obtain ⟨e1, e2⟩ := iw rfl
      have hb : ¬ t1 < hzB p n κ zb (m + 1) := by
        intro hb
        rw [e2] at hb
        apply ha
        rw [e1]
        exact hex.2 hb
      exact ⟨_, rfl, rfl, rfl, IsHorizon.miss ia (not_lt.1 ha), IsHorizon.miss ib (not_lt.1 hb), fun _ => ⟨e1, e2⟩⟩

theorem hznsLoop_ok {p : Pfl ℝ} {n : ℕ} {κ za zb : ℝ} (hx : 0 < p.xi) (hl : n < p.z.length) (k : ℕ) :
    ∀ {m : ℕ} {s : HzSt ℝ}, m + k < n → HzInv p n κ za zb m s →
      ∃ s', hznsLoop p (0.5 * κ) za zb k ((m : ℤ) + 2) s = .ok s' ∧ HzInv p n κ za zb (m + k) s' := by
  induction k with
  | zero => intro m s _ h; exact ⟨s, rfl, h⟩
  | succ k ih =>
    intro m s hm h
    obtain ⟨s', e1, h'⟩ := hznsStep_ok hx hl (by omega) h
    obtain ⟨s'', e2, h''⟩ := ih (m := m + 1) (by omega) h'
    refine ⟨s'', ?_, by rwa [show m + (k + 1) = m + 1 + k by omega]⟩
    unfold hznsLoop
    rw [e1, ok_bind, ← e2]
    congr 1

theorem hzns_ok {p : Pfl ℝ} {n : ℕ} {κ : ℝ} {hg : Pair ℝ} (hn : 1 ≤ n) (hnp : p.np = n) (hx : 0 < p.xi) (hl : n < p.z.length) :
    ∃ the dl : Pair ℝ, hzns p (n * p.xi) hg κ = .ok (the, dl) ∧
      IsHorizon (hzA p κ (p.h 0 + hg.x0)) (elevation κ (p.h 0 + hg.x0) (n * p.xi) (p.h n + hg.x1)) (fun j => j * p.xi) (n * p.xi) (n - 1) the.x0 dl.x0 ∧
      IsHorizon (hzB p n κ (p.h n + hg.x1)) (elevation κ (p.h n + hg.x1) (n * p.xi) (p.h 0 + hg.x0)) (fun j => ((n : ℝ) - j) * p.xi) (n * p.xi) (n - 1)
        the.x1 dl.x1 := by
  obtain ⟨za, hza⟩ : ∃ za, za = p.h 0 + hg.x0 := ⟨_, rfl⟩
  obtain ⟨zb, hzb⟩ : ∃ zb, zb = p.h n + hg.x1 := ⟨_, rfl⟩
  rw [← hza, ← hzb]
  have hn' : (0 : ℝ) < n := by exact_mod_cast hn
  have hD : 0 < n * p.xi := by positivity
  have g0 : p.get 2 = .ok (p.h 0) := by
    have := Pfl.get_ok (p := p) (j := 0) (by omega)
    rw [← this]; congr 1
  have gn : p.get (p.np + 2) = .ok (p.h n) := by rw [hnp]; exact Pfl.get_ok hl
  have inv0 : HzInv p n κ za zb 0 { sa := 0, sb := n * p.xi, the := ⟨(zb - za) / (n * p.xi) - 0.5 * κ * (n * p.xi), -((zb - za) / (n * p.xi)) - 0.5 * κ * (n * p.xi)⟩, dl := ⟨n * p.xi, n * p.xi⟩, wq := true } := by
    have e1 : (zb - za) / (n * p.xi) - 0.5 * κ * (n * p.xi) = elevation κ za (n * p.xi) zb := by
      have e5 : (0.5 : ℝ) = 1 / 2 := by norm_num
      rw [e5]; unfold elevation; ring
    have e2 : -((zb - za) / (n * p.xi)) - 0.5 * κ * (n * p.xi) = elevation κ zb (n * p.xi) za := by
      have e5 : (0.5 : ℝ) = 1 / 2 := by norm_num
      rw [e5]; unfold elevation; ring
    rw [e1, e2]
    exact ⟨by simp, by simp, IsHorizon.start .., IsHorizon.start .., fun _ => ⟨rfl, rfl⟩⟩
  unfold hzns
  rw [g0, ok_bind, gn, ok_bind]
  dsimp only
  rw [← hza, ← hzb, pyDiv_ok hD.ne', ok_bind, zero_lit]
  by_cases h2 : 2 ≤ p.np
  · rw [if_pos h2]
    obtain ⟨s', e, h'⟩ := hznsLoop_ok hx hl (n - 1) (by omega) inv0
    rw [show (p.np - 1).toNat = n - 1 by omega, show (2 : ℤ) = ((0 : ℕ) : ℤ) + 2 by simp, e, ok_bind]
    rw [Nat.zero_add] at h'
    exact ⟨s'.the, s'.dl, rfl, h'.a, h'.b⟩
  · rw [if_neg h2, pure_ok, ok_bind]
    have : n - 1 = 0 := by omega
    rw [this]
    exact ⟨_, _, rfl, inv0.a, inv0.b⟩

end Itm
