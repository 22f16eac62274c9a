import Verif.Lemmas.PrepReal
import Verif.Props.C33
import Verif.Props.C35
import Verif.Props.C37

/-! `qlrpfl` before the call of `lrprop`, over the reals. -/

namespace Itm
open Itm.Spec Itm.Props

/-- Fit values at the two ends of the profile for a window given by distances. -/
noncomputable def lineAt (p : Pfl ℝ) (x1 x2 t : ℝ) : ℝ :=
  fitAt p.h ⌊x1 / p.xi⌋.toNat (⌈x2 / p.xi⌉ - ⌊x1 / p.xi⌋).toNat t

theorem zlsq1_line {p : Pfl ℝ} {x1 x2 : ℝ} (hx : 0 < p.xi) (hl : p.np < p.z.length) (h1 : 0 ≤ x1) (h12 : x1 < x2)
    (h2 : x2 ≤ p.np * p.xi) : zlsq1 p x1 x2 = .ok (lineAt p x1 x2 0, lineAt p x1 x2 p.np) := by
  obtain ⟨wa, wb⟩ := win_inside hx h1 h2
  have hlt : ⌊x1 / p.xi⌋ < ⌈x2 / p.xi⌉ := by
    have a := Int.floor_le (x1 / p.xi)
    have b := Int.le_ceil (x2 / p.xi)
    have c : x1 / p.xi < x2 / p.xi := div_lt_div_of_pos_right h12 hx
    have : ((⌊x1 / p.xi⌋ : ℤ) : ℝ) < ((⌈x2 / p.xi⌉ : ℤ) : ℝ) := by linarith
    exact_mod_cast this
  have h := zlsq1_ok (x1 := x1) (x2 := x2) hx hl (by rw [wa, wb]; exact hlt)
  rw [wa, wb] at h
  exact h

/-- Effective height before any stretching: antenna plus what the ground stands above the fitted line. -/
noncomputable def effHeight (hg ground line : ℝ) : ℝ := hg + max (ground - line) 0

theorem effHeight_ge {hg g l : ℝ} : hg ≤ effHeight hg g l := by
  unfold effHeight; have := le_max_right (g - l) 0; linarith

/-- Stretch factor of the heights on line-of-sight paths. -/
noncomputable def stretch (κ dh dist he0 he1 : ℝ) : ℝ :=
  if roughHorizon κ dh he0 + roughHorizon κ dh he1 ≤ dist then (dist / (roughHorizon κ dh he0 + roughHorizon κ dh he1)) ^ 2 else 1

theorem stretch_ge {κ dh dist he0 he1 : ℝ} (hκ : 0 < κ) (h0 : 0 < he0) (h1 : 0 < he1) : 1 ≤ stretch κ dh dist he0 he1 := by
  unfold stretch
  split_ifs with h
  · have hp : 0 < roughHorizon κ dh he0 + roughHorizon κ dh he1 := add_pos (roughHorizon_pos hκ h0) (roughHorizon_pos hκ h1)
    exact one_le_pow₀ ((one_le_div hp).2 h)
  · exact le_rfl

theorem stretch_reach {κ dh dist he0 he1 : ℝ} (hκ : 0 < κ) (hd : 0 ≤ dh) (h0 : 0 < he0) (h1 : 0 < he1) :
    dist ≤ roughHorizon κ dh (he0 * stretch κ dh dist he0 he1) + roughHorizon κ dh (he1 * stretch κ dh dist he0 he1) := by
  unfold stretch
  split_ifs with h
  · have hp : 0 < roughHorizon κ dh he0 + roughHorizon κ dh he1 := add_pos (roughHorizon_pos hκ h0) (roughHorizon_pos hκ h1)
    have hf : 1 ≤ dist / (roughHorizon κ dh he0 + roughHorizon κ dh he1) := (one_le_div hp).2 h
    have a := roughHorizon_scale (κ := κ) hd h0 hf
    have b := roughHorizon_scale (κ := κ) hd h1 hf
    have e : dist / (roughHorizon κ dh he0 + roughHorizon κ dh he1) * (roughHorizon κ dh he0 + roughHorizon κ dh he1) = dist := by
      field_simp
    calc dist = _ := e.symm
      _ ≤ _ := by rw [mul_add]; linarith
  · rw [mul_one, mul_one]; linarith

theorem pflLos_ok {p : PropSt ℝ} {xl : Pair ℝ} {n : ℕ} (hn : 1 ≤ n) (hnp : p.pfl.np = n) (hx : 0 < p.pfl.xi) (hl : n < p.pfl.z.length)
    (hg0 : 0 < p.hg.x0) (hg1 : 0 < p.hg.x1) (hκ : 0 < p.gme) (hd : 0 ≤ p.dh) (h1 : 0 ≤ xl.x0) (h12 : xl.x0 < xl.x1)
    (h2 : xl.x1 ≤ n * p.pfl.xi) : ∃ he0 he1 f,
      he0 = effHeight p.hg.x0 (p.pfl.h 0) (lineAt p.pfl xl.x0 xl.x1 0) ∧
      he1 = effHeight p.hg.x1 (p.pfl.h (n - 1)) (lineAt p.pfl xl.x0 xl.x1 n) ∧
      f = stretch p.gme p.dh p.dist he0 he1 ∧
      pflLos p xl = .ok { p with
        he := ⟨he0 * f, he1 * f⟩
        dl := ⟨roughHorizon p.gme p.dh (he0 * f), roughHorizon p.gme p.dh (he1 * f)⟩
        the := ⟨roughAngle p.gme p.dh (he0 * f), roughAngle p.gme p.dh (he1 * f)⟩ } := by
  refine ⟨_, _, _, rfl, rfl, rfl, ?_⟩
  have hnr : (p.pfl.np : ℝ) = n := by rw [hnp]; rfl
  unfold pflLos
  rw [zlsq1_line hx (by omega) h1 h12 (by rw [hnr]; exact h2), ok_bind, hnr]
  dsimp only
  have g0 : p.pfl.get 2 = .ok (p.pfl.h 0) := by
    have := Pfl.get_ok (p := p.pfl) (j := 0) (by omega)
    rw [← this]; congr 1
  have gn : p.pfl.get (p.pfl.np + 1) = .ok (p.pfl.h (n - 1)) := by
    rw [hnp, show (n : ℤ) + 1 = ((n - 1 : ℕ) : ℤ) + 2 by omega]; exact Pfl.get_ok (by omega)
  rw [g0, ok_bind, gn, ok_bind, pyMax_real, pyMax_real, zero_lit]
  obtain ⟨a, ha⟩ : ∃ a, a = effHeight p.hg.x0 (p.pfl.h 0) (lineAt p.pfl xl.x0 xl.x1 0) := ⟨_, rfl⟩
  obtain ⟨b, hb⟩ : ∃ b, b = effHeight p.hg.x1 (p.pfl.h (n - 1)) (lineAt p.pfl xl.x0 xl.x1 n) := ⟨_, rfl⟩
  have ha0 : 0 < a := by rw [ha]; exact lt_of_lt_of_le hg0 effHeight_ge
  have hb0 : 0 < b := by rw [hb]; exact lt_of_lt_of_le hg1 effHeight_ge
  have ea : p.hg.x0 + max (p.pfl.h 0 - lineAt p.pfl xl.x0 xl.x1 0) 0 = a := by rw [ha]; rfl
  have eb : p.hg.x1 + max (p.pfl.h (n - 1) - lineAt p.pfl xl.x0 xl.x1 n) 0 = b := by rw [hb]; rfl
  rw [← ha, ← hb, ea, eb, pflDl_ok hκ ha0 hd, ok_bind, pflDl_ok hκ hb0 hd, ok_bind]
  have hp : 0 < roughHorizon p.gme p.dh a + roughHorizon p.gme p.dh b := add_pos (roughHorizon_pos hκ ha0) (roughHorizon_pos hκ hb0)
  by_cases c : roughHorizon p.gme p.dh a + roughHorizon p.gme p.dh b ≤ p.dist
  · rw [if_pos c, pyDiv_ok hp.ne', ok_bind, npow_real]
    have es : stretch p.gme p.dh p.dist a b = (p.dist / (roughHorizon p.gme p.dh a + roughHorizon p.gme p.dh b)) ^ 2 := if_pos c
    have hs := stretch_ge (dh := p.dh) (dist := p.dist) hκ ha0 hb0
    rw [← es]
    rw [pflDl_ok hκ (by positivity) hd, ok_bind, pflDl_ok hκ (by positivity) hd, ok_bind, pure_ok, ok_bind]
    dsimp only
    rw [pflThe_ok hκ (by positivity), ok_bind, pflThe_ok hκ (by positivity), ok_bind]; rfl
  · rw [if_neg c, pure_ok, ok_bind]
    have es : stretch p.gme p.dh p.dist a b = 1 := if_neg c
    dsimp only
    rw [es, mul_one, mul_one, pflThe_ok hκ ha0, ok_bind, pflThe_ok hκ hb0, ok_bind]; rfl

theorem pflObs_ok {p : PropSt ℝ} {xl : Pair ℝ} {n : ℕ} (hnp : p.pfl.np = n) (hx : 0 < p.pfl.xi) (hl : n < p.pfl.z.length)
    (h1 : 0 ≤ xl.x0) (h2 : xl.x1 ≤ n * p.pfl.xi) (a : xl.x0 < 0.9 * p.dl.x0) (a2 : 0.9 * p.dl.x0 ≤ n * p.pfl.xi)
    (b : p.dist - 0.9 * p.dl.x1 < xl.x1) (b2 : 0 ≤ p.dist - 0.9 * p.dl.x1) :
    pflObs p xl = .ok { p with he := ⟨effHeight p.hg.x0 (p.pfl.h 0) (lineAt p.pfl xl.x0 (0.9 * p.dl.x0) 0),
      effHeight p.hg.x1 (p.pfl.h n) (lineAt p.pfl (p.dist - 0.9 * p.dl.x1) xl.x1 n)⟩ } := by
  have hnr : (p.pfl.np : ℝ) = n := by rw [hnp]; rfl
  unfold pflObs
  rw [zlsq1_line hx (by omega) h1 a (by rw [hnr]; exact a2), ok_bind]
  dsimp only
  rw [zlsq1_line hx (by omega) b2 b (by rw [hnr]; exact h2), ok_bind, hnr]
  dsimp only
  have g0 : p.pfl.get 2 = .ok (p.pfl.h 0) := by
    have := Pfl.get_ok (p := p.pfl) (j := 0) (by omega)
    rw [← this]; congr 1
  have gn : p.pfl.get (p.pfl.np + 2) = .ok (p.pfl.h n) := by rw [hnp]; exact Pfl.get_ok hl
  rw [g0, ok_bind, gn, ok_bind, pyMax_real, pyMax_real, zero_lit]; rfl

/-- The horizons of the two terminals do not cross: either the path is clear and both are the full path, or the first horizon
lies before the second one. -/
theorem hz_sum {p : Pfl ℝ} {n : ℕ} {κ : ℝ} {hg the dl : Pair ℝ} (hn : 1 ≤ n) (hnp : p.np = n) (hx : 0 < p.xi) (hl : n < p.z.length)
    (h : hzns p (n * p.xi) hg κ = .ok (the, dl)) :
    (dl = ⟨n * p.xi, n * p.xi⟩ ∧ ∀ j : ℕ, 1 ≤ j → j < n →
      elevation κ (p.h 0 + hg.x0) (j * p.xi) (p.h j) ≤ elevation κ (p.h 0 + hg.x0) (n * p.xi) (p.h n + hg.x1)) ∨
    (p.xi ≤ dl.x0 ∧ p.xi ≤ dl.x1 ∧ dl.x0 + dl.x1 ≤ n * p.xi ∧ ∃ j : ℕ, 1 ≤ j ∧ j < n ∧
      elevation κ (p.h 0 + hg.x0) (n * p.xi) (p.h n + hg.x1) < elevation κ (p.h 0 + hg.x0) (j * p.xi) (p.h j)) := by
  obtain ⟨the', dl', h', a, b⟩ := hzns_ok (hg := hg) (κ := κ) hn hnp hx hl
  rw [h, ok_inj, Prod.mk.injEq] at h'
  obtain ⟨rfl, rfl⟩ := h'
  obtain ⟨za, hza⟩ : ∃ za, za = p.h 0 + hg.x0 := ⟨_, rfl⟩
  obtain ⟨zb, hzb⟩ : ∃ zb, zb = p.h n + hg.x1 := ⟨_, rfl⟩
  rw [← hza, ← hzb] at a b ⊢
  have hn' : (0 : ℝ) < n := by exact_mod_cast hn
  have hlt : ∀ j : ℕ, j ≤ n - 1 → ((j : ℝ)) < n := by intro j hj; exact_mod_cast (by omega : j < n)
  -- height of a point above the sight line
  obtain ⟨e, he⟩ : ∃ e : ℕ → ℝ, e = fun j => (p.h j - za) - (zb - za) * (j / n) + κ / 2 * (j * p.xi) * (((n : ℝ) - j) * p.xi) := ⟨_, rfl⟩
  have ea : ∀ j : ℕ, 1 ≤ j → j ≤ n - 1 → hzA p κ za j - elevation κ za (n * p.xi) zb = e j / (j * p.xi) := by
    intro j h1 h2
    have hj : (0 : ℝ) < j := by exact_mod_cast h1
    unfold hzA elevation; rw [he]; field_simp; ring
  have eb : ∀ j : ℕ, 1 ≤ j → j ≤ n - 1 → hzB p n κ zb j - elevation κ zb (n * p.xi) za = e j / (((n : ℝ) - j) * p.xi) := by
    intro j h1 h2
    have hj : (0 : ℝ) < (n : ℝ) - j := by linarith [hlt j h2]
    unfold hzB elevation; rw [he]; field_simp; ring
  rcases a.attained with a1 | ⟨j, j1, j2, j3, j4, j5, -⟩
  · left
    constructor
    · rcases b.attained with b1 | ⟨i, i1, i2, i3, i4, i5, -⟩
      · obtain ⟨d0, d1⟩ := dl
        simp only at a1 b1
        rw [a1.2, b1.2]
      · exfalso
        have p1 := ea i i1 i2
        have p2 := eb i i1 i2
        have hi : (0 : ℝ) < i := by exact_mod_cast i1
        have hi' : (0 : ℝ) < (n : ℝ) - i := by linarith [hlt i i2]
        have q1 : e i / (i * p.xi) ≤ 0 := by rw [← p1]; have := a.view_le i i1 i2; linarith [a1.1]
        have q2 : 0 < e i / (((n : ℝ) - i) * p.xi) := by rw [← p2]; linarith
        have := (div_pos_iff_of_pos_right (mul_pos hi' hx)).1 q2
        have : 0 < e i / (i * p.xi) := by positivity
        linarith
    · intro j h1 h2
      have := a.view_le j h1 (by omega)
      rw [a1.1] at this
      exact this
  · right
    rcases b.attained with b1 | ⟨i, i1, i2, i3, i4, i5, -⟩
    · exfalso
      have p1 := ea j j1 j2
      have p2 := eb j j1 j2
      have hi : (0 : ℝ) < j := by exact_mod_cast j1
      have hi' : (0 : ℝ) < (n : ℝ) - j := by linarith [hlt j j2]
      have q1 : 0 < e j / (j * p.xi) := by rw [← p1]; linarith
      have q2 : e j / (((n : ℝ) - j) * p.xi) ≤ 0 := by rw [← p2]; have := b.view_le j j1 j2; linarith [b1.1]
      have := (div_pos_iff_of_pos_right (mul_pos hi hx)).1 q1
      have : 0 < e j / (((n : ℝ) - j) * p.xi) := by positivity
      linarith
    · have hj : (0 : ℝ) < j := by exact_mod_cast j1
      have hi : (0 : ℝ) < i := by exact_mod_cast i1
      have hj' : (0 : ℝ) < (n : ℝ) - j := by linarith [hlt j j2]
      have hi' : (0 : ℝ) < (n : ℝ) - i := by linarith [hlt i i2]
      have hji : j ≤ i := by
        by_contra hc
        have hc : (i : ℝ) < j := by exact_mod_cast not_le.1 hc
        have q1 : e i / (i * p.xi) ≤ e j / (j * p.xi) := by
          rw [← ea i i1 i2, ← ea j j1 j2]; have := a.view_le i i1 i2; linarith
        have q2 : e j / (((n : ℝ) - j) * p.xi) ≤ e i / (((n : ℝ) - i) * p.xi) := by
          rw [← eb i i1 i2, ← eb j j1 j2]; have := b.view_le j j1 j2; linarith
        have q3 : 0 < e j / (j * p.xi) := by rw [← ea j j1 j2]; linarith
        have q4 : 0 < e i / (((n : ℝ) - i) * p.xi) := by rw [← eb i i1 i2]; linarith
        have pj := (div_pos_iff_of_pos_right (mul_pos hj hx)).1 q3
        have pi := (div_pos_iff_of_pos_right (mul_pos hi' hx)).1 q4
        rw [div_le_div_iff₀ (by positivity) (by positivity)] at q1 q2
        have q1 : e i * j ≤ e j * i := by nlinarith [mul_pos hx hx]
        have q2 : e j * ((n : ℝ) - i) ≤ e i * ((n : ℝ) - j) := by
          have : (e j * ((n : ℝ) - i)) * p.xi ≤ (e i * ((n : ℝ) - j)) * p.xi := by linarith
          exact le_of_mul_le_mul_right this hx
        have r1 : e i * j < e j * j := lt_of_le_of_lt q1 (by nlinarith)
        have r1 : e i < e j := lt_of_mul_lt_mul_right r1 hj.le
        have r2 : e j * ((n : ℝ) - i) < e i * ((n : ℝ) - i) := lt_of_le_of_lt q2 (by nlinarith)
        have r2 : e j < e i := lt_of_mul_lt_mul_right r2 hi'.le
        linarith
      have hji' : (j : ℝ) ≤ i := by exact_mod_cast hji
      have hj1 : (1 : ℝ) ≤ j := by exact_mod_cast j1
      have hi1 : (i : ℝ) + 1 ≤ n := by exact_mod_cast (by omega : i + 1 ≤ n)
      rw [j5, i5]
      refine ⟨by nlinarith, by nlinarith, by nlinarith, j, j1, by omega, j3⟩

/-- Everything `qlrpflPrep` computes. -/
structure PflPrep (p q : PropSt ℝ) (n : ℕ) : Prop where
  /-- horizons, trimmed window, irregularity and effective heights -/
  data : ∃ (the dl : Pair ℝ) (dh x1 x2 : ℝ), hzns p.pfl (n * p.pfl.xi) p.hg p.gme = .ok (the, dl) ∧
    x1 = min (15 * p.hg.x0) (0.1 * dl.x0) ∧ x2 = n * p.pfl.xi - min (15 * p.hg.x1) (0.1 * dl.x1) ∧
    0 < x1 ∧ x1 < x2 ∧ x2 < n * p.pfl.xi ∧ dlthx p.pfl x1 x2 = .ok dh ∧ 0 ≤ dh ∧ q.dh = dh ∧
    ((dl = ⟨n * p.pfl.xi, n * p.pfl.xi⟩ ∧ ∃ he0 he1 f,
        he0 = effHeight p.hg.x0 (p.pfl.h 0) (lineAt p.pfl x1 x2 0) ∧
        he1 = effHeight p.hg.x1 (p.pfl.h (n - 1)) (lineAt p.pfl x1 x2 n) ∧
        f = stretch p.gme dh (n * p.pfl.xi) he0 he1 ∧
        q.he = ⟨he0 * f, he1 * f⟩ ∧
        q.dl = ⟨roughHorizon p.gme dh (he0 * f), roughHorizon p.gme dh (he1 * f)⟩ ∧
        q.the = ⟨roughAngle p.gme dh (he0 * f), roughAngle p.gme dh (he1 * f)⟩) ∨
     (dl ≠ ⟨n * p.pfl.xi, n * p.pfl.xi⟩ ∧ q.dl = dl ∧ q.the = the ∧
        q.he = ⟨effHeight p.hg.x0 (p.pfl.h 0) (lineAt p.pfl x1 (0.9 * dl.x0) 0),
          effHeight p.hg.x1 (p.pfl.h n) (lineAt p.pfl (n * p.pfl.xi - 0.9 * dl.x1) x2 n)⟩))
  rest : q = { p with
    he := q.he
    dl := q.dl
    the := q.the
    dh := q.dh
    dist := n * p.pfl.xi
    mdp := -1
    lvar := if 0 < p.klimx then 5 else if 0 ≤ p.mdvarx then max p.lvar 4 else max p.lvar 3
    mdvar := if 0 ≤ p.mdvarx then some p.mdvarx else p.mdvar
    klim := if 0 < p.klimx then some p.klimx else p.klim }

theorem qlrpflPrep_ok {p : PropSt ℝ} {n : ℕ} (hn : 1 ≤ n) (hnp : p.pfl.np = n) (hx : 0 < p.pfl.xi) (hl : n < p.pfl.z.length)
    (hg0 : 0 < p.hg.x0) (hg1 : 0 < p.hg.x1) (hκ : 0 < p.gme) : ∃ q, qlrpflPrep p = .ok q ∧ PflPrep p q n := by
  have hn' : (0 : ℝ) < n := by exact_mod_cast hn
  have hn1 : (1 : ℝ) ≤ n := by exact_mod_cast hn
  obtain ⟨the, dl, hz, -, -⟩ := hzns_ok (hg := p.hg) (κ := p.gme) hn hnp hx hl
  have hs := hz_sum hn hnp hx hl hz
  have e15 : (15.0 : ℝ) = 15 := by norm_num
  obtain ⟨x1, hx1⟩ : ∃ x1, x1 = min (15 * p.hg.x0) (0.1 * dl.x0) := ⟨_, rfl⟩
  obtain ⟨x2, hx2⟩ : ∃ x2, x2 = n * p.pfl.xi - min (15 * p.hg.x1) (0.1 * dl.x1) := ⟨_, rfl⟩
  have hD : 0 < n * p.pfl.xi := by positivity
  have hd : (0 < dl.x0 ∧ dl.x0 ≤ n * p.pfl.xi) ∧ 0 < dl.x1 ∧ dl.x1 ≤ n * p.pfl.xi := by
    rcases hs with ⟨rfl, -⟩ | ⟨a, b, c, -⟩
    · exact ⟨⟨hD, le_rfl⟩, hD, le_rfl⟩
    · exact ⟨⟨by linarith, by linarith⟩, by linarith, by linarith⟩
  have a1 : 0 < x1 := by rw [hx1]; exact lt_min (by linarith) (by linarith [hd.1.1])
  have a2 : x1 ≤ 0.1 * dl.x0 := by rw [hx1]; exact min_le_right _ _
  have b1 : x2 < n * p.pfl.xi := by
    have : 0 < min (15 * p.hg.x1) (0.1 * dl.x1) := lt_min (by linarith) (by linarith [hd.2.1])
    rw [hx2]; linarith
  have b2 : n * p.pfl.xi - 0.1 * dl.x1 ≤ x2 := by rw [hx2]; have := min_le_right (15 * p.hg.x1) (0.1 * dl.x1); linarith
  norm_num at a2 b2
  have h12 : x1 < x2 := by linarith [hd.1.2, hd.2.2]
  have hnr : (p.pfl.np : ℝ) = n := by rw [hnp]; rfl
  obtain ⟨dh, edh, -⟩ := C37_value (x2 := x2) hx (by omega) a1.le (by rw [hnr]; exact b1.le)
  have hdh := C37_nonneg hx (by omega) a1.le (by rw [hnr]; exact b1.le) edh
  unfold qlrpflPrep
  dsimp only
  rw [rofInt, hnr, hz, ok_bind]
  dsimp only
  simp only [pyMin_real]
  rw [e15, ← hx1, ← hx2, edh, ok_bind]
  by_cases c : 1.5 * (n * p.pfl.xi) ≤ dl.x0 + dl.x1
  · have hdl : dl = ⟨n * p.pfl.xi, n * p.pfl.xi⟩ := by
      rcases hs with ⟨h, -⟩ | ⟨-, -, h, -⟩
      · exact h
      · exfalso; norm_num at c; linarith
    rw [if_pos c]
    obtain ⟨he0, he1, f, e0, e1, ef, e⟩ := pflLos_ok (p := { p with dist := n * p.pfl.xi, the, dl, dh }) (xl := ⟨x1, x2⟩) hn hnp hx hl hg0 hg1 hκ hdh a1.le h12 b1.le
    rw [e, ok_bind]
    dsimp only at e0 e1 ef ⊢
    refine ⟨_, rfl, ⟨⟨the, dl, dh, x1, x2, hz, hx1, hx2, a1, h12, b1, edh, hdh, ?_, .inl ⟨hdl, he0, he1, f, e0, e1, ef, ?_, ?_, ?_⟩⟩, ?_⟩⟩
    · rw [(prepMarks_marked _).rest]
    · rw [(prepMarks_marked _).rest]
    · rw [(prepMarks_marked _).rest]
    · rw [(prepMarks_marked _).rest]
    · rw [(prepMarks_marked _).rest, (prepMarks_marked _).lvar, (prepMarks_marked _).mdvar, (prepMarks_marked _).klim]
  · rw [if_neg c]
    have hdl : dl ≠ ⟨n * p.pfl.xi, n * p.pfl.xi⟩ := by
      intro h
      apply c
      rw [h]; norm_num; linarith
    rw [pflObs_ok (n := n) (p := { p with dist := n * p.pfl.xi, the, dl, dh }) (xl := ⟨x1, x2⟩) hnp hx hl a1.le b1.le
      (by norm_num; linarith [hd.1.1]) (by norm_num; linarith [hd.1.1]) (by norm_num; linarith [hd.2.1]) (by norm_num; linarith [hd.2.1]), ok_bind]
    dsimp only
    refine ⟨_, rfl, ⟨⟨the, dl, dh, x1, x2, hz, hx1, hx2, a1, h12, b1, edh, hdh, ?_, .inr ⟨hdl, ?_, ?_, ?_⟩⟩, ?_⟩⟩
    · rw [(prepMarks_marked _).rest]
    · rw [(prepMarks_marked _).rest]
    · rw [(prepMarks_marked _).rest]
    · rw [(prepMarks_marked _).rest]
    · rw [(prepMarks_marked _).rest, (prepMarks_marked _).lvar, (prepMarks_marked _).mdvar, (prepMarks_marked _).klim]

end Itm
