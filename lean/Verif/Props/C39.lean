import Verif.Lemmas.PflReal
import Verif.Lemmas.Witness

/-! C39, C40: the point-to-point preparation of `qlrpfl`. -/

namespace Itm.Props
open Itm Itm.Spec

/-- **C39** For every profile of at least one interval, positive antenna heights and positive curvature the preparation does not
raise, and its results are usable. -/
theorem C39_total {p : PropSt ℝ} {n : ℕ} (hn : 1 ≤ n) (hnp : p.pfl.np = n) (hx : 0 < p.pfl.xi) (hl : n < p.pfl.z.length)
    (hg0 : 0 < p.hg.x0) (hg1 : 0 < p.hg.x1) (hκ : 0 < p.gme) :
    ∃ q, qlrpflPrep p = .ok q ∧ p.hg.x0 ≤ q.he.x0 ∧ p.hg.x1 ≤ q.he.x1 ∧ 0 < q.dl.x0 ∧ 0 < q.dl.x1 ∧ 0 ≤ q.dh ∧
      q.dist = n * p.pfl.xi ∧ q.mdp = -1 ∧ 3 ≤ q.lvar ∧ (0 ≤ p.mdvarx → 4 ≤ q.lvar ∧ q.mdvar = some p.mdvarx) ∧
      (0 < p.klimx → q.lvar = 5 ∧ q.klim = some p.klimx) := by
  obtain ⟨q, e, h⟩ := qlrpflPrep_ok hn hnp hx hl hg0 hg1 hκ
  have hr := h.rest
  obtain ⟨the, dl, dh, x1, x2, hz, -, -, -, -, -, -, hdh, qdh, hc⟩ := h.data
  have hpos := C35_both_or_neither (ha := p.hg.x0) (hb := p.hg.x1) hn hnp hx hl hz
  refine ⟨q, e, ?_⟩
  have hhe : p.hg.x0 ≤ q.he.x0 ∧ p.hg.x1 ≤ q.he.x1 ∧ 0 < q.dl.x0 ∧ 0 < q.dl.x1 := by
    rcases hc with ⟨-, he0, he1, f, e0, e1, ef, h1, h2, -⟩ | ⟨-, h1, -, h2⟩
    · have p0 : p.hg.x0 ≤ he0 := by rw [e0]; exact effHeight_ge
      have p1 : p.hg.x1 ≤ he1 := by rw [e1]; exact effHeight_ge
      have hf : 1 ≤ f := by rw [ef]; exact stretch_ge hκ (by linarith) (by linarith)
      rw [h1, h2]
      dsimp only
      exact ⟨by nlinarith, by nlinarith, roughHorizon_pos hκ (by nlinarith), roughHorizon_pos hκ (by nlinarith)⟩
    · rw [h1, h2]
      exact ⟨effHeight_ge, effHeight_ge, hpos.2.1, hpos.2.2.2.1⟩
  refine ⟨hhe.1, hhe.2.1, hhe.2.2.1, hhe.2.2.2, by rw [qdh]; exact hdh, by rw [hr], by rw [hr], ?_, ?_, ?_⟩
  · rw [hr]; dsimp only; split_ifs <;> omega
  · intro h1; rw [hr]; dsimp only; rw [if_pos h1, if_pos h1]; exact ⟨by split_ifs <;> omega, rfl⟩
  · intro h1; rw [hr]; dsimp only; rw [if_pos h1, if_pos h1]; exact ⟨rfl, rfl⟩

/-- **C39** Only the path parameters and the markers are written. -/
theorem C39_frame {p q : PropSt ℝ} {n : ℕ} (hn : 1 ≤ n) (hnp : p.pfl.np = n) (hx : 0 < p.pfl.xi) (hl : n < p.pfl.z.length)
    (hg0 : 0 < p.hg.x0) (hg1 : 0 < p.hg.x1) (hκ : 0 < p.gme) (h : qlrpflPrep p = .ok q) :
    { q with
      he := p.he
      dl := p.dl
      the := p.the
      dh := p.dh
      dist := p.dist
      mdp := p.mdp
      lvar := p.lvar
      mdvar := p.mdvar
      klim := p.klim } = p := by
  obtain ⟨q', e, hq⟩ := qlrpflPrep_ok hn hnp hx hl hg0 hg1 hκ
  rw [h, ok_inj] at e
  rw [e, hq.rest]

/-- No intermediate point rises above the line of sight. -/
def ClearPath (p : PropSt ℝ) (n : ℕ) : Prop := ∀ j : ℕ, 1 ≤ j → j < n →
  p.pfl.z.getD j 0 + p.gme / 2 * (j * p.pfl.xi) * ((n - j) * p.pfl.xi) ≤
    (1 - j / n) * (p.pfl.z.getD 0 0 + p.hg.x0) + j / n * (p.pfl.z.getD n 0 + p.hg.x1)

theorem clear_iff {p : PropSt ℝ} {n : ℕ} (hn : 1 ≤ n) (hx : 0 < p.pfl.xi) : ClearPath p n ↔ ∀ j : ℕ, 1 ≤ j → j < n →
    elevation p.gme (p.pfl.h 0 + p.hg.x0) (j * p.pfl.xi) (p.pfl.h j) ≤
      elevation p.gme (p.pfl.h 0 + p.hg.x0) (n * p.pfl.xi) (p.pfl.h n + p.hg.x1) := by
  have hn' : (0 : ℝ) < n := by exact_mod_cast hn
  refine forall_congr' fun j => imp_congr_right fun h1 => imp_congr_right fun h2 => ?_
  have hj : (0 : ℝ) < j := by exact_mod_cast h1
  rw [← sub_nonneg, ← sub_nonneg (b := elevation _ _ _ (p.pfl.h j))]
  have e : elevation p.gme (p.pfl.h 0 + p.hg.x0) (n * p.pfl.xi) (p.pfl.h n + p.hg.x1) - elevation p.gme (p.pfl.h 0 + p.hg.x0) (j * p.pfl.xi) (p.pfl.h j) =
      ((1 - (j : ℝ) / n) * (p.pfl.h 0 + p.hg.x0) + (j : ℝ) / n * (p.pfl.h n + p.hg.x1) -
        (p.pfl.h j + p.gme / 2 * (j * p.pfl.xi) * ((n - j) * p.pfl.xi))) / (j * p.pfl.xi) := by
    unfold elevation; field_simp; ring
  rw [e]
  constructor
  · intro h; exact div_nonneg h (by positivity)
  · intro h
    have := mul_nonneg h (by positivity : (0 : ℝ) ≤ j * p.pfl.xi)
    rwa [div_mul_cancel₀ _ (by positivity)] at this

/-- **C39** On clear paths the horizon distances reach: together at least the path length (so `lrprop` sees a line-of-sight path). On
obstructed paths they are the distances of the horizon obstacles and do not overlap. -/
theorem C39_reach {p q : PropSt ℝ} {n : ℕ} (hn : 1 ≤ n) (hnp : p.pfl.np = n) (hx : 0 < p.pfl.xi) (hl : n < p.pfl.z.length)
    (hg0 : 0 < p.hg.x0) (hg1 : 0 < p.hg.x1) (hκ : 0 < p.gme) (h : qlrpflPrep p = .ok q) :
    (ClearPath p n → q.dist ≤ q.dl.x0 + q.dl.x1) ∧
    (¬ ClearPath p n → q.dl.x0 + q.dl.x1 ≤ q.dist ∧ hzns p.pfl (n * p.pfl.xi) p.hg p.gme = .ok (q.the, q.dl)) := by
  obtain ⟨q', e, hq⟩ := qlrpflPrep_ok hn hnp hx hl hg0 hg1 hκ
  rw [h, ok_inj] at e
  subst e
  have hdist : q.dist = n * p.pfl.xi := by rw [hq.rest]
  obtain ⟨the, dl, dh, x1, x2, hz, -, -, -, -, -, -, hdh, qdh, hc⟩ := hq.data
  have hs := hz_sum hn hnp hx hl hz
  have hn' : (0 : ℝ) < n := by exact_mod_cast hn
  have hD : 0 < n * p.pfl.xi := by positivity
  rw [hdist, clear_iff hn hx]
  constructor
  · intro hcl
    rcases hs with ⟨hdl, -⟩ | ⟨-, -, -, j, j1, j2, j3⟩
    · rcases hc with ⟨-, he0, he1, f, e0, e1, ef, h1, h2, -⟩ | ⟨hne, -⟩
      · have p0 : p.hg.x0 ≤ he0 := by rw [e0]; exact effHeight_ge
        have p1 : p.hg.x1 ≤ he1 := by rw [e1]; exact effHeight_ge
        rw [h2, ef]
        exact stretch_reach hκ hdh (by linarith) (by linarith)
      · exact absurd hdl hne
    · exact absurd (hcl j j1 j2) (not_le.2 j3)
  · intro hncl
    rcases hs with ⟨hdl, hcl⟩ | ⟨-, -, hsum, j, j1, j2, j3⟩
    · exact absurd hcl hncl
    · rcases hc with ⟨hdl, -⟩ | ⟨-, h1, h2, -⟩
      · exfalso; rw [hdl] at hsum; dsimp only at hsum; linarith
      · rw [h1, h2]; exact ⟨hsum, hz⟩

/-- A flat path with a ridge, and the same without. -/
noncomputable def pathState (z : List ℝ) : PropSt ℝ :=
  { blank 0 smoothIn with hg := ⟨10, 20⟩, pfl := { np := 2, xi := 1000, z := z } }

example : (∃ q, qlrpflPrep (pathState [0, 50, 0]) = .ok q ∧ q.dl.x0 + q.dl.x1 ≤ q.dist) ∧
    ∃ q, qlrpflPrep (pathState [0, 1, 0]) = .ok q ∧ q.dist ≤ q.dl.x0 + q.dl.x1 := by
  have hκ : ∀ z, 0 < (pathState z).gme := by intro z; simp [pathState, blank, smoothIn, tangentIn]; norm_num
  have hk : ∀ z, (pathState z).gme = 1.25e-7 := by intro z; rfl
  constructor
  · obtain ⟨q, e, -⟩ := C39_total (p := pathState [0, 50, 0]) (n := 2) (by norm_num) rfl (by norm_num [pathState]) (by simp [pathState])
      (by norm_num [pathState]) (by norm_num [pathState]) (hκ _)
    refine ⟨q, e, ((C39_reach (n := 2) (by norm_num) rfl (by norm_num [pathState]) (by simp [pathState])
      (by norm_num [pathState]) (by norm_num [pathState]) (hκ _) e).2 ?_).1⟩
    intro hc
    have := hc 1 le_rfl (by norm_num)
    rw [hk] at this
    norm_num [pathState] at this
  · obtain ⟨q, e, -⟩ := C39_total (p := pathState [0, 1, 0]) (n := 2) (by norm_num) rfl (by norm_num [pathState]) (by simp [pathState])
      (by norm_num [pathState]) (by norm_num [pathState]) (hκ _)
    refine ⟨q, e, (C39_reach (n := 2) (by norm_num) rfl (by norm_num [pathState]) (by simp [pathState])
      (by norm_num [pathState]) (by norm_num [pathState]) (hκ _) e).1 ?_⟩
    intro j h1 h2
    have : j = 1 := by omega
    subst this
    rw [hk]
    norm_num [pathState]

/-! ### C40 -/

/-- **C40** (what holds) On obstructed paths the effective height of the second terminal is the antenna height plus the height of the last
profile point over the line fitted to its foreground (from nine tenths of the horizon distance to the antenna's immediate surroundings).
Full statement: on every path; false for clear paths, see `C40_refuted`. -/
theorem C40_obstructed_partial {p q : PropSt ℝ} {n : ℕ} (hn : 1 ≤ n) (hnp : p.pfl.np = n) (hx : 0 < p.pfl.xi) (hl : n < p.pfl.z.length)
    (hg0 : 0 < p.hg.x0) (hg1 : 0 < p.hg.x1) (hκ : 0 < p.gme) (h : qlrpflPrep p = .ok q) (hobs : ¬ ClearPath p n) :
    ∃ (c s : ℝ) (a b : ℕ), a < b ∧ (a : ℤ) = ⌊(q.dist - 0.9 * q.dl.x1) / p.pfl.xi⌋ ∧
      (b : ℤ) = ⌈(q.dist - min (15 * p.hg.x1) (0.1 * q.dl.x1)) / p.pfl.xi⌉ ∧
      BestLine (fun j => p.pfl.z.getD j 0) a (b - a) c s ∧ q.he.x1 = p.hg.x1 + max (p.pfl.z.getD n 0 - (c + s * n)) 0 := by
  obtain ⟨q', e, hq⟩ := qlrpflPrep_ok hn hnp hx hl hg0 hg1 hκ
  rw [h, ok_inj] at e
  subst e
  have hdist : q.dist = n * p.pfl.xi := by rw [hq.rest]
  obtain ⟨the, dl, dh, x1, x2, hz, hx1, hx2, x10, x12, x2n, -, hdh, qdh, hc⟩ := hq.data
  have hs := hz_sum hn hnp hx hl hz
  have hn' : (0 : ℝ) < n := by exact_mod_cast hn
  rw [clear_iff hn hx] at hobs
  rcases hs with ⟨hdl, hcl⟩ | ⟨d0, d1, hsum, -⟩
  · exact absurd hcl hobs
  rcases hc with ⟨hdl, -⟩ | ⟨-, h1, h2, h3⟩
  · exfalso
    have : 0 < n * p.pfl.xi := by positivity
    rw [hdl] at hsum; dsimp only at hsum; linarith
  rw [hdist, h1, h3]
  dsimp only
  rw [← hx2]
  have hlo : 0 ≤ n * p.pfl.xi - 0.9 * dl.x1 := by norm_num; linarith
  have hlt : n * p.pfl.xi - 0.9 * dl.x1 < x2 := by
    have hm := min_le_right (15 * p.hg.x1) (0.1 * dl.x1)
    rw [hx2]
    generalize min (15 * p.hg.x1) (0.1 * dl.x1) = m at *
    norm_num at hm ⊢
    linarith
  have ha0 : 0 ≤ ⌊(n * p.pfl.xi - 0.9 * dl.x1) / p.pfl.xi⌋ := Int.floor_nonneg.2 (div_nonneg hlo hx.le)
  have hab : ⌊(n * p.pfl.xi - 0.9 * dl.x1) / p.pfl.xi⌋ < ⌈x2 / p.pfl.xi⌉ := by
    have a := Int.floor_le ((n * p.pfl.xi - 0.9 * dl.x1) / p.pfl.xi)
    have b := Int.le_ceil (x2 / p.pfl.xi)
    have c : (n * p.pfl.xi - 0.9 * dl.x1) / p.pfl.xi < x2 / p.pfl.xi := div_lt_div_of_pos_right hlt hx
    have : ((⌊(n * p.pfl.xi - 0.9 * dl.x1) / p.pfl.xi⌋ : ℤ) : ℝ) < ((⌈x2 / p.pfl.xi⌉ : ℤ) : ℝ) := by linarith
    exact_mod_cast this
  refine ⟨_, _, ⌊(n * p.pfl.xi - 0.9 * dl.x1) / p.pfl.xi⌋.toNat, ⌈x2 / p.pfl.xi⌉.toNat, by omega, by omega, by omega, fit_best (by omega), ?_⟩
  unfold effHeight lineAt
  rw [show (⌈x2 / p.pfl.xi⌉ - ⌊(n * p.pfl.xi - 0.9 * dl.x1) / p.pfl.xi⌋).toNat =
    ⌈x2 / p.pfl.xi⌉.toNat - ⌊(n * p.pfl.xi - 0.9 * dl.x1) / p.pfl.xi⌋.toNat by omega]
  change p.hg.x1 + max (p.pfl.h n - fitAt p.pfl.h _ _ n) 0 = p.hg.x1 + max (p.pfl.h n - (fitAt p.pfl.h _ _ 0 + fitB p.pfl.h _ _ * n)) 0
  unfold fitAt
  congr 2
  ring

/-- The first terminal is treated correctly on all paths: its ground height over the fitted line is used (on clear paths the result may
be stretched, never shrunk). -/
theorem C40_transmitter {p q : PropSt ℝ} {n : ℕ} (hn : 1 ≤ n) (hnp : p.pfl.np = n) (hx : 0 < p.pfl.xi) (hl : n < p.pfl.z.length)
    (hg0 : 0 < p.hg.x0) (hg1 : 0 < p.hg.x1) (hκ : 0 < p.gme) (h : qlrpflPrep p = .ok q) :
    ∃ (c s f : ℝ) (a b : ℕ), a < b ∧ b ≤ n ∧ 1 ≤ f ∧ (¬ ClearPath p n → f = 1) ∧
      BestLine (fun j => p.pfl.z.getD j 0) a (b - a) c s ∧ q.he.x0 = (p.hg.x0 + max (p.pfl.z.getD 0 0 - c) 0) * f := by
  obtain ⟨q', e, hq⟩ := qlrpflPrep_ok hn hnp hx hl hg0 hg1 hκ
  rw [h, ok_inj] at e
  subst e
  obtain ⟨the, dl, dh, x1, x2, hz, hx1, hx2, x10, x12, x2n, -, hdh, qdh, hc⟩ := hq.data
  have hs := hz_sum hn hnp hx hl hz
  have hn' : (0 : ℝ) < n := by exact_mod_cast hn
  have hD : 0 < n * p.pfl.xi := by positivity
  have fin : ∀ {y : ℝ}, x1 < y → y ≤ n * p.pfl.xi → ∃ (c s : ℝ) (a b : ℕ), a < b ∧ b ≤ n ∧ BestLine p.pfl.h a (b - a) c s ∧ lineAt p.pfl x1 y 0 = c := by
    intro y h1 h2
    have ha0 : 0 ≤ ⌊x1 / p.pfl.xi⌋ := Int.floor_nonneg.2 (div_nonneg x10.le hx.le)
    have hab : ⌊x1 / p.pfl.xi⌋ < ⌈y / p.pfl.xi⌉ := by
      have a := Int.floor_le (x1 / p.pfl.xi)
      have b := Int.le_ceil (y / p.pfl.xi)
      have c : x1 / p.pfl.xi < y / p.pfl.xi := div_lt_div_of_pos_right h1 hx
      have : ((⌊x1 / p.pfl.xi⌋ : ℤ) : ℝ) < ((⌈y / p.pfl.xi⌉ : ℤ) : ℝ) := by linarith
      exact_mod_cast this
    have hbn : ⌈y / p.pfl.xi⌉ ≤ n := by
      refine Int.ceil_le.2 ?_
      rw [div_le_iff₀ hx]; exact_mod_cast h2
    refine ⟨_, _, ⌊x1 / p.pfl.xi⌋.toNat, ⌈y / p.pfl.xi⌉.toNat, by omega, by omega, fit_best (by omega), ?_⟩
    unfold lineAt
    rw [show (⌈y / p.pfl.xi⌉ - ⌊x1 / p.pfl.xi⌋).toNat = ⌈y / p.pfl.xi⌉.toNat - ⌊x1 / p.pfl.xi⌋.toNat by omega]
  rw [clear_iff hn hx]
  rcases hc with ⟨hdl, he0, he1, f, e0, e1, ef, h1, -⟩ | ⟨-, h1, h2, h3⟩
  · obtain ⟨c, s, a, b, hab, hbn, hbest, hline⟩ := fin x12 x2n.le
    have p0 : p.hg.x0 ≤ he0 := by rw [e0]; exact effHeight_ge
    have p1 : p.hg.x1 ≤ he1 := by rw [e1]; exact effHeight_ge
    refine ⟨c, s, f, a, b, hab, hbn, by rw [ef]; exact stretch_ge hκ (by linarith) (by linarith), fun hcl => ?_, hbest, ?_⟩
    · rcases hs with ⟨-, hcl'⟩ | ⟨-, -, hsum, -⟩
      · exact absurd hcl' hcl
      · rw [hdl] at hsum; dsimp only at hsum; linarith
    · rw [h1]; dsimp only; rw [e0, hline]; rfl
  · have hpos := C35_both_or_neither (ha := p.hg.x0) (hb := p.hg.x1) hn hnp hx hl hz
    have hm := min_le_right (15 * p.hg.x0) (0.1 * dl.x0)
    rw [← hx1] at hm
    obtain ⟨c, s, a, b, hab, hbn, hbest, hline⟩ := fin (y := 0.9 * dl.x0) (by norm_num at hm ⊢; linarith [hpos.2.1])
      (by norm_num; linarith [hpos.2.1, hpos.2.2.1])
    refine ⟨c, s, 1, a, b, hab, hbn, le_rfl, fun _ => rfl, hbest, ?_⟩
    rw [h3, mul_one]; dsimp only; rw [hline]; rfl

/-- Straight terrain that falls by `s` per interval towards the receiver (or rises, `s < 0`), antennas high enough for the horizons to
reach: the parameters of the preparation. -/
theorem prep_straight {p : PropSt ℝ} {n : ℕ} {c s : ℝ} (hn : 1 ≤ n) (hnp : p.pfl.np = n) (hx : 0 < p.pfl.xi) (hl : n < p.pfl.z.length)
    (hκ : 0 < p.gme) (hz : ∀ j, j < p.pfl.z.length → p.pfl.z.getD j 0 = c - s * j)
    (hg0 : p.gme * (n * p.pfl.xi) ^ 2 / 8 < p.hg.x0) (hg1 : p.gme * (n * p.pfl.xi) ^ 2 / 8 < p.hg.x1) :
    ∃ q, qlrpflPrep p = .ok q ∧ q.he = ⟨p.hg.x0, p.hg.x1 + max s 0⟩ := by
  have hn' : (0 : ℝ) < n := by exact_mod_cast hn
  have hD : 0 < n * p.pfl.xi := by positivity
  have hq0 : 0 < p.gme * (n * p.pfl.xi) ^ 2 / 8 := by positivity
  have hh0 : 0 < p.hg.x0 := by linarith
  have hh1 : 0 < p.hg.x1 := by linarith
  obtain ⟨q, e, hq⟩ := qlrpflPrep_ok hn hnp hx hl hh0 hh1 hκ
  refine ⟨q, e, ?_⟩
  have hclear : ClearPath p n := by
    intro j h1 h2
    have hj : (0 : ℝ) < j := by exact_mod_cast h1
    have hj' : (j : ℝ) < n := by exact_mod_cast h2
    rw [hz j (by omega), hz 0 (by omega), hz n hl]
    have e1 : (1 - (j : ℝ) / n) * (c - s * ((0 : ℕ) : ℝ) + p.hg.x0) + (j : ℝ) / n * (c - s * n + p.hg.x1) =
        c - s * j + ((1 - (j : ℝ) / n) * p.hg.x0 + (j : ℝ) / n * p.hg.x1) := by
      push_cast; field_simp; ring
    rw [e1]
    have w0 : 0 ≤ 1 - (j : ℝ) / n := by rw [sub_nonneg, div_le_one hn']; exact hj'.le
    have w1 : 0 ≤ (j : ℝ) / n := by positivity
    have a : p.gme / 2 * (j * p.pfl.xi) * ((n - j) * p.pfl.xi) ≤ p.gme * (n * p.pfl.xi) ^ 2 / 8 := by
      have : (j : ℝ) * (n - j) ≤ n ^ 2 / 4 := by nlinarith [sq_nonneg ((n : ℝ) - 2 * j)]
      have hk : 0 ≤ p.gme / 2 * p.pfl.xi ^ 2 := by positivity
      nlinarith [mul_le_mul_of_nonneg_left this hk]
    nlinarith
  obtain ⟨the, dl, dh, x1, x2, hzn, hx1, hx2, x10, x12, x2n, edh, hdh, qdh, hc⟩ := hq.data
  have hsum := hz_sum hn hnp hx hl hzn
  rw [clear_iff hn hx] at hclear
  have hnr : (p.pfl.np : ℝ) = n := by rw [hnp]; rfl
  have hz' : ∀ j, j < p.pfl.z.length → p.pfl.z.getD j 0 = c + (-s) * j := by intro j hj; rw [hz j hj]; ring
  have e0 : dh = 0 := by
    have := C37_straight (p := p.pfl) (x1 := x1) (x2 := x2) hx (by omega) x10.le (by rw [hnr]; exact x2n.le) hz'
    rw [edh, ok_inj] at this
    exact this
  have hfl : ⌊x1 / p.pfl.xi⌋ < ⌈x2 / p.pfl.xi⌉ := by
    have a := Int.floor_le (x1 / p.pfl.xi)
    have b := Int.le_ceil (x2 / p.pfl.xi)
    have c : x1 / p.pfl.xi < x2 / p.pfl.xi := div_lt_div_of_pos_right x12 hx
    have : ((⌊x1 / p.pfl.xi⌋ : ℤ) : ℝ) < ((⌈x2 / p.pfl.xi⌉ : ℤ) : ℝ) := by linarith
    exact_mod_cast this
  have hline := C33_straight (p := p.pfl) (x1 := x1) (x2 := x2) hx (by omega) x10.le (by rw [hnr]; exact x2n.le) hfl hz'
  rw [zlsq1_line hx (by omega) x10.le x12 (by rw [hnr]; exact x2n.le), ok_inj, Prod.mk.injEq, hnr] at hline
  rcases hc with ⟨-, he0, he1, f, ea, eb, ef, h1, -⟩ | ⟨hne, -⟩
  · have z0 : p.pfl.h 0 = c := by
      have := hz 0 (by omega)
      unfold Pfl.h; rw [this]; simp
    have zn : p.pfl.h (n - 1) = c - s * n + s := by
      have := hz (n - 1) (by omega)
      unfold Pfl.h; rw [this, Nat.cast_sub hn]; push_cast; ring
    rw [hline.1, z0] at ea
    rw [hline.2, zn] at eb
    have ea : he0 = p.hg.x0 := by rw [ea]; unfold effHeight; simp
    have eb : he1 = p.hg.x1 + max s 0 := by
      rw [eb]; unfold effHeight
      rw [show c - s * n + s - (c + -s * n) = s by ring]
    have far : ∀ h : ℝ, p.gme * (n * p.pfl.xi) ^ 2 / 8 < h → n * p.pfl.xi / 2 < roughHorizon p.gme 0 h := by
      intro h hh
      unfold roughHorizon smoothReach
      simp only [zero_div, Real.sqrt_zero, mul_zero, Real.exp_zero, mul_one]
      apply Real.lt_sqrt_of_sq_lt
      rw [lt_div_iff₀ hκ]
      nlinarith
    have hf : f = 1 := by
      rw [ef, e0, ea, eb]
      unfold stretch
      rw [if_neg]
      have := far _ hg0
      have := far (p.hg.x1 + max s 0) (by have := le_max_right s 0; linarith)
      intro hc; linarith
    rw [h1, hf, ea, eb, mul_one, mul_one]
  · rcases hsum with ⟨hdl, -⟩ | ⟨-, -, -, j, j1, j2, j3⟩
    · exact absurd hdl hne
    · exact absurd (hclear j j1 j2) (not_le.2 j3)

/-- **C40** (refuted) Straight terrain that falls by `s` per interval towards the receiver: the ground lies on the fitted line, so
the effective heights should be the antenna heights; but the second one is too high by `s`, because the last but one profile
point is taken for the receiver's ground. -/
theorem C40_refuted {p : PropSt ℝ} {n : ℕ} {c s : ℝ} (hn : 1 ≤ n) (hnp : p.pfl.np = n) (hx : 0 < p.pfl.xi) (hl : n < p.pfl.z.length)
    (hκ : 0 < p.gme) (hs : 0 < s) (hz : ∀ j, j < p.pfl.z.length → p.pfl.z.getD j 0 = c - s * j)
    (hg0 : p.gme * (n * p.pfl.xi) ^ 2 / 8 < p.hg.x0) (hg1 : p.gme * (n * p.pfl.xi) ^ 2 / 8 < p.hg.x1) :
    ∃ q, qlrpflPrep p = .ok q ∧ q.he = ⟨p.hg.x0, p.hg.x1 + s⟩ := by
  obtain ⟨q, e, h⟩ := prep_straight hn hnp hx hl hκ hz hg0 hg1
  exact ⟨q, e, by rw [h, max_eq_left hs.le]⟩

/-- Terrain falling 30 m per kilometre: the receiver antenna of 20 m is credited with 50 m. -/
example : ∃ q, qlrpflPrep (pathState [100, 70, 40]) = .ok q ∧ q.he = ⟨10, 20 + 30⟩ := by
  refine C40_refuted (p := pathState [100, 70, 40]) (n := 2) (c := 100) (s := 30) (by norm_num) rfl (by norm_num [pathState])
    (by simp [pathState]) (by simp [pathState, blank, smoothIn, tangentIn]; norm_num) (by norm_num) ?_ ?_ ?_
  · intro j hj
    have : j < 3 := hj
    interval_cases j <;> norm_num [pathState]
  · rw [show (pathState [100, 70, 40]).gme = 1.25e-7 from rfl]; norm_num [pathState]
  · rw [show (pathState [100, 70, 40]).gme = 1.25e-7 from rfl]; norm_num [pathState]

end Itm.Props
